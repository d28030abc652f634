import Verif.Model.Ops

/-!
# `#[derive(Packet)]`

A packet declaration is data (`Decl`), and every method the macro generates is a function of it.
Models `derive/src/gen.rs` and the declaration checks of `derive/src/parse.rs`.
-/

namespace Verif

/-- Values of packet structs, dynamically typed. A struct is the `list` of its fields. -/
inductive Val where
  /-- an integer field -/
  | num (n : Nat)
  /-- the primitive values of a `#[construct_with]` field, or a `Vec` of integers -/
  | nums (ns : List Nat)
  /-- a struct (its fields in order), or a `Vec` of structs -/
  | list (vs : List Val)
  deriving Repr

mutual
/-- Decidable equality of values (a nested inductive, so written out). -/
def Val.decEq : (a b : Val) → Decidable (a = b)
  | .num a, .num b => if h : a = b then isTrue (h ▸ rfl) else isFalse fun e => h (by cases e; rfl)
  | .nums a, .nums b => if h : a = b then isTrue (h ▸ rfl) else isFalse fun e => h (by cases e; rfl)
  | .list a, .list b =>
    match Val.decEqList a b with
    | isTrue h => isTrue (h ▸ rfl)
    | isFalse h => isFalse fun e => h (by cases e; rfl)
  | .num _, .nums _ => isFalse fun e => by cases e
  | .num _, .list _ => isFalse fun e => by cases e
  | .nums _, .num _ => isFalse fun e => by cases e
  | .nums _, .list _ => isFalse fun e => by cases e
  | .list _, .num _ => isFalse fun e => by cases e
  | .list _, .nums _ => isFalse fun e => by cases e
/-- Decidable equality of value lists. -/
def Val.decEqList : (a b : List Val) → Decidable (a = b)
  | [], [] => isTrue rfl
  | [], _ :: _ => isFalse fun e => by cases e
  | _ :: _, [] => isFalse fun e => by cases e
  | a :: as, b :: bs =>
    match Val.decEq a b with
    | isTrue h =>
      match Val.decEqList as bs with
      | isTrue hs => isTrue (by rw [h, hs])
      | isFalse hs => isFalse fun e => hs (by cases e; rfl)
    | isFalse h => isFalse fun e => h (by cases e; rfl)
end

instance : DecidableEq Val := Val.decEq

/-- What the code generated for an outer packet uses of an inner packet type `X` in a field of type
`Vec<X>`: `XPacket::minimum_packet_size()`, `PacketSize::packet_size`, `FromPacket::from_packet`
and `MutableXPacket::populate`, each as a function of the buffer the inner packet wraps. -/
structure Codec where
  minSize : Nat
  packetSize : Mode → Buf → Res Nat
  fromPacket : Mode → Buf → Res Val
  populate : Mode → Buf → Val → Res Buf

/-- `Type` of `derive/src/parse.rs:14-22`. `Vec<Vec<_>>` is rejected by the macro
(`gen.rs:234-239`) and has no constructor. -/
inductive Ty where
  /-- `Type::Primitive` -/
  | prim (p : Prim)
  /-- `Type::Misc` with its `#[construct_with(..)]` primitives -/
  | misc (args : List Prim)
  /-- `Type::Vector` of a primitive -/
  | vecPrim (p : Prim)
  /-- `Type::Vector` of another packet struct -/
  | vecPkt (c : Codec)

/-- A `#[length = ".."]` expression: a function of the build mode, of the getters of the *earlier*
fields (by position) and of the slice that `...` stands for (`&self.packet[(current offset)..]`,
which itself may panic); see `derive/src/parse.rs:86-128` and `gen.rs:104-113`. Simplification:
getters of later fields are not available. -/
abbrev LenExpr := Mode → (Nat → Res Val) → Res Buf → Res Nat

/-- `Field` of `derive/src/parse.rs:24-33`. -/
structure Field where
  name : String
  ty : Ty
  payload : Bool := false
  len : Option LenExpr := none

/-- `Packet` of `derive/src/parse.rs:35-39` (the name is not needed). -/
structure Decl where
  fields : List Field

/-- Fixed bits a field adds to `bit_offset` (`gen.rs:130,326`). -/
def Ty.bits : Ty → Nat
  | .prim p => p.size
  | .misc args => (args.map (·.size)).sum
  | .vecPrim _ => 0
  | .vecPkt _ => 0

/-- `Type::Vector(_)`. -/
def Ty.isVec : Ty → Bool
  | .prim _ => false
  | .misc _ => false
  | .vecPrim _ => true
  | .vecPkt _ => true

/-- `current_offset`, `gen.rs:63-71`: the text `bit_offset / 8 + len_1 + len_2 + ...`, evaluated.
`lens` are the values of the length expressions so far. -/
def curOff (m : Mode) (bit : Nat) (lens : List (Res Nat)) : Res Nat :=
  lens.foldlM (fun a l => do uadd m a (← l)) (bit / 8)

/-- Getter arguments of a `construct_with` field: argument `i` is read at its own recomputed
offset (`gen.rs:300-328`). -/
def getArgs (m : Mode) (lens : List (Res Nat)) (buf : Buf) : (bit : Nat) → List Prim → Res (List Nat)
  | _, [] => .ok []
  | bit, p :: ps => do
    let co ← curOff m bit lens
    let v ← getPrim p (bit % 8) buf co
    let vs ← getArgs m lens buf (bit + p.size) ps
    .ok (v :: vs)

/-- `current_offset .. min(current_offset + packet_length, self.packet.len())`
(`gen.rs:142-145,181-186,265-269`). -/
def varSlice (m : Mode) (buf : Buf) (co len : Res Nat) : Res Buf := do
  let a ← co
  let b ← uadd m a (← len)
  slice buf a (min b buf.length)

/-- The loop of a `Vec<primitive>` getter, `gen.rs:187-193`: `n` iterations from byte `co` of the
sliced `packet`. -/
def getElems (p : Prim) (packet : Buf) : (n co : Nat) → Res (List Nat)
  | 0, _ => .ok []
  | n + 1, co => do
    let v ← getPrim ⟨p.size, .big⟩ 0 packet co
    let vs ← getElems p packet n (co + p.size / 8)
    .ok (v :: vs)

/-- `Iterator::next` of `XIterable` (`gen.rs:667-678`): the yielded packet is identified with the
buffer it wraps (the whole remaining buffer); also returns the new `self.buf`. -/
def Codec.next (c : Codec) (m : Mode) (buf : Buf) : Res (Option (Buf × Buf)) :=
  if buf.length > 0 ∧ c.minSize ≤ buf.length then do
    let size ← c.packetSize m buf
    let rest ← sliceFrom buf (min size buf.length)
    .ok (some (buf, rest))
  else .ok none

/-- `iter.map(|p| p.from_packet()).collect()` (`gen.rs:253-257`). `fuel` bounds the number of
items; `buf.length` is enough because each `next` that returns removes at least one byte, unless
it removes nothing, in which case the loop never ends (`hang`). -/
def Codec.collect (c : Codec) (m : Mode) : (fuel : Nat) → Buf → Res (List Val)
  | 0, _ => .ok []
  | fuel + 1, buf => do
    match ← c.next m buf with
    | none => .ok []
    | some (p, rest) =>
      let v ← c.fromPacket m p
      if rest.length < buf.length then do
        let vs ← c.collect m fuel rest
        .ok (v :: vs)
      else .error .hang

/-- The packets yielded by an `XIterable`, each as the buffer it wraps. -/
def Codec.items (c : Codec) (m : Mode) : (fuel : Nat) → Buf → Res (List Buf)
  | 0, _ => .ok []
  | fuel + 1, buf => do
    match ← c.next m buf with
    | none => .ok []
    | some (p, rest) =>
      if rest.length < buf.length then do
        let vs ← c.items m fuel rest
        .ok (p :: vs)
      else .error .hang

/-- `get_<field>()`; `len` is the value of `packet_length`, i.e. of the length expression or
`self.packet.len()` (`gen.rs:125-361`). -/
def getField (m : Mode) (buf : Buf) (bit : Nat) (lens : List (Res Nat)) (len : Res Nat) :
    Ty → Res Val
  | .prim p => do
    let co ← curOff m bit lens
    .num <$> getPrim p (bit % 8) buf co
  | .misc args => .nums <$> getArgs m lens buf bit args
  | .vecPrim p => do
    let packet ← varSlice m buf (curOff m bit lens) len
    .nums <$> getElems p packet packet.length 0
  | .vecPkt c => do
    let packet ← varSlice m buf (curOff m bit lens) len
    .list <$> c.collect m packet.length packet

/-- State of the loop of `packet_impl` (`gen.rs:84-103`), for one buffer: the bit offset, the
values of the length expressions and of the getters of the fields so far. -/
structure St where
  bit : Nat
  lens : List (Res Nat)
  vals : List (Res Val)

/-- The loop's initial state (`gen.rs:84-86`). -/
def St.init : St := ⟨0, [], []⟩

/-- Getter of field `i`, when it is an earlier field. -/
def St.get (st : St) (i : Nat) : Res Val := (st.vals[i]?).getD panic

/-- Value of the field's length expression (`gen.rs:104-113`). -/
def lenExpr (m : Mode) (buf : Buf) (st : St) (e : LenExpr) : Res Nat :=
  e m st.get (curOff m st.bit st.lens >>= sliceFrom buf)

/-- `packet_length`: the length expression, or `self.packet.len()`. -/
def fieldLen (m : Mode) (buf : Buf) (st : St) (f : Field) : Res Nat :=
  match f.len with
  | some e => lenExpr m buf st e
  | none => .ok buf.length

/-- One iteration of the loop (`gen.rs:99-373`). -/
def St.step (m : Mode) (buf : Buf) (st : St) (f : Field) : St :=
  { bit := st.bit + f.ty.bits
    lens := match f.len with
      | some e => st.lens ++ [lenExpr m buf st e]
      | none => st.lens
    vals := st.vals ++ [getField m buf st.bit st.lens (fieldLen m buf st f) f.ty] }

/-- The loop over the first fields. -/
def St.run (m : Mode) (buf : Buf) (st : St) (fs : List Field) : St := fs.foldl (St.step m buf) st

/-- State just before field `k`. -/
def Decl.before (d : Decl) (m : Mode) (buf : Buf) (k : Nat) : St :=
  St.run m buf .init (d.fields.take k)

/-- State after the last field. -/
def Decl.final (d : Decl) (m : Mode) (buf : Buf) : St := St.run m buf .init d.fields

/-- Bits of all fixed-size fields (`bit_offset` after the loop). -/
def Decl.bits (d : Decl) : Nat := (d.fields.map (·.ty.bits)).sum

/-- `minimum_packet_size()`, `gen.rs:391-395,447-449`. -/
def Decl.minSize (d : Decl) : Nat :=
  if d.bits % 8 = 0 then d.bits / 8 else d.bits / 8 + 1

/-- `get_<field k>()`. -/
def Decl.get (d : Decl) (m : Mode) (buf : Buf) (k : Nat) : Res Val :=
  match d.fields[k]? with
  | some f =>
    let st := d.before m buf k
    getField m buf st.bit st.lens (fieldLen m buf st f) f.ty
  | none => panic

/-- `get_<field k>_raw()` / `get_<field k>_raw_mut()` for a vector field (`gen.rs:133-160`). -/
def Decl.getRaw (d : Decl) (m : Mode) (buf : Buf) (k : Nat) : Res Buf :=
  match d.fields[k]? with
  | some f =>
    let st := d.before m buf k
    varSlice m buf (curOff m st.bit st.lens) (fieldLen m buf st f)
  | none => panic

/-- `FromPacket::from_packet` (`gen.rs:687-720`): all getters in order. -/
def Decl.fromPacket (d : Decl) (m : Mode) (buf : Buf) : Res Val :=
  .list <$> (d.final m buf).vals.mapM id

/-- `{:?}` on a packet evaluates the getters of all fields but the payload (`gen.rs:722-753`);
the text is in `Verif/Model/Debug.lean`. -/
def Decl.debug (d : Decl) (m : Mode) (buf : Buf) : Res Unit := do
  let _ ← (List.zip d.fields (d.final m buf).vals).mapM fun (f, v) =>
    if f.payload then pure (.num 0) else v
  pure ()

/-- `PacketSize::packet_size(&self)` (`gen.rs:468-472,571-592`). -/
def Decl.packetSize (d : Decl) (m : Mode) (buf : Buf) : Res Nat :=
  let st := d.final m buf
  curOff m st.bit st.lens

/-- Position of the payload field, if any. -/
def Decl.payloadIdx (d : Decl) : Option Nat :=
  d.fields.findIdx? (·.payload)

/-- `start` and `end` of `payload()`/`payload_mut()` (`gen.rs:90-93,114-124,644-645`). -/
def Decl.payloadBounds (d : Decl) (m : Mode) (buf : Buf) : Res (Nat × Nat) :=
  match d.payloadIdx with
  | none => .ok (0, 0)
  | some k =>
    let st := d.before m buf k
    match d.fields[k]? with
    | none => panic
    | some f => do
      let lower ← curOff m st.bit st.lens
      match f.len with
      | none => .ok (lower, min buf.length buf.length)
      | some e => do
        let upper ← uadd m lower (← lenExpr m buf st e)
        .ok (lower, min upper buf.length)

/-- `Packet::payload()` (`gen.rs:643-650`). -/
def Decl.payload (d : Decl) (m : Mode) (buf : Buf) : Res Buf := do
  let (a, b) ← d.payloadBounds m buf
  if buf.length ≤ a then .ok [] else slice buf a b

/-- Overwriting the whole slice returned by `MutablePacket::payload_mut()` with `new`
(`new.length` must equal the slice's length, else `copy_from_slice` panics). -/
def Decl.payloadMutCopy (d : Decl) (m : Mode) (buf new : Buf) : Res Buf := do
  let (a, b) ← d.payloadBounds m buf
  if buf.length ≤ a then (if new.length = 0 then .ok buf else panic)
  else do
    let old ← slice buf a b
    if new.length = old.length then copyInto buf a new else panic

/-- `XPacket::new` / `MutableXPacket::new` / `owned` (`gen.rs:410-429`): the packet, identified
with the bytes it wraps. -/
def Decl.new (d : Decl) (buf : Buf) : Option Buf := if buf.length ≥ d.minSize then some buf else none

/-- Setter arguments of a `construct_with` field (`gen.rs:341-348`): every `set_argI` recomputes
its offset on the current buffer. `lensOf` evaluates the earlier length expressions. -/
def setArgs (m : Mode) (lensOf : Buf → List (Res Nat)) :
    (bit : Nat) → List Prim → List Nat → Buf → Res Buf
  | bit, p :: ps, v :: vs, buf => do
    let co ← curOff m bit (lensOf buf)
    let buf ← setPrim p (bit % 8) buf co v
    setArgs m lensOf (bit + p.size) ps vs buf
  | _, _, _, buf => .ok buf

/-- The loop of a `Vec<primitive>` setter for elements wider than a byte (`gen.rs:210-220`). -/
def setElems (p : Prim) : (co : Nat) → List Nat → Buf → Res Buf
  | _, [], buf => .ok buf
  | co, v :: vs, buf => do
    let buf ← setPrim ⟨p.size, .big⟩ 0 buf co v
    setElems p (co + p.size / 8) vs buf

/-- The loop of a `Vec<packet>` setter (`gen.rs:280-287`). -/
def setPackets (m : Mode) (c : Codec) (endOff : Nat) : (cur : Nat) → List Val → Buf → Res Buf
  | _, [], buf => .ok buf
  | cur, v :: vs, buf => do
    let sub ← sliceFrom buf cur
    if c.minSize ≤ sub.length then do
      let sub ← c.populate m sub v
      let buf := buf.take cur ++ sub
      let size ← c.packetSize m sub
      let cur ← uadd m cur size
      if cur ≤ endOff then setPackets m c endOff cur vs buf else panic
    else panic

/-- `set_<field k>(val)` (`gen.rs:128,196-232,273-289,336-349`). An ill-typed value cannot occur
in Rust (the type checker rejects it); here it is a `panic`. Elements of 8 bits are taken to be called
`u8`; for `u8be`, `u8le` and `u8he` (`gen.rs:205` compares the name) the macro writes the loop of the
wider elements, which differs for an empty slice after the end of the buffer only. -/
def Decl.set (d : Decl) (m : Mode) (buf : Buf) (k : Nat) (val : Val) : Res Buf :=
  match d.fields[k]? with
  | none => panic
  | some f =>
    let st := d.before m buf k
    match f.ty, val with
    | .prim p, .num v => do
      let co ← curOff m st.bit st.lens
      setPrim p (st.bit % 8) buf co v
    | .misc args, .nums vs =>
      if vs.length = args.length then
        setArgs m (fun b => (d.before m b k).lens) st.bit args vs buf
      else panic
    | .vecPrim p, .nums vs => do
      let co ← curOff m st.bit st.lens
      match f.len with
      | some e => do
        let len ← lenExpr m buf st e
        if vs.length ≤ len then pure () else panic
      | none => pure ()
      if p.size = 8 then copyInto buf co (vs.map UInt8.ofNat) else setElems p co vs buf
    | .vecPkt c, .list vs => do
      let co ← curOff m st.bit st.lens
      let endOff ← uadd m co (← fieldLen m buf st f)
      setPackets m c endOff co vs buf
    | _, _ => panic

/-- Setters of fields `k`, `k+1`, ... in order. -/
def Decl.populateFrom (d : Decl) (m : Mode) : (k : Nat) → List Val → Buf → Res Buf
  | _, [], buf => .ok buf
  | k, v :: vs, buf => do
    let buf ← d.set m buf k v
    d.populateFrom m (k + 1) vs buf

/-- `populate(&mut self, packet)` (`gen.rs:368-387`). -/
def Decl.populate (d : Decl) (m : Mode) (buf : Buf) : Val → Res Buf
  | .list vs => if vs.length = d.fields.length then d.populateFrom m 0 vs buf else panic
  | _ => panic

/-- `_packet.<field>.len()` for vector fields (`parse.rs:186`). -/
def structLen : Ty → Val → Nat
  | .vecPrim _, .nums vs => vs.length
  | .vecPkt _, .list vs => vs.length
  | _, _ => 0

/-- The associated function `XPacket::packet_size(&X)` (`gen.rs:390,454-458`). -/
def Decl.staticSize (d : Decl) (vs : List Val) : Nat :=
  d.bits / 8 + (List.zipWith (fun f v => structLen f.ty v) d.fields vs).sum

/-- All `construct_with` arguments get an operation table (`gen.rs:302`). -/
def acceptedArgs : (bit : Nat) → List Prim → Bool
  | _, [] => true
  | bit, p :: ps => p.accepted (bit % 8) && acceptedArgs (bit + p.size) ps

/-- The macro generates code for a field of this type at this bit offset. -/
def Ty.accepted (bit : Nat) : Ty → Bool
  | .prim p => p.accepted (bit % 8)
  | .misc args => !args.isEmpty && acceptedArgs bit args
  | .vecPrim p => p.size % 8 == 0 && Prim.accepted ⟨p.size, .big⟩ 0
  | .vecPkt _ => true

/-- Per-field checks: `parse.rs:184-204` (vector without length only as last field; non-empty
`construct_with`) and `gen.rs:127,164-169,302`. -/
def acceptedFields : (bit : Nat) → List Field → Bool
  | _, [] => true
  | bit, f :: fs =>
    f.ty.accepted bit && (!f.ty.isVec || f.len.isSome || fs.isEmpty) &&
      acceptedFields (bit + f.ty.bits) fs

/-- The declarations for which the macro produces code; at most one payload (`parse.rs:74-79`). -/
def Decl.accepted (d : Decl) : Bool :=
  acceptedFields 0 d.fields && decide ((d.fields.filter (·.payload)).length ≤ 1)

/-- A declaration used as element type of a `Vec` in another declaration. -/
def Decl.codec (d : Decl) : Codec where
  minSize := d.minSize
  packetSize := d.packetSize
  fromPacket := d.fromPacket
  populate := d.populate

end Verif
