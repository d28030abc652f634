import Verif.Model.Derive

/-!
# What a write that panics leaves behind

A mutable packet writes into a buffer of the caller, or owns it and can be looked at after
`catch_unwind`; so the bytes are still there when a setter or `populate` panics. The functions of
`Model/Derive` that write return the new bytes or a failure; those below run the same statements and
return the bytes in both cases.
-/

namespace Verif

/-- The bytes of the buffer when a call ends, and how it ended. -/
abbrev Left := Buf × Res Unit

/-- What is left when the value `r` has been computed without writing; `next` is the rest of the call. -/
def reading {α : Type} (buf : Buf) (r : Res α) (next : α → Left) : Left :=
  match r with
  | .ok a => next a
  | .error e => (buf, .error e)

/-- A write that is made whole or not at all: an assignment to a byte, and `copy_from_slice` into a
range, both of which check their bounds first. -/
def atOnce (buf : Buf) : Res Buf → Left
  | .ok new => (new, .ok ())
  | .error e => (buf, .error e)

/-- The rest of a call after a part of it. -/
def andThen (l : Left) (next : Buf → Left) : Left :=
  match l.2 with
  | .ok _ => next l.1
  | .error e => (l.1, .error e)

/-- The statements of `gen_set_ops`, `derive/src/gen.rs:755-768`, from operation `idx` on. -/
def setOpsLeft (W co v : Nat) : (idx : Nat) → List SetOperation → Buf → Left
  | _, [], buf => (buf, .ok ())
  | idx, op :: ops, buf =>
    reading buf (index buf (co + idx)) fun old =>
    reading buf (op.eval W old.toNat v) fun new =>
    andThen (atOnce buf (setIndex buf (co + idx) (UInt8.ofNat new))) fun buf =>
    setOpsLeft W co v (idx + 1) ops buf

/-- The mutator made by `gen_mutator` (`derive/src/gen.rs:525-569`). -/
def setPrimLeft (p : Prim) (offset : Nat) (buf : Buf) (co v : Nat) : Left :=
  reading buf ((operations offset p.size p.endian).elim panic .ok) fun ops =>
  setOpsLeft (storageWidth p.size) co v 0 (toMutator ops) buf

/-- Setter arguments of a `construct_with` field (`derive/src/gen.rs:341-348`). -/
def setArgsLeft (m : Mode) (lensOf : Buf → List (Res Nat)) :
    (bit : Nat) → List Prim → List Nat → Buf → Left
  | bit, p :: ps, v :: vs, buf =>
    reading buf (curOff m bit (lensOf buf)) fun co =>
    andThen (setPrimLeft p (bit % 8) buf co v) fun buf =>
    setArgsLeft m lensOf (bit + p.size) ps vs buf
  | _, _, _, buf => (buf, .ok ())

/-- The loop of a `Vec<primitive>` setter for elements wider than a byte (`derive/src/gen.rs:210-220`). -/
def setElemsLeft (p : Prim) : (co : Nat) → List Nat → Buf → Left
  | _, [], buf => (buf, .ok ())
  | co, v :: vs, buf =>
    andThen (setPrimLeft ⟨p.size, .big⟩ 0 buf co v) fun buf =>
    setElemsLeft p (co + p.size / 8) vs buf

/-- `populate` of the packet type of the elements of a vector, on the part of the buffer it is given. -/
abbrev PopulateLeft := Mode → Buf → Val → Left

/-- The loop of a `Vec<packet>` setter (`derive/src/gen.rs:280-287`). The inner packet borrows the rest
of the buffer, so what it has written stays there. -/
def setPacketsLeft (m : Mode) (c : Codec) (pop : PopulateLeft) (endOff : Nat) :
    (cur : Nat) → List Val → Buf → Left
  | _, [], buf => (buf, .ok ())
  | cur, v :: vs, buf =>
    reading buf (sliceFrom buf cur) fun sub =>
    if c.minSize ≤ sub.length then
      let l := pop m sub v
      andThen (buf.take cur ++ l.1, l.2) fun buf =>
      reading buf (c.packetSize m l.1) fun size =>
      reading buf (uadd m cur size) fun cur =>
      if cur ≤ endOff then setPacketsLeft m c pop endOff cur vs buf else (buf, panic)
    else (buf, panic)

/-- `set_<field k>(val)` (`derive/src/gen.rs:128,196-232,273-289,336-349`); `pop k` is `populate` of the
elements of field `k`. As in `Decl.set`, elements of 8 bits are called `u8`. -/
def Decl.setLeft (d : Decl) (pop : Nat → PopulateLeft) (m : Mode) (buf : Buf) (k : Nat) (val : Val) : Left :=
  match d.fields[k]? with
  | none => (buf, panic)
  | some f =>
    let st := d.before m buf k
    match f.ty, val with
    | .prim p, .num v =>
      reading buf (curOff m st.bit st.lens) fun co => setPrimLeft p (st.bit % 8) buf co v
    | .misc args, .nums vs =>
      if vs.length = args.length then
        setArgsLeft m (fun b => (d.before m b k).lens) st.bit args vs buf
      else (buf, panic)
    | .vecPrim p, .nums vs =>
      reading buf (curOff m st.bit st.lens) fun co =>
      reading buf (match f.len with
        | some e => do
          let len ← lenExpr m buf st e
          if vs.length ≤ len then pure () else panic
        | none => pure ()) fun _ =>
      if p.size = 8 then atOnce buf (copyInto buf co (vs.map UInt8.ofNat)) else setElemsLeft p co vs buf
    | .vecPkt c, .list vs =>
      reading buf (curOff m st.bit st.lens) fun co =>
      reading buf (fieldLen m buf st f) fun len =>
      reading buf (uadd m co len) fun endOff =>
      setPacketsLeft m c (pop k) endOff co vs buf
    | _, _ => (buf, panic)

/-- Setters of fields `k`, `k+1`, ... in order. -/
def Decl.populateFromLeft (d : Decl) (pop : Nat → PopulateLeft) (m : Mode) :
    (k : Nat) → List Val → Buf → Left
  | _, [], buf => (buf, .ok ())
  | k, v :: vs, buf =>
    andThen (d.setLeft pop m buf k v) fun buf => d.populateFromLeft pop m (k + 1) vs buf

/-- `populate(&mut self, packet)` (`derive/src/gen.rs:368-387`). -/
def Decl.populateLeft (d : Decl) (pop : Nat → PopulateLeft) : PopulateLeft := fun m buf v =>
  match v with
  | .list vs => if vs.length = d.fields.length then d.populateFromLeft pop m 0 vs buf else (buf, panic)
  | _ => (buf, panic)

/-- Packet types whose vectors are vectors of integers need no inner `populate`. -/
def noPackets : Nat → PopulateLeft := fun _ _ buf _ => (buf, panic)

end Verif
