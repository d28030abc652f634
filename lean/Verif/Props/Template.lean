import Verif.Proofs.Template
import Verif.Model.Protocols

/-!
# The generated methods, statement by statement (C116)

The bodies are in `Model/Template`, what Rust makes of them in `Spec/MiniRust`. Here they are compared with the
accessors of `Model/Derive`, with which all other properties are stated. The values of `#co` and
`#packet_length` are those of `Model/Derive` (C114 says that the generated expressions have them), and the
blocks for integers are those of `Model/Index` (C78 is about their text, C94 about their indices).
-/

namespace Verif.Props
open Spec

/-- The integer that a method returned. -/
def asInt (r : Res (RustVal × Buf)) : Res Nat :=
  match r with
  | .ok (.int n, _) => .ok n
  | .ok _ => panic
  | .error e => .error e

/-- The buffer after a method. -/
def asBuf (r : Res (RustVal × Buf)) : Res Buf := r.map (·.2)

/-- A packet type that no field refers to. -/
def noCodec : Codec := ⟨0, fun _ _ => panic, fun _ _ => panic, fun _ _ _ => panic⟩

/-- What is interpolated into the method of an integer that begins at bit `bit` of field `k`: its `#co`, and
the block for its type. -/
def intWorld (d : Decl) (m : Mode) (cap : Capacity) (k bit : Nat) (p : Prim) : RustWorld where
  mode := m
  cap := cap
  co b := curOff m bit (d.before m b k).lens
  packetLength _ := panic
  readOps := getPrimU m p (bit % 8)
  writeOps := setPrimU m p (bit % 8)
  inner := noCodec
  getArgs := []
  setArgs := []

/-- The functions `get_arg<i>`, with the body of the getter of an integer; every argument begins where the
one before it ends. -/
def argGetters (d : Decl) (m : Mode) (cap : Capacity) (k : Nat) : (bit : Nat) → List Prim → List (Buf → Res Nat)
  | _, [] => []
  | bit, p :: ps => (fun b => asInt (runMethod (intWorld d m cap k bit p) intGetBody b none)) ::
    argGetters d m cap k (bit + p.size) ps

/-- The functions `set_arg<i>`. -/
def argSetters (d : Decl) (m : Mode) (cap : Capacity) (k : Nat) :
    (bit : Nat) → List Prim → List (Buf → Nat → Res Buf)
  | _, [] => []
  | bit, p :: ps => (fun b v => asBuf (runMethod (intWorld d m cap k bit p) intSetBody b (some ("val", .int v)))) ::
    argSetters d m cap k (bit + p.size) ps

/-- The bits of the fields before field `k`. -/
def firstBit (d : Decl) (k : Nat) : Nat := ((d.fields.take k).map (·.ty.bits)).sum

/-- What is interpolated into the methods of field `k`. -/
def fieldWorld (d : Decl) (m : Mode) (cap : Capacity) (k : Nat) (f : Field) : RustWorld where
  mode := m
  cap := cap
  co b := curOff m (firstBit d k) (d.before m b k).lens
  packetLength b := fieldLen m b (d.before m b k) f
  readOps :=
    match f.ty with
    | .prim p => getPrimU m p (firstBit d k % 8)
    | .vecPrim p => getPrimU m ⟨p.size, .big⟩ 0
    | _ => fun _ _ => panic
  writeOps :=
    match f.ty with
    | .prim p => setPrimU m p (firstBit d k % 8)
    | .vecPrim p => setPrimU m ⟨p.size, .big⟩ 0
    | _ => fun _ _ _ => panic
  inner :=
    match f.ty with
    | .vecPkt c => c
    | _ => noCodec
  getArgs :=
    match f.ty with
    | .misc args => argGetters d m cap k (firstBit d k) args
    | _ => []
  setArgs :=
    match f.ty with
    | .misc args => argSetters d m cap k (firstBit d k) args
    | _ => []

/-- The body of the getter of a field; for packets, that of the method that returns their iterator. -/
def getBody : Ty → List RustStmt
  | .prim _ => intGetBody
  | .misc _ => miscGetBody
  | .vecPrim p => vecGetBody (p.size / 8)
  | .vecPkt _ => rawBody

/-- The body of the setter of a field. -/
def setBody (f : Field) : List RustStmt :=
  match f.ty with
  | .prim _ => intSetBody
  | .misc args => miscSetBody args.length
  | .vecPrim p => vecSetBody f.len.isSome (decide (p.size = 8)) (p.size / 8)
  | .vecPkt _ => packetsSetBody

/-- A value of a field as a getter returns it. -/
def returned : Ty → Val → RustVal
  | .prim _, .num n => .int n
  | .misc _, .nums ns => .given (.nums ns)
  | .vecPrim _, .nums ns => .vec ns ns.length
  | _, _ => .unit

/-- A value of a field as the argument of its setter, if it has the right type. -/
def passed : Ty → Val → Option (String × RustVal)
  | .prim _, .num n => some ("val", .int n)
  | .misc args, .nums ns => if ns.length = args.length then some ("val", .given (.nums ns)) else none
  | .vecPrim _, .nums ns => some ("vals", .given (.nums ns))
  | .vecPkt _, .list vs => some ("vals", .given (.list vs))
  | _, _ => none

theorem before_firstBit (d : Decl) (m : Mode) (buf : Buf) (k : Nat) : (d.before m buf k).bit = firstBit d k :=
  before_bit d m buf k

theorem firstBit_le (d : Decl) (k : Nat) : firstBit d k ≤ d.bits := bitsSum_take_le d.fields k

theorem argGetters_run (d : Decl) (m : Mode) (cap : Capacity) (k : Nat) (buf : Buf) (args : List Prim) (bit : Nat) :
    ((argGetters d m cap k bit args).mapM fun (get : Buf → Res Nat) => get buf) =
      getArgsU m (d.before m buf k).lens buf bit args := by
  induction args generalizing bit with
  | nil => rfl
  | cons p ps ih =>
    rw [argGetters, List.mapM_cons, ih, getArgsU]
    dsimp only
    rw [run_intGet]
    simp only [intWorld]
    cases curOff m bit (d.before m buf k).lens with
    | error e => rfl
    | ok co =>
      simp only [ok_bind]
      cases getPrimU m p (bit % 8) buf co <;> rfl

theorem argSetters_run (d : Decl) (m : Mode) (cap : Capacity) (k : Nat) (args : List Prim) (vs : List Nat) (bit : Nat)
    (buf : Buf) :
    callSets (argSetters d m cap k bit args) vs buf = setArgsU m (fun b => (d.before m b k).lens) bit args vs buf := by
  induction args generalizing bit vs buf with
  | nil => cases vs <;> rfl
  | cons p ps ih =>
    cases vs with
    | nil => rfl
    | cons v vs =>
      rw [argSetters, callSets, run_intSet, setArgsU]
      simp only [intWorld]
      cases curOff m bit (d.before m buf k).lens with
      | error e => rfl
      | ok co =>
        simp only [ok_bind]
        cases setPrimU m p (bit % 8) buf co v with
        | error e => rfl
        | ok b => exact ih vs (bit + p.size) b

theorem argSetters_length (d : Decl) (m : Mode) (cap : Capacity) (k : Nat) (args : List Prim) (bit : Nat) :
    (argSetters d m cap k bit args).length = args.length := by
  induction args generalizing bit with
  | nil => rfl
  | cons p ps ih => rw [argSetters, List.length_cons, ih, List.length_cons]

/-- **C116**, getters: the body of the getter of every field of integers, of a user-defined type or of a
vector of integers, run as Rust with a library that reserves the capacity it is asked for, returns what
`Decl.get` says or fails as it does, and does not change the packet. -/
theorem C116_getters (d : Decl) (m : Mode) (buf : Buf) (hsl : SliceLen buf.length) (hb : d.bits < 2 ^ 64)
    (k : Nat) (f : Field) (hf : d.fields[k]? = some f) (hty : ∀ c, f.ty ≠ .vecPkt c) :
    runMethod (fieldWorld d m id k f) (getBody f.ty) buf none =
      (d.get m buf k).map fun v => (returned f.ty v, buf) := by
  rw [← getU_eq d m buf hsl hb k]
  simp only [Decl.getU, hf, before_firstBit]
  cases hk : f.ty with
  | prim p =>
    rw [getBody, run_intGet]
    simp only [fieldWorld, hk]
    cases curOff m (firstBit d k) (d.before m buf k).lens with
    | error e => rfl
    | ok co =>
      simp only [ok_bind]
      cases getPrimU m p (firstBit d k % 8) buf co <;> rfl
  | misc args =>
    rw [getBody, run_miscGet]
    simp only [fieldWorld, hk]
    rw [argGetters_run]
    cases getArgsU m (d.before m buf k).lens buf (firstBit d k) args <;> rfl
  | vecPrim p =>
    rw [getBody, run_vecGet _ p buf (by intro b co _ _; simp only [fieldWorld, hk])]
    simp only [fieldWorld, id]
    cases varSlice m buf (curOff m (firstBit d k) (d.before m buf k).lens) (fieldLen m buf (d.before m buf k) f) with
    | error e => rfl
    | ok raw =>
      simp only [ok_bind]
      cases hg : getElemsU m p raw raw.length 0 with
      | error e => rfl
      | ok ns =>
        have hlen : ∀ (n co : Nat) (ns : List Nat), getElemsU m p raw n co = .ok ns → ns.length = n := by
          intro n
          induction n with
          | zero => intro co ns h; cases h; rfl
          | succ n ih =>
            intro co ns h
            rw [getElemsU, bind_eq_ok] at h
            obtain ⟨v, -, h⟩ := h
            rw [bind_eq_ok] at h
            obtain ⟨c, -, h⟩ := h
            rw [bind_eq_ok] at h
            obtain ⟨ns', h1, h⟩ := h
            cases h
            rw [List.length_cons, ih c ns' h1]
        rw [← hlen _ _ _ hg]
        rfl
  | vecPkt c => exact absurd hk (hty c)

/-- The destination of an Ethernet frame, its payload, and the DSCP of an IPv4 packet. -/
example := C116_getters ethernet .debug (List.replicate 20 7) (by decide) (by decide) 0 _ rfl (by intro c h; cases h)
example := C116_getters ethernet .debug (List.replicate 20 7) (by decide) (by decide) 3 _ rfl (by intro c h; cases h)
example := C116_getters ipv4 .release (List.replicate 20 7) (by decide) (by decide) 2 _ rfl (by intro c h; cases h)

/-- **C116**, getters of vectors with any capacity: the same statements run with a library that reserves more
than requested are those of `Verif/Model/Capacity.lean`, about which C115 is. -/
theorem C116_capacity (cap : Capacity) (d : Decl) (m : Mode) (buf : Buf)
    (hsl : SliceLen buf.length) (k : Nat) (f : Field) (p : Prim) (hty : f.ty = .vecPrim p) :
    (runMethod (fieldWorld d m cap k f) (getBody f.ty) buf none).map (fun r =>
        match r.1 with
        | .vec ns _ => .nums ns
        | _ => .num 0) =
      getFieldCap cap m buf (firstBit d k) (d.before m buf k).lens (fieldLen m buf (d.before m buf k) f) f.ty := by
  rw [hty, getBody, run_vecGet _ p buf (by intro b co _ _; simp only [fieldWorld, hty]), getFieldCap]
  simp only [fieldWorld]
  cases hv : varSlice m buf (curOff m (firstBit d k) (d.before m buf k).lens) (fieldLen m buf (d.before m buf k) f) with
  | error e => rfl
  | ok raw =>
    simp only [ok_bind]
    rw [getElemsU_eq m p (by have := varSlice_length hv; unfold SliceLen at *; omega) _ 0 (by decide)]
    cases getElems p raw (cap raw.length) 0 <;> rfl

example := C116_capacity (fun n => max 8 n) ethernet .debug (List.replicate 20 7) (by decide) 3 ethernet.fields[3]
  ⟨8, .big⟩ rfl

/-- **C116**, setters: the body of the setter of every field, run as Rust with an argument of the right type,
leaves the packet that `Decl.set` says or fails as it does. -/
theorem C116_setters (d : Decl) (m : Mode) (cap : Capacity) (buf : Buf) (hsl : SliceLen buf.length)
    (hb : d.bits < 2 ^ 64) (k : Nat) (f : Field) (hf : d.fields[k]? = some f) (v : Val)
    (hv : ∀ ns, v = .nums ns → SliceLen ns.length) (arg : String × RustVal) (harg : passed f.ty v = some arg) :
    runMethod (fieldWorld d m cap k f) (setBody f) buf (some arg) = (d.set m buf k v).map fun b => (.unit, b) := by
  rw [← setU_eq d m buf hsl hb k v hv]
  simp only [Decl.setU, hf, before_firstBit]
  cases hk : f.ty with
  | prim p =>
    rw [hk] at harg
    cases v with
    | num n =>
      cases harg
      simp only [setBody, hk]
      rw [run_intSet]
      simp only [fieldWorld, hk]
      rfl
    | nums ns => cases harg
    | list vs => cases harg
  | misc args =>
    rw [hk] at harg
    cases v with
    | nums ns =>
      simp only [passed] at harg
      split at harg
      · rename_i hlen
        cases harg
        have hw : (fieldWorld d m cap k f).setArgs = argSetters d m cap k (firstBit d k) args := by
          simp only [fieldWorld, hk]
        have hl : (fieldWorld d m cap k f).setArgs.length = args.length := by rw [hw, argSetters_length]
        have := run_miscSet (fieldWorld d m cap k f) buf ns (by rw [hl, hlen])
        rw [hl, hw, argSetters_run] at this
        simp only [setBody, hk, if_pos hlen]
        exact this
      · cases harg
    | num n => cases harg
    | list vs => cases harg
  | vecPrim p =>
    rw [hk] at harg
    cases v with
    | nums ns =>
      cases harg
      simp only [setBody, hk]
      rw [run_vecSet _ p _ buf hsl ns (fun co h => curOff_card (Nat.lt_of_le_of_lt (firstBit_le d k) hb) h)
        (by intro _ b co v _ _ _; simp only [fieldWorld, hk])]
      simp only [fieldWorld]
      cases curOff m (firstBit d k) (d.before m buf k).lens with
      | error e => rfl
      | ok co =>
        simp only [ok_bind, fieldLen]
        cases f.len with
        | none => rfl
        | some e => rfl
    | num n => cases harg
    | list vs => cases harg
  | vecPkt c =>
    rw [hk] at harg
    cases v with
    | list vs =>
      cases harg
      simp only [setBody, hk]
      rw [run_packetsSet]
      simp only [fieldWorld, hk]
      rfl
    | num n => cases harg
    | nums vs => cases harg

/-- The options of an IPv4 packet, its destination, and the payload of an Ethernet frame. -/
example := C116_setters ipv4 .debug id (List.replicate 24 6) (by decide) (by decide) 13 _ rfl
  (.list []) (by simp) _ rfl
example := C116_setters ethernet .debug id (List.replicate 20 7) (by decide) (by decide) 1 _ rfl
  (.nums [1, 2, 3, 4, 5, 6]) (by intro ns h; cases h; decide) _ rfl
example := C116_setters ethernet .release id (List.replicate 20 7) (by decide) (by decide) 3 _ rfl
  (.nums [1, 2, 3]) (by intro ns h; cases h; decide) _ rfl

/-- **C116**, raw bytes and iterators: `get_<field>_raw`, `get_<field>_raw_mut` and the iterator of a vector of
packets take the bytes that `Decl.getRaw` says. -/
theorem C116_raw (d : Decl) (m : Mode) (cap : Capacity) (buf : Buf) (k : Nat) (f : Field)
    (hf : d.fields[k]? = some f) :
    runMethod (fieldWorld d m cap k f) rawBody buf none = (d.getRaw m buf k).map fun s => (.bytes s, buf) := by
  rw [run_raw]
  simp only [fieldWorld, Decl.getRaw, hf, before_firstBit]

example := C116_raw ipv4 .debug id (List.replicate 24 6) 13 _ rfl

/-- **C116**, iterators: `next` yields the packet that `Codec.next` says and leaves the bytes that it says, or
yields nothing and leaves the bytes alone. -/
theorem C116_next (W : RustWorld) (buf : Buf) :
    runMethod W nextBody buf none = (W.inner.next W.mode buf).map fun
      | some (p, rest) => (.some (.bytes p), rest)
      | none => (.none, buf) := by
  rw [run_next]
  cases W.inner.next W.mode buf with
  | error e => rfl
  | ok r => cases r <;> rfl

/-- The packet whose payload has the bounds: the payload field, or none. -/
def payloadWorld (d : Decl) (m : Mode) (cap : Capacity) : RustWorld × List RustStmt :=
  match d.payloadIdx with
  | none => (fieldWorld d m cap 0 { name := "", ty := .misc [] }, payloadBody (payloadBounds false false).1 (payloadBounds false false).2)
  | some k =>
    match d.fields[k]? with
    | none => (fieldWorld d m cap 0 { name := "", ty := .misc [] }, [])
    | some f => (fieldWorld d m cap k f,
        payloadBody (payloadBounds true f.len.isSome).1 (payloadBounds true f.len.isSome).2)

theorem bytesOf (buf : Buf) (a b : Nat) :
    (do
      let s ← if buf.length ≤ a then .ok [] else slice buf a b
      .ok (RustVal.bytes s, buf) : Res (RustVal × Buf)) =
    (if buf.length ≤ a then .ok [] else slice buf a b : Res Buf).map fun s => (.bytes s, buf) := by
  by_cases h : buf.length ≤ a
  · rw [if_pos h, if_pos h]; rfl
  · rw [if_neg h, if_neg h]; cases slice buf a b <;> rfl

/-- **C116**, payloads: `payload` and `payload_mut` take the bytes that `Decl.payload` says. -/
theorem C116_payload (d : Decl) (m : Mode) (cap : Capacity) (buf : Buf) :
    runMethod (payloadWorld d m cap).1 (payloadWorld d m cap).2 buf none =
      (d.payload m buf).map fun s => (.bytes s, buf) := by
  unfold payloadWorld Decl.payload Decl.payloadBounds
  cases hi : d.payloadIdx with
  | none =>
    rw [run_payload _ buf _ _ (.ok 0) (.ok 0) (fun _ _ => rfl) (fun _ _ => rfl)]
    simp only [ok_bind, Nat.zero_min]
    exact bytesOf _ _ _
  | some k =>
    have hk : k < d.fields.length := by
      unfold Decl.payloadIdx at hi
      exact (List.findIdx?_eq_some_iff_getElem.mp hi).1
    simp only [List.getElem?_eq_getElem hk, before_firstBit]
    cases hlen : d.fields[k].len with
    | none =>
      rw [run_payload _ buf _ _ (curOff m (firstBit d k) (d.before m buf k).lens) (.ok buf.length)
        (by intro env he; subst he; rfl) (by intro env he; subst he; rfl)]
      cases curOff m (firstBit d k) (d.before m buf k).lens with
      | error e => rfl
      | ok a =>
        simp only [ok_bind]
        exact bytesOf _ _ _
    | some e =>
      rw [run_payload _ buf _ _ (curOff m (firstBit d k) (d.before m buf k).lens) (do
          let a ← curOff m (firstBit d k) (d.before m buf k).lens
          let b ← lenExpr m buf (d.before m buf k) e
          uadd m a b)
        (by intro env he; subst he; rfl)
        (by intro env he; subst he; simp only [payloadBounds, fieldWorld, fieldLen, hlen]; rfl)]
      cases curOff m (firstBit d k) (d.before m buf k).lens with
      | error e => rfl
      | ok a =>
        simp only [ok_bind]
        cases lenExpr m buf (d.before m buf k) e with
        | error e => rfl
        | ok l =>
          simp only [ok_bind]
          cases uadd m a l with
          | error e => rfl
          | ok b =>
            simp only [ok_bind]
            exact bytesOf _ _ _

example := C116_payload ipv4 .debug id (List.replicate 24 6)
example := C116_next (fieldWorld ipv4 .debug id 13 ipv4.fields[13]) [1, 4, 1, 1]

end Verif.Props
