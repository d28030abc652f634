import Verif.Model.Derive

/-!
# Accessors with machine arithmetic in their indices

`Model/Ops` and `Model/Derive` compute the index `co + i` of a byte, the end `current_offset +
vals.len()` of a copy and the loop step `co += size` as natural numbers. Here the same texts with
`usize` additions, which panic on overflow in debug builds and wrap in release builds.
-/

namespace Verif

/-- `let b_idx = (packet[co + idx] ..)`, from operation `idx` on (`derive/src/gen.rs:794-800`). -/
def getOpsFromU (m : Mode) (W : Nat) (buf : Buf) (co : Nat) : (idx : Nat) → List GetOperation → Res Nat
  | _, [] => .ok 0
  | idx, op :: ops => do
    let i ← uadd m co idx
    let byte ← index buf i
    let b ← op.eval W byte.toNat
    let rest ← getOpsFromU m W buf co (idx + 1) ops
    .ok (b ||| rest)

/-- `gen_get_ops`, `derive/src/gen.rs:774-806`: a single operation reads `packet[co]`, without an
addition. -/
def getOpsU (m : Mode) (W : Nat) (ops : List GetOperation) (buf : Buf) (co : Nat) : Res Nat :=
  match ops with
  | [op] => do
    let byte ← index buf co
    op.eval W byte.toNat
  | ops => getOpsFromU m W buf co 0 ops

/-- `packet[co + idx] = ..`, from operation `idx` on (`derive/src/gen.rs:755-768`). The index is
computed for the old byte and again for the assignment. -/
def setOpsFromU (m : Mode) (W : Nat) (co v : Nat) : (idx : Nat) → List SetOperation → Buf → Res Buf
  | _, [], buf => .ok buf
  | idx, op :: ops, buf => do
    let i ← uadd m co idx
    let old ← index buf i
    let new ← op.eval W old.toNat v
    let j ← uadd m co idx
    let buf ← setIndex buf j (UInt8.ofNat new)
    setOpsFromU m W co v (idx + 1) ops buf

/-- The accessor made by `gen_accessor` (`derive/src/gen.rs:477-521`). -/
def getPrimU (m : Mode) (p : Prim) (offset : Nat) (buf : Buf) (co : Nat) : Res Nat :=
  match operations offset p.size p.endian with
  | some ops => getOpsU m (storageWidth p.size) ops buf co
  | none => panic

/-- The mutator made by `gen_mutator` (`derive/src/gen.rs:525-569`). -/
def setPrimU (m : Mode) (p : Prim) (offset : Nat) (buf : Buf) (co v : Nat) : Res Buf :=
  match operations offset p.size p.endian with
  | some ops => setOpsFromU m (storageWidth p.size) co v 0 (toMutator ops) buf
  | none => panic

/-- The loop of a `Vec<primitive>` getter, `derive/src/gen.rs:187-193`, with `co += size`. -/
def getElemsU (m : Mode) (p : Prim) (packet : Buf) : (n co : Nat) → Res (List Nat)
  | 0, _ => .ok []
  | n + 1, co => do
    let v ← getPrimU m ⟨p.size, .big⟩ 0 packet co
    let co ← uadd m co (p.size / 8)
    let vs ← getElemsU m p packet n co
    .ok (v :: vs)

/-- The loop of a `Vec<primitive>` setter, `derive/src/gen.rs:213-219`, with `co += size`. -/
def setElemsU (m : Mode) (p : Prim) : (co : Nat) → List Nat → Buf → Res Buf
  | _, [], buf => .ok buf
  | co, v :: vs, buf => do
    let buf ← setPrimU m ⟨p.size, .big⟩ 0 buf co v
    let co ← uadd m co (p.size / 8)
    setElemsU m p co vs buf

/-- `self.packet[current_offset..current_offset + vals.len()].copy_from_slice(vals)`
(`derive/src/gen.rs:205-208`). -/
def copyIntoU (m : Mode) (buf : Buf) (a : Nat) (new : Buf) : Res Buf := do
  let b ← uadd m a new.length
  let old ← slice buf a b
  if new.length = old.length then .ok (buf.take a ++ new ++ buf.drop b) else panic

/-- Getter arguments of a `construct_with` field (`derive/src/gen.rs:300-328`). -/
def getArgsU (m : Mode) (lens : List (Res Nat)) (buf : Buf) : (bit : Nat) → List Prim → Res (List Nat)
  | _, [] => .ok []
  | bit, p :: ps => do
    let co ← curOff m bit lens
    let v ← getPrimU m p (bit % 8) buf co
    let vs ← getArgsU m lens buf (bit + p.size) ps
    .ok (v :: vs)

/-- Setter arguments of a `construct_with` field (`derive/src/gen.rs:341-348`). -/
def setArgsU (m : Mode) (lensOf : Buf → List (Res Nat)) :
    (bit : Nat) → List Prim → List Nat → Buf → Res Buf
  | bit, p :: ps, v :: vs, buf => do
    let co ← curOff m bit (lensOf buf)
    let buf ← setPrimU m p (bit % 8) buf co v
    setArgsU m lensOf (bit + p.size) ps vs buf
  | _, _, _, buf => .ok buf

/-- `get_<field k>()` (`derive/src/gen.rs:125-361`). The getters that length expressions call are
those of `Model/Derive`. -/
def Decl.getU (d : Decl) (m : Mode) (buf : Buf) (k : Nat) : Res Val :=
  match d.fields[k]? with
  | none => panic
  | some f =>
    let st := d.before m buf k
    match f.ty with
    | .prim p => do
      let co ← curOff m st.bit st.lens
      .num <$> getPrimU m p (st.bit % 8) buf co
    | .misc args => .nums <$> getArgsU m st.lens buf st.bit args
    | .vecPrim p => do
      let packet ← varSlice m buf (curOff m st.bit st.lens) (fieldLen m buf st f)
      .nums <$> getElemsU m p packet packet.length 0
    | .vecPkt c => do
      let packet ← varSlice m buf (curOff m st.bit st.lens) (fieldLen m buf st f)
      .list <$> c.collect m packet.length packet

/-- `set_<field k>(val)` (`derive/src/gen.rs:128,196-232,273-289,336-349`). -/
def Decl.setU (d : Decl) (m : Mode) (buf : Buf) (k : Nat) (val : Val) : Res Buf :=
  match d.fields[k]? with
  | none => panic
  | some f =>
    let st := d.before m buf k
    match f.ty, val with
    | .prim p, .num v => do
      let co ← curOff m st.bit st.lens
      setPrimU m p (st.bit % 8) buf co v
    | .misc args, .nums vs =>
      if vs.length = args.length then
        setArgsU m (fun b => (d.before m b k).lens) st.bit args vs buf
      else panic
    | .vecPrim p, .nums vs => do
      let co ← curOff m st.bit st.lens
      match f.len with
      | some e => do
        let len ← lenExpr m buf st e
        if vs.length ≤ len then pure () else panic
      | none => pure ()
      if p.size = 8 then copyIntoU m buf co (vs.map UInt8.ofNat) else setElemsU m p co vs buf
    | .vecPkt c, .list vs => do
      let co ← curOff m st.bit st.lens
      let endOff ← uadd m co (← fieldLen m buf st f)
      setPackets m c endOff co vs buf
    | _, _ => panic

end Verif
