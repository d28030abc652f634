import Verif.Model.Derive

/-!
# Getters of vectors of integers and the capacity of their vectors

`gen.rs:184-193` makes the result with `Vec::with_capacity(packet.len())` and then runs the loop
`for _ in 0..vec.capacity()`. The standard library promises a capacity of at least the requested one; how
much is reserved is up to it. `Verif/Model/Derive.lean` takes the capacity to be the requested one, as
today's library does; here it is a parameter.
-/

namespace Verif

/-- The capacity that `Vec::with_capacity(n)` reserves, for each `n`. -/
abbrev Capacity := Nat → Nat

/-- What the standard library promises: "able to hold at least `capacity` elements". -/
def Capacity.Promised (cap : Capacity) : Prop := ∀ n, n ≤ cap n

/-- `get_<field>()` (`gen.rs:125-361`); the loop of `gen.rs:190` runs `vec.capacity()` times. The getters
of packets inside a `Vec<Packet>` are those of the field's codec. -/
def getFieldCap (cap : Capacity) (m : Mode) (buf : Buf) (bit : Nat) (lens : List (Res Nat)) (len : Res Nat) :
    Ty → Res Val
  | .vecPrim p => do
    let packet ← varSlice m buf (curOff m bit lens) len
    .nums <$> getElems p packet (cap packet.length) 0
  | ty => getField m buf bit lens len ty

/-- One turn of the loop of `packet_impl` (`gen.rs:99-373`), with these getters. -/
def St.stepCap (cap : Capacity) (m : Mode) (buf : Buf) (st : St) (f : Field) : St :=
  { bit := st.bit + f.ty.bits
    lens := match f.len with
      | some e => st.lens ++ [lenExpr m buf st e]
      | none => st.lens
    vals := st.vals ++ [getFieldCap cap m buf st.bit st.lens (fieldLen m buf st f) f.ty] }

/-- The state before field `k`. -/
def Decl.beforeCap (d : Decl) (cap : Capacity) (m : Mode) (buf : Buf) (k : Nat) : St :=
  (d.fields.take k).foldl (St.stepCap cap m buf) .init

/-- `get_<field k>()`. -/
def Decl.getCap (d : Decl) (cap : Capacity) (m : Mode) (buf : Buf) (k : Nat) : Res Val :=
  match d.fields[k]? with
  | some f =>
    let st := d.beforeCap cap m buf k
    getFieldCap cap m buf st.bit st.lens (fieldLen m buf st f) f.ty
  | none => panic

/-- `FromPacket::from_packet` (`gen.rs:687-720`): all getters in order. -/
def Decl.fromPacketCap (d : Decl) (cap : Capacity) (m : Mode) (buf : Buf) : Res Val :=
  .list <$> (d.fields.foldl (St.stepCap cap m buf) .init).vals.mapM id

end Verif
