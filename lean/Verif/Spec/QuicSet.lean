import Verif.Spec.QuicFrameBytes

/-! # Specification: setting the fields of QUIC packets and frames -/

namespace Verif.Spec.Quic

/-- The packet types and frame types the derive macro generates code for in `src/quic.rs`. -/
def QuicType (d : Decl) : Prop := (∃ k : QuicKind, d = k.decl) ∨ ∃ k : FrameKind, d = k.decl

/-- The fields of QUIC packets and frames that hold bytes; the others with a declared length hold
variable-length integers. -/
def byteFields : List String := ["dest_id", "src_id", "token", "packet_number", "frames"] ++ dataFields

/-- `bs` consists of `c` variable-length integers. -/
def Ints (c : Nat) (bs : Buf) : Prop :=
  ∃ rs : List Buf, rs.length = c ∧ (∀ r ∈ rs, ∃ v, Varint r v) ∧ bs = rs.flatten

end Verif.Spec.Quic
