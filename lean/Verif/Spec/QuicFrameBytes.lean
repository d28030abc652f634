import Verif.Spec.QuicApi

/-! # Specification: which frames have integers of one byte only -/

namespace Verif.Spec.Quic
open Verif Verif.Spec

/-- The fields of the frame structs that hold bytes; the other fields hold variable-length integers, and
in NEW_CONNECTION_ID frames an 8-bit length. -/
def dataFields : List String := ["crypto_payload", "token", "stream_data", "connection_id",
  "stateless_reset_token", "data", "reason_phrase"]

/-- Every variable-length integer of the frame takes one byte (values below 64). -/
def OneByteInts (fields : List (String × Val)) : Prop :=
  ∀ f ∈ fields, f.1 ∉ dataFields → ∀ ns, f.2 = .nums ns → ∀ b ∈ ns, b < 64

/-- The frame struct with these fields. -/
def frameStruct (ty : UInt8) (fields : List (String × Val)) (remaining : Buf) : Val :=
  .list (.nums [ty.toNat] :: (fields.map (·.2) ++ [bytesOf remaining]))

end Verif.Spec.Quic
