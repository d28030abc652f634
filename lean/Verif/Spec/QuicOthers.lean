import Verif.Spec.QuicSet

/-! # Specification: fields whose value is used as a length or a count -/

namespace Verif.Spec.Quic

/-- The variable-length integers that give the length or the number of items of a later field. -/
def lengthFields : List String := ["token_length", "length", "ack_range_count", "reason_phrase_length"]

/-- Packets whose `frames` have the length `varint(&length) - packet_number.len()`. -/
def LongHeader (d : Decl) : Prop := d = Verif.initial ∨ d = Verif.zeroRtt ∨ d = Verif.handshake

end Verif.Spec.Quic
