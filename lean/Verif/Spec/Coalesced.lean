import Verif.Spec.QuicApi

/-!
# Packets that share a datagram
-/

namespace Verif.Spec.Quic

/-- The same packet in a datagram that ends with `r'` instead of `r`. -/
def withTail (r r' : Buf) (q : QuicPacket) : QuicPacket :=
  ⟨q.kind, q.packet.take (q.packet.length - r.length) ++ r'⟩

/-- All accessors of `QuicPacket` but `packet()` and `remaining()` give the same results. -/
def SameAnswers (m : Mode) (q q' : QuicPacket) : Prop :=
  q'.kind = q.kind ∧ q'.version m = q.version m ∧ q'.token m = q.token m ∧
  q'.packetNumber m = q.packetNumber m ∧ q'.destId m = q.destId m ∧ q'.srcId m = q.srcId m ∧
  q'.frames m = q.frames m

/-- What `QuicPacket::new` returns when the packets `pre` come before bytes for which it returns this. -/
def after (pre : List QuicPacket) : Res (Option (List QuicPacket)) → Res (Option (List QuicPacket))
  | .ok (some qs) => .ok (some (pre ++ qs))
  | x => x

end Verif.Spec.Quic
