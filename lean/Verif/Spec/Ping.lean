import Verif.Spec.Translate

/-!
# Answering echo requests

Not code of the crate: a program that uses it, for C138.
-/

namespace Verif.Spec

/-- ICMP over IPv4. -/
abbrev icmpOver4 : Transport Ipv4Addr := ⟨icmp, 1, 2, fun m b _ _ => icmpChecksum m b⟩

/-- Answers an ICMP message: if it is an echo request (type 8), `set_icmp_type(EchoReply)` and `set_checksum(checksum(..))` are
called, the message is copied back through `payload_mut()` and the addresses change places. -/
def pong4 (m : Mode) (ip : Buf) : Res (Option Buf) := do
  match ← accept4 m icmpOver4 ip with
  | none => return none
  | some (src, dst, msg) =>
    let ty ← icmp.getAs Newtype.ofPrimitive m msg 0
    if ty ≠ 8 then return none
    let msg ← icmp.setAs Newtype.toPrimitive m msg 0 0
    let msg ← icmpOver4.stamp m msg dst src
    let ip ← ipv4.payloadMutCopy m ip msg
    let ip ← ipv4.setAs Ipv4Addr.toPrimitive m ip 11 dst
    let ip ← ipv4.setAs Ipv4Addr.toPrimitive m ip 12 src
    return some ip

end Verif.Spec
