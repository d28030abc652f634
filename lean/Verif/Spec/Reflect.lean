import Verif.Spec.Translate

/-!
# Sending packets back

Not code of the crate: a program that uses it, for C137.
-/

namespace Verif.Spec

/-- Sends a UDP or TCP packet back: ports and addresses change places with `set_source` and `set_destination`. No checksum
is computed anew. -/
def reflect4 (m : Mode) (t : Transport Ipv4Addr) (ip : Buf) : Res (Option Buf) := do
  match ← accept4 m t ip with
  | none => return none
  | some (src, dst, seg) =>
    let p ← (← t.d.get m seg 0).asNum
    let q ← (← t.d.get m seg 1).asNum
    let seg ← t.d.set m seg 0 (.num q)
    let seg ← t.d.set m seg 1 (.num p)
    let ip ← ipv4.payloadMutCopy m ip seg
    let ip ← ipv4.setAs Ipv4Addr.toPrimitive m ip 11 dst
    let ip ← ipv4.setAs Ipv4Addr.toPrimitive m ip 12 src
    return some ip

end Verif.Spec
