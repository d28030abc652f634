import Verif.Spec.Transfer

/-!
# Address translation

Not code of the crate: a program that uses it, for C136.
-/

namespace Verif.Spec

/-- The protocols over IPv4 that have ports. -/
def ported4 : List (Transport Ipv4Addr) := transports4.filter (·.proto ≠ 1)

/-- Translates the source of an IPv4 packet: packets that the receiver of C113 would not accept are dropped. In the others
the source port and the source address are replaced, the segment with `payload_mut().copy_from_slice(..)`, and both
checksums are computed anew. -/
def translate4 (m : Mode) (t : Transport Ipv4Addr) (src : Ipv4Addr) (port : Nat) (ip : Buf) : Res (Option Buf) := do
  match ← accept4 m t ip with
  | none => return none
  | some (_, dst, seg) =>
    let seg ← t.d.set m seg 0 (.num port)
    let seg ← t.stamp m seg src dst
    let ip ← ipv4.payloadMutCopy m ip seg
    let ip ← ipv4.setAs Ipv4Addr.toPrimitive m ip 11 src
    let c ← ipv4HeaderChecksum m ip
    let ip ← ipv4.set m ip 10 (.num c)
    return some ip

/-- Where the segment of an IPv4 packet starts. -/
def segmentAt (ip : Buf) : Nat := max 20 (4 * ((ip.getD 0 0).toNat % 16))

/-- Where the checksum of a UDP or TCP segment is. -/
def sumAt (t : Transport Ipv4Addr) : Nat := if t.proto = 17 then 6 else 16

end Verif.Spec
