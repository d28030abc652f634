import Verif.Model.Checksum
import Verif.Model.Packet

/-!
# Routers

Not code of the crate: programs that use it, for C135.
-/

namespace Verif.Spec

/-- Forwards an IPv4 packet: it is dropped if its header does not hold its checksum or the time to live is over,
otherwise `set_ttl(get_ttl() - 1)` and `set_checksum(checksum(..))` are called. -/
def forward4 (m : Mode) (ip : Buf) : Res (Option Buf) :=
  match ipv4.newPacket ip with
  | none => .ok none
  | some _ => do
    let stored ← (← ipv4.get m ip 10).asNum
    let c ← ipv4HeaderChecksum m ip
    if stored ≠ c then return none
    let ttl ← (← ipv4.get m ip 8).asNum
    if ttl ≤ 1 then return none
    let ip ← ipv4.set m ip 8 (.num (ttl - 1))
    let c ← ipv4HeaderChecksum m ip
    let ip ← ipv4.set m ip 10 (.num c)
    return some ip

/-- Forwards an IPv6 packet: there is only the hop limit. -/
def forward6 (m : Mode) (ip : Buf) : Res (Option Buf) :=
  match ipv6.newPacket ip with
  | none => .ok none
  | some _ => do
    let limit ← (← ipv6.get m ip 5).asNum
    if limit ≤ 1 then return none
    let ip ← ipv6.set m ip 5 (.num (limit - 1))
    return some ip

/-- The way through `n` routers. -/
def route (forward : Buf → Res (Option Buf)) : (n : Nat) → Buf → Res (Option Buf)
  | 0, ip => .ok (some ip)
  | n + 1, ip => do
    match ← forward ip with
    | none => .ok none
    | some ip => route forward n ip

/-- The packets have the same length and the same bytes except those at the given places. -/
def SameExcept (places : List Nat) (a b : Buf) : Prop :=
  a.length = b.length ∧ ∀ i, i ∉ places → a[i]? = b[i]?

end Verif.Spec
