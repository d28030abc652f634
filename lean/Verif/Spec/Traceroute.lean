import Verif.Spec.Ping
import Verif.Spec.Router

/-!
# Traceroute

Not code of the crate: programs that use it, for C142.
-/

namespace Verif.Spec

/-- The answer of a router whose address is `router`: time exceeded, with the header of the packet and eight more bytes. -/
def expired4 (m : Mode) (router : Ipv4Addr) (ip : Buf) : Res Buf := do
  let src ← ipv4.getAs Ipv4Addr.ofPrimitive m ip 11
  let hl ← (← ipv4.get m ip 1).asNum
  let quote ← slice ip 0 (min ip.length (4 * hl + 8))
  let msg ← timeExceeded.populate m (List.replicate (8 + quote.length) 0)
    (.list [.nums [11], .nums [0], .num 0, .num 0, bytesVal quote])
  send4 m [] ⟨5, 0, 0, 0, 0, 0, 64, router, src, []⟩ icmpOver4 msg

/-- What becomes of a packet. -/
inductive Outcome where
  | delivered (ip : Buf)
  | answered (ip : Buf)
  | dropped
deriving DecidableEq

/-- The way of a packet over routers with the given addresses: a router that does not forward it answers if the header holds
its checksum. -/
def trace (m : Mode) : List Ipv4Addr → Buf → Res Outcome
  | [], ip => .ok (.delivered ip)
  | r :: rs, ip => do
    match ← forward4 m ip with
    | some ip => trace m rs ip
    | none =>
      match ipv4.newPacket ip with
      | none => return .dropped
      | some _ =>
        let stored ← (← ipv4.get m ip 10).asNum
        let c ← ipv4HeaderChecksum m ip
        if stored ≠ c then return .dropped
        return .answered (← expired4 m r ip)

/-- What the sender reads from an answer: who sent it to whom, and the bytes that the router quotes. -/
def readExpired (m : Mode) (ip : Buf) : Res (Option (Ipv4Addr × Ipv4Addr × Buf)) := do
  match ← accept4 m icmpOver4 ip with
  | none => return none
  | some (src, dst, msg) =>
    let ty ← icmp.getAs Newtype.ofPrimitive m msg 0
    if ty ≠ 11 then return none
    match timeExceeded.newPacket msg with
    | none => return none
    | some _ =>
      let quote ← timeExceeded.payload m msg
      return some (src, dst, quote)

/-- Sends a packet with time to live `t` over the routers and reads who answers. -/
def ask (m : Mode) (rs : List Ipv4Addr) (ip : Buf) (t : Nat) : Res (Option Ipv4Addr) := do
  let ip ← ipv4.set m ip 8 (.num t)
  let c ← ipv4HeaderChecksum m ip
  let ip ← ipv4.set m ip 10 (.num c)
  match ← trace m rs ip with
  | .answered out =>
    match ← readExpired m out with
    | some (r, _, _) => return some r
    | none => return none
  | _ => return none

/-- Sends packets with times to live `t`, `t + 1`, … until one is not answered; at most `n` packets. -/
def discover (m : Mode) (rs : List Ipv4Addr) (ip : Buf) : (n t : Nat) → Res (List Ipv4Addr)
  | 0, _ => .ok []
  | n + 1, t => do
    match ← ask m rs ip t with
    | none => return []
    | some r => return r :: (← discover m rs ip n (t + 1))

end Verif.Spec
