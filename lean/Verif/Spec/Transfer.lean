import Verif.Model.Primitive
import Verif.Spec.Stack

/-!
# Specification: sending and receiving datagrams

The programs of a sender and a receiver that use the crate: the sender writes the packets from the
inside out and stores the checksums, the receiver reads them from the outside in and compares the
checksums. `outer` are the layers around IP (an Ethernet frame, with or without VLAN tags).
-/

namespace Verif.Spec

/-- No wire format: for packet types without vectors of packets. -/
abbrev noElems : Nat → Wire := fun _ => ⟨fun _ => [], id, fun _ => False⟩

/-- A protocol with a checksum over addresses of type `α`: its packet type, its number, the number of
the checksum field and the function that computes it. -/
structure Transport (α : Type) where
  d : Decl
  proto : Nat
  sumField : Nat
  sum : Mode → Buf → α → α → Res Nat

/-- The protocols over IPv4: ICMP (without pseudo header), UDP, TCP. -/
def transports4 : List (Transport Ipv4Addr) :=
  [⟨icmp, 1, 2, fun m b _ _ => icmpChecksum m b⟩, ⟨udp, 17, 3, udpIpv4Checksum⟩, ⟨tcp, 6, 8, tcpIpv4Checksum⟩]

/-- The protocols over IPv6: ICMPv6, UDP, TCP. -/
def transports6 : List (Transport Ipv6Addr) :=
  [⟨icmpv6, 58, 2, icmpv6Checksum⟩, ⟨udp, 17, 3, udpIpv6Checksum⟩, ⟨tcp, 6, 8, tcpIpv6Checksum⟩]

/-- `seg.set_checksum(checksum(&seg, src, dst))`. -/
def Transport.stamp {α : Type} (t : Transport α) (m : Mode) (seg : Buf) (src dst : α) : Res Buf := do
  let c ← t.sum m seg src dst
  t.d.set m seg t.sumField (.num c)

/-- `new(seg)` succeeds, and `get_checksum()` is the checksum computed for the segment. -/
def Transport.check {α : Type} (t : Transport α) (m : Mode) (seg : Buf) (src dst : α) : Res Bool :=
  match t.d.newPacket seg with
  | none => .ok false
  | some _ => do
    let stored ← (← t.d.get m seg t.sumField).asNum
    let c ← t.sum m seg src dst
    .ok (stored == c)

/-- What the sender chooses for an IPv4 header: the length fields, the protocol number and the checksum
are added. `words` is the header length. -/
structure Head4 where
  words : Nat
  dscp : Nat
  ecn : Nat
  ident : Nat
  flags : Nat
  frag : Nat
  ttl : Nat
  src : Ipv4Addr
  dst : Ipv4Addr
  options : List Val

/-- The IPv4 layer around `len` bytes of protocol `proto`, with checksum 0. -/
def Head4.layer (m : Mode) (h : Head4) (proto len : Nat) : Layer where
  d := ipv4
  E := fun _ => declWire m noElems ipv4Option
  header := [.num 4, .num h.words, .num h.dscp, .num h.ecn, .num (4 * h.words + len), .num h.ident,
    .num h.flags, .num h.frag, .num h.ttl, .nums [proto], .num 0, .nums h.src.toPrimitive,
    .nums h.dst.toPrimitive, .list h.options]

/-- The options fill the header, and the datagram with `len` bytes of data is not too long. -/
structure Head4.Ok (m : Mode) (h : Head4) (len : Nat) : Prop where
  words : 5 ≤ h.words ∧ h.words < 16
  valid : ∀ o ∈ h.options, (declWire m noElems ipv4Option).valid o
  size : (h.options.flatMap (declWire m noElems ipv4Option).enc).length = 4 * h.words - 20
  total : 4 * h.words + len < 65536

/-- The sender of an IPv4 datagram with the given segment. -/
def send4 (m : Mode) (outer : List Layer) (h : Head4) (t : Transport Ipv4Addr) (seg : Buf) : Res Buf := do
  let seg ← t.stamp m seg h.src h.dst
  let ip ← ipv4.populate m (List.replicate (4 * h.words + seg.length) 0)
    (.list ((h.layer m t.proto seg.length).fields seg))
  let c ← ipv4HeaderChecksum m ip
  let ip ← ipv4.set m ip 10 (.num c)
  writeStack m outer ip

/-- The receiver of an IPv4 datagram, from the IPv4 packet on: `none` if one of the checks fails. -/
def accept4 (m : Mode) (t : Transport Ipv4Addr) (ip : Buf) : Res (Option (Ipv4Addr × Ipv4Addr × Buf)) :=
  match ipv4.newPacket ip with
  | none => .ok none
  | some _ => do
    let stored ← (← ipv4.get m ip 10).asNum
    let c ← ipv4HeaderChecksum m ip
    if stored ≠ c then return none
    let proto ← ipv4.getAs Newtype.ofPrimitive m ip 9
    if proto ≠ t.proto then return none
    let src ← ipv4.getAs Ipv4Addr.ofPrimitive m ip 11
    let dst ← ipv4.getAs Ipv4Addr.ofPrimitive m ip 12
    let seg ← ipv4.payload m ip
    if ← t.check m seg src dst then return some (src, dst, seg) else return none

/-- The receiver, with the layers around IP. -/
def receive4 (m : Mode) (outer : List Decl) (t : Transport Ipv4Addr) (frame : Buf) :
    Res (Option (Ipv4Addr × Ipv4Addr × Buf)) := do
  let (_, ip) ← readStack m outer frame
  accept4 m t ip

/-- What the sender chooses for an IPv6 header. -/
structure Head6 where
  trafficClass : Nat
  flowLabel : Nat
  hopLimit : Nat
  src : Ipv6Addr
  dst : Ipv6Addr

/-- The IPv6 layer around `len` bytes of protocol `proto`. -/
def Head6.layer (h : Head6) (proto len : Nat) : Layer where
  d := ipv6
  E := noElems
  header := [.num 6, .num h.trafficClass, .num h.flowLabel, .num len, .nums [proto], .num h.hopLimit,
    .nums h.src.toPrimitive, .nums h.dst.toPrimitive]

/-- The sender of an IPv6 datagram with the given segment. -/
def send6 (m : Mode) (outer : List Layer) (h : Head6) (t : Transport Ipv6Addr) (seg : Buf) : Res Buf := do
  let seg ← t.stamp m seg h.src h.dst
  let ip ← ipv6.populate m (List.replicate (40 + seg.length) 0) (.list ((h.layer t.proto seg.length).fields seg))
  writeStack m outer ip

/-- The receiver of an IPv6 datagram, from the IPv6 packet on. -/
def accept6 (m : Mode) (t : Transport Ipv6Addr) (ip : Buf) : Res (Option (Ipv6Addr × Ipv6Addr × Buf)) :=
  match ipv6.newPacket ip with
  | none => .ok none
  | some _ => do
    let proto ← ipv6.getAs Newtype.ofPrimitive m ip 4
    if proto ≠ t.proto then return none
    let src ← ipv6.getAs Ipv6Addr.ofPrimitive m ip 6
    let dst ← ipv6.getAs Ipv6Addr.ofPrimitive m ip 7
    let seg ← ipv6.payload m ip
    if ← t.check m seg src dst then return some (src, dst, seg) else return none

/-- The receiver, with the layers around IP. -/
def receive6 (m : Mode) (outer : List Decl) (t : Transport Ipv6Addr) (frame : Buf) :
    Res (Option (Ipv6Addr × Ipv6Addr × Buf)) := do
  let (_, ip) ← readStack m outer frame
  accept6 m t ip

end Verif.Spec
