import Verif.Spec.QuicDatagram
import Verif.Spec.QuicRelease
import Verif.Spec.Transfer

/-!
# Sending and receiving QUIC datagrams over UDP and IP

Not code of the crate: programs that use it, for C133.
-/

namespace Verif.Spec
open Quic

/-- UDP over IPv4 and IPv6. -/
def udp4 : Transport Ipv4Addr := ⟨udp, 17, 3, udpIpv4Checksum⟩
def udp6 : Transport Ipv6Addr := ⟨udp, 17, 3, udpIpv6Checksum⟩

/-- A UDP header for `len` bytes of data, without checksum. -/
def udpLayer (sport dport len : Nat) : Layer := ⟨udp, noElems, [.num sport, .num dport, .num (8 + len), .num 0]⟩

/-- Writes a QUIC datagram and a UDP header before it. -/
def quicSegment (m : Mode) (sport dport : Nat) (ps : List SentPacket) (last : SentLast) : Res Buf := do
  let data ← writeDatagram m ps last
  udp.populate m (List.replicate (8 + data.length) 0) (.list ((udpLayer sport dport data.length).fields data))

/-- Sends it over IPv4, in the layers `outer`. -/
def sendQuic4 (m : Mode) (outer : List Layer) (h : Head4) (sport dport : Nat) (ps : List SentPacket) (last : SentLast) :
    Res Buf := do
  let seg ← quicSegment m sport dport ps last
  send4 m outer h udp4 seg

/-- Sends it over IPv6. -/
def sendQuic6 (m : Mode) (outer : List Layer) (h : Head6) (sport dport : Nat) (ps : List SentPacket) (last : SentLast) :
    Res Buf := do
  let seg ← quicSegment m sport dport ps last
  send6 m outer h udp6 seg

/-- What a receiver gets of a datagram: addresses, ports, and what `QuicPacket::new` makes of the data. -/
structure Received (α : Type) where
  src : α
  dst : α
  sport : Nat
  dport : Nat
  packets : Option (List QuicPacket)
deriving DecidableEq

/-- Reads a UDP segment that was accepted. -/
def openSegment {α : Type} (m : Mode) : Option (α × α × Buf) → Res (Option (Received α))
  | none => .ok none
  | some (src, dst, seg) => do
    let sport ← (← udp.get m seg 0).asNum
    let dport ← (← udp.get m seg 1).asNum
    let packets ← QuicPacket.new m (← udp.payload m seg)
    .ok (some ⟨src, dst, sport, dport, packets⟩)

/-- Receives it from IPv4: `none` if a checksum is wrong or the protocol is not UDP. -/
def receiveQuic4 (m : Mode) (outer : List Decl) (frame : Buf) : Res (Option (Received Ipv4Addr)) := do
  openSegment m (← receive4 m outer udp4 frame)

/-- Receives it from IPv6. -/
def receiveQuic6 (m : Mode) (outer : List Decl) (frame : Buf) : Res (Option (Received Ipv6Addr)) := do
  openSegment m (← receive6 m outer udp6 frame)

/-- Data on which `QuicPacket::new` panics (C43, C87): whole packets, maybe none, and then at least 7 bytes that begin
like a packet with a Length field but are none. A release build goes on behind some packets with a wrong Length. -/
def PanicsOn : Mode → Buf → Prop
  | .debug, data => LongThen Broken data
  | .release, data => ReleaseThen ReleaseBroken data

end Verif.Spec
