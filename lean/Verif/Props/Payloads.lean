import Verif.Props.Layouts

/-!
# Payloads and variable-length fields of the crate's packet types
(C09 - C11, C30, C31, C35 - C37)

Numbers such as the TCP data offset are written `bitsAt buf 96 4`: four bits from bit 96 on
(`Spec/Layouts`).
-/

namespace Verif.Props
open Spec

/-! ## C09 -/

/-- Header types whose payload is everything after the header, with the header size in bytes. -/
def openPayloads : List (Decl × Nat) := [
  (ethernet, 14), (vlan, 4), (udp, 8), (icmp, 4), (echoReply, 8), (echoRequest, 8),
  (destinationUnreachable, 8), (timeExceeded, 8), (icmpv6, 4)]

/-- **C09**, the payload is everything after the fixed header. -/
theorem C09_open_payloads (d : Decl) (n : Nat) (h : (d, n) ∈ openPayloads) (m : Mode) (buf : Buf)
    (hsl : SliceLen buf.length) : d.payload m buf = .ok (buf.drop n) := by
  have key : ∀ (d : Decl) (k : Nat) (f : Field) (n : Nat), bitsSum (d.fields.take k) / 8 = n →
      n < 2 ^ 63 → d.payloadIdx = some k → d.fields[k]? = some f →
      (d.fields.take k).all Field.fixed = true → f.len = none →
      d.payload m buf = .ok (buf.drop n) := by
    intro d k f n h1 h2 h3 h4 h5 h6
    subst h1
    exact payload_open h3 h4 h5 h6 hsl h2
  simp only [openPayloads, List.mem_cons, Prod.mk.injEq, List.not_mem_nil, or_false] at h
  rcases h with ⟨rfl, rfl⟩ | ⟨rfl, rfl⟩ | ⟨rfl, rfl⟩ | ⟨rfl, rfl⟩ | ⟨rfl, rfl⟩ | ⟨rfl, rfl⟩ |
    ⟨rfl, rfl⟩ | ⟨rfl, rfl⟩ | ⟨rfl, rfl⟩
  · exact key ethernet 3 _ _ rfl (by decide) rfl rfl rfl rfl
  · exact key vlan 4 _ _ rfl (by decide) rfl rfl rfl rfl
  · exact key udp 4 _ _ rfl (by decide) rfl rfl rfl rfl
  · exact key icmp 3 _ _ rfl (by decide) rfl rfl rfl rfl
  · exact key echoReply 5 _ _ rfl (by decide) rfl rfl rfl rfl
  · exact key echoRequest 5 _ _ rfl (by decide) rfl rfl rfl rfl
  · exact key destinationUnreachable 4 _ _ rfl (by decide) rfl rfl rfl rfl
  · exact key timeExceeded 4 _ _ rfl (by decide) rfl rfl rfl rfl
  · exact key icmpv6 3 _ _ rfl (by decide) rfl rfl rfl rfl

example := C09_open_payloads udp 8 (by simp [openPayloads]) .debug
  [0, 53, 0, 53, 0, 10, 0, 0, 1, 2] (by decide)

/-- Packet types whose payload field has length zero. -/
def emptyPayloads : List Decl := [
  arp, fragment, routerSolicit, routerAdvert, neighborSolicit, neighborAdvert, redirect]

/-- **C09**, ARP packets, fragment headers and the NDP messages have an empty payload. -/
theorem C09_empty_payloads (d : Decl) (h : d ∈ emptyPayloads) (m : Mode) (buf : Buf) :
    d.payload m buf = .ok [] := by
  have key : ∀ (d : Decl) (k : Nat) (f : Field), d.payloadIdx = some k → d.fields[k]? = some f →
      (d.fields.take k).all Field.fixed = true → f.len = some (lenConst 0) →
      bitsSum (d.fields.take k) / 8 < 2 ^ 64 → d.payload m buf = .ok [] := by
    intro d k f h1 h2 h3 h4 h5
    rw [payload_fixed h1 h2 h3 (len := 0) (by rw [fieldLen, h4]; rfl) (by omega), List.take_zero]
  simp only [emptyPayloads, List.mem_cons, List.not_mem_nil, or_false] at h
  rcases h with rfl | rfl | rfl | rfl | rfl | rfl | rfl
  · exact key arp 9 _ rfl rfl rfl rfl (by decide)
  · exact key fragment 4 _ rfl rfl rfl rfl (by decide)
  · exact key routerSolicit 4 _ rfl rfl rfl rfl (by decide)
  · exact key routerAdvert 8 _ rfl rfl rfl rfl (by decide)
  · exact key neighborSolicit 5 _ rfl rfl rfl rfl (by decide)
  · exact key neighborAdvert 6 _ rfl rfl rfl rfl (by decide)
  · exact key redirect 6 _ rfl rfl rfl rfl (by decide)

example := C09_empty_payloads arp (by simp [emptyPayloads]) .debug (List.replicate 46 7)

/-- **C09**, TCP: the payload starts at `4 * data_offset` (at byte 20 when the data offset is
below 5) and is empty when that is past the end. -/
theorem C09_tcp (m : Mode) (buf : Buf) (hsl : SliceLen buf.length) (h : 20 ≤ buf.length) :
    tcp.payload m buf = .ok (buf.drop (max 20 (4 * bitsAt buf 96 4))) := by
  unfold SliceLen at hsl
  have hlt := bitsAt_lt buf 96 4
  have := payload_eq (d := tcp) (m := m) (buf := buf) (k := 11) (len := buf.length) rfl rfl
    (tcp_lens11 m buf h) rfl (by rw [show bitsSum (tcp.fields.take 11) = 160 from rfl]; simp; omega)
  rw [this, List.take_of_length_le (by simp)]
  congr 2
  rw [show bitsSum (tcp.fields.take 11) = 160 from rfl]
  simp; omega

example := C09_tcp .debug (List.replicate 12 0 ++ [0x60] ++ List.replicate 12 1) (by decide) (by decide)

/-- **C09**, IPv4: the payload starts at `4 * header_length` (byte 20 when the header length is
below 5) and has `total_length - 4 * header_length` bytes (none if that is negative), cut at the end
of the buffer. -/
theorem C09_ipv4 (m : Mode) (buf : Buf) (h : 20 ≤ buf.length) :
    ipv4.payload m buf = .ok ((buf.drop (max 20 (4 * bitsAt buf 4 4))).take
      (bitsAt buf 16 16 - 4 * bitsAt buf 4 4)) := by
  have hlt := bitsAt_lt buf 4 4
  have hlt2 := bitsAt_lt buf 16 16
  have := payload_eq (d := ipv4) (m := m) (buf := buf) (k := 14) rfl rfl
    (ipv4_lens14 m buf h) (ipv4_payLen m buf h rfl)
    (by rw [show bitsSum (ipv4.fields.take 14) = 160 from rfl]; simp; omega)
  rw [this]
  congr 3
  rw [show bitsSum (ipv4.fields.take 14) = 160 from rfl]
  simp; omega

example := C09_ipv4 .debug ([0x45, 0, 0, 24] ++ List.replicate 24 7) (by decide)

/-- **C09**, IPv6: `payload_length` bytes after the 40-byte header, cut at the end of the buffer. -/
theorem C09_ipv6 (m : Mode) (buf : Buf) (h : 40 ≤ buf.length) :
    ipv6.payload m buf = .ok ((buf.drop 40).take (bitsAt buf 32 16)) := by
  have hlt := bitsAt_lt buf 32 16
  have hg : ipv6.get m buf 3 = .ok (.num (bitsAt buf 32 16)) :=
    layoutOk_get (L := ipv6Layout) (by decide +kernel) (k := 3) rfl m buf h
  exact payload_fixed (d := ipv6) (k := 8) rfl rfl rfl
    (lenNum_eq (g := id) (by decide) (by decide) hg)
    (by rw [show bitsSum (ipv6.fields.take 8) = 320 from rfl]; simp; omega)

example := C09_ipv6 .debug ([0x60, 0, 0, 0, 0, 2] ++ List.replicate 38 1) (by decide)

/-- **C09**, IPv6 extension headers (hop-by-hop and destination options): the options fill the
`8 * (hdr_ext_len + 1)` bytes of the header after its two fixed bytes. -/
theorem C09_extension (m : Mode) (buf : Buf) (h : 2 ≤ buf.length) :
    extension.payload m buf = .ok ((buf.drop 2).take (8 * (bitsAt buf 8 8 + 1) - 2)) := by
  have hlt := bitsAt_lt buf 8 8
  have hg : extension.get m buf 1 = .ok (.num (bitsAt buf 8 8)) :=
    layoutOk_get (L := extensionLayout) (by decide +kernel) (k := 1) rfl m buf h
  have := payload_fixed (d := extension) (m := m) (buf := buf) (k := 2) rfl rfl rfl
    (lenNum_eq (g := ipv6ExtensionLength) (by decide) (by decide) hg)
    (by rw [show bitsSum (extension.fields.take 2) = 16 from rfl]; simp [ipv6ExtensionLength]; omega)
  rw [this]
  congr 2
  rw [ipv6ExtensionLength]; omega

example := C09_extension .debug [6, 0, 1, 4, 0, 0, 0, 0, 9] (by decide)

/-- **C09**, IPv6 routing headers: the data fills the `8 * (hdr_ext_len + 1)` bytes of the header
after its four fixed bytes. -/
theorem C09_routing (m : Mode) (buf : Buf) (h : 4 ≤ buf.length) :
    routing.payload m buf = .ok ((buf.drop 4).take (8 * (bitsAt buf 8 8 + 1) - 4)) := by
  have hlt := bitsAt_lt buf 8 8
  have hg : routing.get m buf 1 = .ok (.num (bitsAt buf 8 8)) :=
    layoutOk_get (L := routingLayout) (by decide +kernel) (k := 1) rfl m buf h
  have := payload_fixed (d := routing) (m := m) (buf := buf) (k := 4) rfl rfl rfl
    (lenNum_eq (g := routingExtensionLength) (by decide) (by decide) hg)
    (by rw [show bitsSum (routing.fields.take 4) = 32 from rfl]; simp [routingExtensionLength]; omega)
  rw [this]
  congr 2
  rw [routingExtensionLength]; omega

example := C09_routing .debug [6, 0, 3, 1, 1, 2, 3, 4, 9] (by decide)

/-- The packet types of C09 (QUIC 1-RTT packets are in `Props/Quic`). -/
def payloadDecls : List Decl := [
  ethernet, vlan, arp, ipv4, ipv6, extension, routing, fragment, udp, tcp, icmp, echoReply,
  echoRequest, destinationUnreachable, timeExceeded, icmpv6, routerSolicit, routerAdvert,
  neighborSolicit, neighborAdvert, redirect]

/-- **C09**. `payload()` returns on every buffer accepted by `new`. -/
theorem C09_payload_never_panics (d : Decl) (hd : d ∈ payloadDecls) (m : Mode) (buf : Buf)
    (hsl : SliceLen buf.length) (hnew : (d.newPacket buf).isSome = true) :
    ∃ p, d.payload m buf = .ok p := by
  have hmin := new_len hnew
  simp only [payloadDecls, List.mem_cons, List.not_mem_nil, or_false] at hd
  rcases hd with rfl | rfl | rfl | rfl | rfl | rfl | rfl | rfl | rfl | rfl | rfl | rfl | rfl | rfl |
    rfl | rfl | rfl | rfl | rfl | rfl | rfl
  · exact ⟨_, C09_open_payloads _ 14 (by simp [openPayloads]) m buf hsl⟩
  · exact ⟨_, C09_open_payloads _ 4 (by simp [openPayloads]) m buf hsl⟩
  · exact ⟨_, C09_empty_payloads _ (by simp [emptyPayloads]) m buf⟩
  · exact ⟨_, C09_ipv4 m buf hmin⟩
  · exact ⟨_, C09_ipv6 m buf hmin⟩
  · exact ⟨_, C09_extension m buf hmin⟩
  · exact ⟨_, C09_routing m buf hmin⟩
  · exact ⟨_, C09_empty_payloads _ (by simp [emptyPayloads]) m buf⟩
  · exact ⟨_, C09_open_payloads _ 8 (by simp [openPayloads]) m buf hsl⟩
  · exact ⟨_, C09_tcp m buf hsl hmin⟩
  · exact ⟨_, C09_open_payloads _ 4 (by simp [openPayloads]) m buf hsl⟩
  · exact ⟨_, C09_open_payloads _ 8 (by simp [openPayloads]) m buf hsl⟩
  · exact ⟨_, C09_open_payloads _ 8 (by simp [openPayloads]) m buf hsl⟩
  · exact ⟨_, C09_open_payloads _ 8 (by simp [openPayloads]) m buf hsl⟩
  · exact ⟨_, C09_open_payloads _ 8 (by simp [openPayloads]) m buf hsl⟩
  · exact ⟨_, C09_open_payloads _ 4 (by simp [openPayloads]) m buf hsl⟩
  all_goals exact ⟨_, C09_empty_payloads _ (by simp [emptyPayloads]) m buf⟩

/-- A TCP segment whose header claims 60 bytes in a 21-byte buffer. -/
def shortTcp : Buf := List.replicate 12 0 ++ [0xF0] ++ List.replicate 8 1

example : (tcp.newPacket shortTcp).isSome = true ∧ bitsAt shortTcp 96 4 = 15 ∧
    tcp.payload .debug shortTcp = .ok [] := by decide +kernel

/-! ## C31 -/

/-- **C31**. The 20 fixed bytes, the raw options and the payload of a TCP segment whose header fits
are the whole buffer, cut at bytes 20 and `4 * data_offset`. -/
theorem C31_tcp_partition (m : Mode) (buf : Buf) (hsl : SliceLen buf.length) (h : 20 ≤ buf.length)
    (h5 : 5 ≤ bitsAt buf 96 4) (hfit : 4 * bitsAt buf 96 4 ≤ buf.length) :
    ∃ opts pay, tcp.getRaw m buf 10 = .ok opts ∧ tcp.payload m buf = .ok pay ∧
      buf = buf.take 20 ++ opts ++ pay ∧ (buf.take 20 ++ opts).length = 4 * bitsAt buf 96 4 := by
  have hlt := bitsAt_lt buf 96 4
  have hraw : tcp.getRaw m buf 10 = .ok ((buf.drop 20).take (4 * bitsAt buf 96 4 - 20)) :=
    getRaw_fixed (d := tcp) (k := 10) rfl rfl
      (by rw [← tcpOptionsLength_eq]; exact tcp_optLen m buf h) h
      (by rw [show bitsSum (tcp.fields.take 10) = 160 from rfl]; omega)
  refine ⟨_, _, hraw, C09_tcp m buf hsl h, ?_, ?_⟩
  · rw [Nat.max_eq_right (by omega), List.append_assoc]
    conv => lhs; rw [← List.take_append_drop 20 buf]
    congr 1
    conv => lhs; rw [← List.take_append_drop (4 * bitsAt buf 96 4 - 20) (buf.drop 20)]
    congr 1
    rw [List.drop_drop]
    congr 1; omega
  · simp only [List.length_append, List.length_take, List.length_drop]; omega

example : bitsAt (List.replicate 12 0 ++ [0x60] ++ List.replicate 12 1) 96 4 = 6 ∧
    tcp.getRaw .debug (List.replicate 12 0 ++ [0x60] ++ List.replicate 12 1) 10 =
      .ok [1, 1, 1, 1] := by decide +kernel

/-! ## C30 -/

/-- **C30**, full claim: the payload is the part of the buffer after the header (at least the 20
fixed bytes) and before `total_length`. -/
def C30_statement : Prop := ∀ (m : Mode) (buf : Buf), 20 ≤ buf.length →
  ipv4.payload m buf = .ok ((buf.take (bitsAt buf 16 16)).drop (max 20 (4 * bitsAt buf 4 4)))

/-- An IPv4 packet with header length 0, total length 24 and 8 bytes after the header. -/
def ihl0 : Buf := [0x40, 0, 0, 24] ++ List.replicate 16 0 ++ [1, 2, 3, 4, 5, 6, 7, 8]

/-- C30 fails: the payload of `ihl0` is eight bytes, although `total_length` leaves four after the
20 fixed bytes. -/
theorem C30_false : ¬ C30_statement := by
  intro h
  have := h .debug ihl0 (by decide)
  revert this
  decide +kernel

example : bitsAt ihl0 16 16 = 24 ∧ ipv4.payload .release ihl0 = .ok [1, 2, 3, 4, 5, 6, 7, 8] := by
  decide +kernel

/-- **C30** for header lengths the RFC allows (at least 5): the payload is exactly the part of the
buffer between the header and `total_length`, and with a buffer that holds the whole datagram
header plus payload are `total_length` bytes. Missing: header lengths below 5 (`C30_false`). -/
theorem C30_payload_within_total_length_partial (m : Mode) (buf : Buf) (h : 20 ≤ buf.length)
    (h5 : 5 ≤ bitsAt buf 4 4) :
    ipv4.payload m buf =
      .ok ((buf.take (bitsAt buf 16 16)).drop (4 * bitsAt buf 4 4)) ∧
    (4 * bitsAt buf 4 4 ≤ bitsAt buf 16 16 → bitsAt buf 16 16 ≤ buf.length →
      ∃ p, ipv4.payload m buf = .ok p ∧
        (buf.take (4 * bitsAt buf 4 4)).length + p.length = bitsAt buf 16 16 ∧
        buf.take (4 * bitsAt buf 4 4) ++ p = buf.take (bitsAt buf 16 16)) := by
  have key : ipv4.payload m buf =
      .ok ((buf.take (bitsAt buf 16 16)).drop (4 * bitsAt buf 4 4)) := by
    rw [C09_ipv4 m buf h, Nat.max_eq_right (by omega), List.drop_take]
  refine ⟨key, fun h1 h2 => ⟨_, key, ?_, ?_⟩⟩
  · simp only [List.length_take, List.length_drop]; omega
  · conv => rhs; rw [← List.take_append_drop (4 * bitsAt buf 4 4) (buf.take (bitsAt buf 16 16))]
    rw [List.take_take, Nat.min_eq_left h1]

example := C30_payload_within_total_length_partial .debug ([0x45, 0, 0, 24] ++ List.replicate 24 7)
  (by decide) (by decide +kernel)

/-- **C30** in general: the exact excess for short header lengths. -/
theorem C30_payload_length (m : Mode) (buf : Buf) (h : 20 ≤ buf.length) :
    ∃ p, ipv4.payload m buf = .ok p ∧
      p.length = min (bitsAt buf 16 16 - 4 * bitsAt buf 4 4)
        (buf.length - max 20 (4 * bitsAt buf 4 4)) := by
  refine ⟨_, C09_ipv4 m buf h, ?_⟩
  simp only [List.length_take, List.length_drop]

example := C30_payload_length .debug ihl0 (by decide)

/-- **C30**, `packet_size()` is `total_length` for consistent headers. -/
theorem C30_packet_size (m : Mode) (buf : Buf) (h : 20 ≤ buf.length) (h5 : 5 ≤ bitsAt buf 4 4)
    (ht : 4 * bitsAt buf 4 4 ≤ bitsAt buf 16 16) :
    ipv4.packetSize m buf = .ok (bitsAt buf 16 16) := by
  have hlt := bitsAt_lt buf 4 4
  have hlt2 := bitsAt_lt buf 16 16
  have hl := ipv4_payLen m buf h rfl
  rw [fieldLen] at hl
  dsimp only [fpayload] at hl
  rw [packetSize_eq (sizes := [4 * bitsAt buf 4 4 - 20, bitsAt buf 16 16 - 4 * bitsAt buf 4 4])]
  · congr 1
    rw [show ipv4.bits = 160 from rfl]
    simp; omega
  · rw [show ipv4.fields.length = 14 + 1 from rfl, before_lens_succ (d := ipv4) (k := 14) rfl rfl,
      ipv4_lens14 m buf h, hl]
    rfl
  · rw [show ipv4.bits = 160 from rfl]; simp; omega

example : 5 ≤ bitsAt ([0x45, 0, 0, 24] ++ List.replicate 24 7) 4 4 ∧
    bitsAt ([0x45, 0, 0, 24] ++ List.replicate 24 7) 16 16 = 24 ∧
    ipv4.payload .debug ([0x45, 0, 0, 24] ++ List.replicate 24 7) = .ok [7, 7, 7, 7] := by
  decide +kernel

end Verif.Props
