import Verif.Model.TcpOptions
import Verif.Model.MacAddr
import Verif.Model.Names

/-!
# The unit tests of `src/*.rs` and `core/src/macaddr.rs`, run on the model

Not properties: these tests only check that the model computes what the project's own tests expect.
A test is a program that returns when all its assertions hold.
-/

namespace Verif.Tests

/-- The field with this name. -/
def at_ (d : Decl) (name : String) : Nat := d.fields.findIdx (·.name == name)

/-- `assert!`. -/
def assert (c : Bool) : Res Unit := if c then .ok () else panic

/-- A buffer as a number, so that the kernel computes it once. -/
def encode : Buf → Nat
  | [] => 1
  | b :: bs => encode bs * 256 + b.toNat

/-- Inverse of `encode`. -/
def decode : (fuel : Nat) → Nat → Buf
  | 0, _ => []
  | fuel + 1, n => if n ≤ 1 then [] else UInt8.ofNat n :: decode fuel (n / 256)

/-- The same buffer, computed. -/
def force (p : Buf) : Buf :=
  match encode p with
  | 0 => []
  | n + 1 => decode 600 (n + 1)

theorem decode_encode : ∀ (p : Buf) (fuel : Nat), p.length < fuel → decode fuel (encode p) = p
  | [], fuel + 1, _ => by simp [decode, encode]
  | b :: bs, fuel + 1, h => by
    have hpos : ∀ q : Buf, 1 ≤ encode q := fun q => by
      induction q with
      | nil => exact Nat.le_refl 1
      | cons c cs ih => simp only [encode]; omega
    have h1 := hpos bs
    have h2 := b.toNat_lt
    rw [encode, decode, if_neg (by omega)]
    congr 1
    · apply UInt8.toNat_inj.mp
      rw [UInt8.toNat_ofNat']
      omega
    · rw [show (encode bs * 256 + b.toNat) / 256 = encode bs by omega]
      exact decode_encode bs fuel (by simpa using h)

/-- `force` changes nothing. -/
theorem force_eq (p : Buf) (h : p.length < 600) : force p = p := by
  have := decode_encode p 600 h
  unfold force
  split
  · rename_i h0; rw [h0] at this; simpa [decode] using this
  · rename_i n hn; rw [hn] at this; exact this

/-- `p.set_<name>(v); assert_eq!(p.get_<name>(), v)`. -/
def put (m : Mode) (d : Decl) (buf : Buf) (name : String) (v : Val) : Res Buf := do
  let buf ← d.set m buf (at_ d name) v
  let buf := force buf
  assert (decide (d.get m buf (at_ d name) = .ok v))
  .ok buf

/-- Both build modes. -/
def modes : List Mode := [.debug, .release]

/-- `[b; n]`. -/
def fill (n : Nat) (b : UInt8) : Buf := List.replicate n b

/-- "test" -/
def testData : Buf := [0x74, 0x65, 0x73, 0x74]

/-! ## UDP -/

/-- `udp_header_ipv4_test`, `src/udp.rs:54-97`. -/
def udpIpv4Test (m : Mode) : Res Buf := do
  let source := Ipv4Addr.mk #v[192, 168, 0, 1]
  let destination := Ipv4Addr.mk #v[192, 168, 0, 199]
  let ip := fill 20 0
  let ip ← put m ipv4 ip "next_level_protocol" (.nums [17])
  let ip ← put m ipv4 ip "source" (.nums [192, 168, 0, 1])
  let _ ← put m ipv4 ip "destination" (.nums [192, 168, 0, 199])
  let p := fill 8 0 ++ testData
  let p ← put m udp p "source" (.num 12345)
  let p ← put m udp p "destination" (.num 54321)
  let p ← put m udp p "length" (.num 12)
  let c ← udpIpv4Checksum m p source destination
  let p ← put m udp p "checksum" (.num c)
  assert (c == 0x9178)
  .ok (p.take 8)

example : ∀ m ∈ modes, udpIpv4Test m = .ok [0x30, 0x39, 0xd4, 0x31, 0x00, 0x0c, 0x91, 0x78] := by
  decide +kernel

/-- `udp_header_ipv6_test`, `src/udp.rs:128-172`. -/
def udpIpv6Test (m : Mode) : Res Buf := do
  let lo : Ipv6Addr := ⟨#v[0, 0, 0, 0, 0, 0, 0, 0, 0, 0, 0, 0, 0, 0, 0, 1]⟩
  let p := fill 8 0 ++ testData
  let p ← put m udp p "source" (.num 12345)
  let p ← put m udp p "destination" (.num 54321)
  let p ← put m udp p "length" (.num 12)
  let c ← udpIpv6Checksum m p lo lo
  let p ← put m udp p "checksum" (.num c)
  assert (c == 0x1390)
  .ok (p.take 8)

example : ∀ m ∈ modes, udpIpv6Test m = .ok [0x30, 0x39, 0xd4, 0x31, 0x00, 0x0c, 0x13, 0x90] := by
  decide +kernel

/-! ## Checksums -/

/-- `sum_be_words_different_skipwords`, `src/util.rs:185-194`. -/
example : ∀ m ∈ modes, let data : Buf := [0, 1, 2, 3, 4, 5, 6, 7, 8, 9, 10]
    sumBeWords m data 1 = .ok 7190 ∧ sumBeWords m data 2 = .ok 6676 ∧
    sumBeWords m data 99 = .ok 7705 ∧ sumBeWords m data 101 = .ok 7705 := by
  decide +kernel

/-- `sum_be_words_small_sizes`, `src/util.rs:196-212`. -/
example : ∀ m ∈ modes,
    sumBeWords m [] 0 = .ok 0 ∧ sumBeWords m [] 10 = .ok 0 ∧
    sumBeWords m [1] 1 = .ok 256 ∧
    sumBeWords m [1, 1] 0 = .ok 0 ∧ sumBeWords m [1, 1] 1 = .ok 257 ∧
    sumBeWords m [4, 4, 4] 0 = .ok 1024 ∧ sumBeWords m [4, 4, 4] 1 = .ok 1028 ∧
    sumBeWords m [4, 4, 4] 2 = .ok 2052 ∧ sumBeWords m [4, 4, 4] 3 = .ok 2052 := by
  decide +kernel

/-- `sum_be_words_misaligned_ptr`, `src/util.rs:214-232` (one zero byte more than above). -/
example : ∀ m ∈ modes, let data : Buf := [0, 1, 2, 3, 4, 5, 6, 7, 8, 9, 10, 0]
    sumBeWords m data 1 = .ok 7190 ∧ sumBeWords m data 2 = .ok 6676 ∧
    sumBeWords m data 99 = .ok 7705 ∧ sumBeWords m data 101 = .ok 7705 := by
  decide +kernel

/-! ## TCP -/

/-- `tcp_header_ipv4_test`, `src/tcp.rs:292-360` (the TCP part of the buffer). -/
def tcpIpv4Test (m : Mode) : Res Buf := do
  let p := fill 32 0 ++ testData
  let p ← put m tcp p "source" (.num 49511)
  let p ← put m tcp p "destination" (.num 9000)
  let p ← put m tcp p "sequence" (.num 0x9037d2b8)
  let p ← put m tcp p "acknowledgement" (.num 0x944bb276)
  let p ← put m tcp p "flags" (.num 0x18)
  let p ← put m tcp p "window" (.num 4015)
  let p ← put m tcp p "data_offset" (.num 8)
  let p ← tcp.set m p (at_ tcp "options") (.list [tcpNop, tcpNop, tcpTimestamp 743951781 44056978])
  let c ← tcpIpv4Checksum m p ⟨#v[192, 168, 2, 1]⟩ ⟨#v[192, 168, 111, 51]⟩
  let p ← put m tcp p "checksum" (.num c)
  assert (c == 0xc031)
  .ok p

example : ∀ m ∈ modes, tcpIpv4Test m = .ok [
    0xc1, 0x67, 0x23, 0x28, 0x90, 0x37, 0xd2, 0xb8, 0x94, 0x4b, 0xb2, 0x76, 0x80, 0x18, 0x0f, 0xaf,
    0xc0, 0x31, 0x00, 0x00, 0x01, 0x01, 0x08, 0x0a, 0x2c, 0x57, 0xcd, 0xa5, 0x02, 0xa0, 0x41, 0x92,
    0x74, 0x65, 0x73, 0x74] := by
  decide +kernel

/-- The packet of `tcp_test_options_invalid_offset` and the two tests after it,
`src/tcp.rs:362-402`. -/
def tcpBadOffset (m : Mode) : Res Buf := tcp.set m (fill 20 0) (at_ tcp "data_offset") (.num 10)

example : ∀ m ∈ modes, (do
    let p ← tcpBadOffset m
    let raw ← tcp.getRaw m p (at_ tcp "options")
    let options ← tcp.get m p (at_ tcp "options")
    .ok (raw, options)) = .ok ([], .list []) := by
  decide +kernel

/-- `tcp_test_option_invalid_len`, `src/tcp.rs:404-421`: every option of the iterator can be printed. -/
example : ∀ m ∈ modes, (do
    let p ← tcp.set m (fill 24 0) (at_ tcp "data_offset") (.num 6)
    let p := (p.set 20 2).set 21 8
    let raw ← tcp.getRaw m p (at_ tcp "options")
    let options ← tcpOption.codec.items m (raw.length + 1) raw
    options.mapM (tcpOption.debug m)) = .ok [()] := by
  decide +kernel

/-- `tcp_test_payload_slice_invalid_offset`, `src/tcp.rs:423-435`. -/
example : ∀ m ∈ modes, (do tcp.payload m (← tcpBadOffset m)) = .ok [] := by
  decide +kernel

/-! ## ICMP and ICMPv6 -/

/-- `checksum_zeros`, `checksum_nonzero`, `checksum_odd_bytes`, `src/icmp.rs:73-100`. -/
example : ∀ m ∈ modes,
    icmpChecksum m (fill 8 0) = .ok 65535 ∧
    (do icmpChecksum m (← icmp.set m (fill 8 0) 2 (.num 123))) = .ok 65535 ∧
    icmpChecksum m (fill 8 255) = .ok 0 ∧
    (do icmpChecksum m (← icmp.set m (fill 8 255) 2 (.num 0))) = .ok 0 ∧
    icmpChecksum m (fill 7 191) = .ok 49535 := by
  decide +kernel

/-- The echo request of `checksum_echo_request`, `src/icmpv6.rs:94-106`. -/
def echo : Buf := [
  0x80, 0x00, 0xff, 0xff, 0x00, 0x00, 0x00, 0x01,
  0x20, 0x20, 0x75, 0x73, 0x74, 0x20, 0x61, 0x20, 0x66, 0x6c, 0x65, 0x73, 0x68, 0x20,
  0x77, 0x6f, 0x75, 0x6e, 0x64, 0x20, 0x20, 0x74, 0x69, 0x73, 0x20, 0x62, 0x75, 0x74,
  0x20, 0x61, 0x20, 0x73, 0x63, 0x72, 0x61, 0x74, 0x63, 0x68, 0x20, 0x20, 0x6b, 0x6e,
  0x69, 0x67, 0x68, 0x74, 0x73, 0x20, 0x6f, 0x66, 0x20, 0x6e, 0x69, 0x20, 0x20, 0x20]

/-- `checksum_echo_request`, `src/icmpv6.rs:90-112`. -/
example : ∀ m ∈ modes,
    let lo : Ipv6Addr := ⟨#v[0, 0, 0, 0, 0, 0, 0, 0, 0, 0, 0, 0, 0, 0, 0, 1]⟩
    icmpv6Checksum m echo lo lo = .ok 0x1d2e ∧
    (do icmpv6Checksum m (← icmpv6.set m echo 0 (.nums [0x81])) lo lo) = .ok 0x1c2e := by
  decide +kernel

/-! ## Neighbour discovery -/

/-- `basic_option_parsing`, `src/icmpv6.rs:502-514`. -/
example : ∀ m ∈ modes, let p : Buf := [0x02, 0x01, 0x06, 0x05, 0x04, 0x03, 0x02, 0x01, 0x00, 0x00, 0x00]
    ndpOption.get m p 0 = .ok (.nums [2]) ∧ ndpOption.get m p 1 = .ok (.num 1) ∧
    ndpOption.payload m p = .ok [0x06, 0x05, 0x04, 0x03, 0x02, 0x01] := by
  decide +kernel

/-- An `NdpOption`. -/
def ndp (ty : Nat) (data : List Nat) : Val := .list [.nums [ty], .num 1, .nums data]

/-- `basic_rs_parse`, `src/icmpv6.rs:516-544`. -/
example : ∀ m ∈ modes, let p : Buf := [
      0x85, 0x00, 0x00, 0x00, 0x00, 0x00, 0x00, 0x00,
      0x02, 0x01, 0x00, 0x00, 0x00, 0x00, 0x00, 0x00, 0x01, 0x01, 0x00, 0x00, 0x00, 0x00, 0x00, 0x00]
    routerSolicit.fromPacket m p = .ok (.list [.nums [133], .nums [0], .num 0, .num 0, .nums [],
      .list [ndp 2 [0, 0, 0, 0, 0, 0], ndp 1 [0, 0, 0, 0, 0, 0]]]) := by
  decide +kernel

/-- `basic_rs_create`, `src/icmpv6.rs:546-565`. -/
def rsCreate (m : Mode) : Res Buf := do
  let p ← put m routerSolicit (fill 16 0) "icmpv6_type" (.nums [133])
  let p ← put m routerSolicit p "icmpv6_code" (.nums [0])
  put m routerSolicit p "options" (.list [ndp 1 [0, 0, 0, 0, 0, 0]])

example : ∀ m ∈ modes, rsCreate m =
    .ok [0x85, 0, 0, 0, 0, 0, 0, 0, 0x01, 0x01, 0, 0, 0, 0, 0, 0] := by
  decide +kernel

/-- `basic_ra_parse`, `src/icmpv6.rs:567-601`. -/
example : ∀ m ∈ modes, let p : Buf := [
      0x86, 0x00, 0x00, 0x00, 0xff, 0x80, 0x09, 0x00, 0x12, 0x34, 0x56, 0x78, 0x87, 0x65, 0x43, 0x21,
      0x01, 0x01, 0x00, 0x00, 0x00, 0x00, 0x00, 0x00, 0x05, 0x01, 0x00, 0x00, 0x57, 0x68, 0x61, 0x74]
    routerAdvert.fromPacket m p = .ok (.list [.nums [134], .nums [0], .num 0, .num 0xff, .num 0x80,
      .num 0x900, .num 0x12345678, .num 0x87654321, .nums [],
      .list [ndp 1 [0, 0, 0, 0, 0, 0], ndp 5 [0, 0, 0x57, 0x68, 0x61, 0x74]]]) := by
  decide +kernel

/-- `basic_ra_create`, `src/icmpv6.rs:603-624`. -/
def raCreate (m : Mode) : Res Buf := do
  let p ← put m routerAdvert (fill 24 0) "icmpv6_type" (.nums [134])
  let p ← put m routerAdvert p "icmpv6_code" (.nums [0])
  let p ← put m routerAdvert p "hop_limit" (.num 0xff)
  let p ← put m routerAdvert p "flags" (.num 0x80)
  put m routerAdvert p "options" (.list [ndp 5 [0, 0, 0, 0, 0, 0]])

example : ∀ m ∈ modes, raCreate m = .ok [0x86, 0, 0, 0, 0xff, 0x80, 0, 0, 0, 0, 0, 0, 0, 0, 0, 0,
    0x05, 0x01, 0, 0, 0, 0, 0, 0] := by
  decide +kernel

/-- The bytes of `ff02::1`. -/
def allNodes : Buf := [0xff, 0x02, 0, 0, 0, 0, 0, 0, 0, 0, 0, 0, 0, 0, 0, 1]

/-- `Ipv6Addr::new(0xff02, 0, 0, 0, 0, 0, 0, 1)`. -/
def allNodesVal : Val := .nums [0xff02, 0, 0, 0, 0, 0, 0, 1]

/-- `basic_ns_parse` and `basic_ns_create`, `src/icmpv6.rs:626-657`. -/
example : ∀ m ∈ modes, let p : Buf := [0x87, 0, 0, 0, 0, 0, 0, 0] ++ allNodes
    neighborSolicit.fromPacket m p = .ok (.list [.nums [135], .nums [0], .num 0, .num 0, allNodesVal,
      .nums [], .list []]) ∧
    (do
      let q ← put m neighborSolicit (fill 24 0) "icmpv6_type" (.nums [135])
      let q ← put m neighborSolicit q "icmpv6_code" (.nums [0])
      put m neighborSolicit q "target_addr" allNodesVal) = .ok p := by
  decide +kernel

/-- `basic_na_parse` and `basic_na_create`, `src/icmpv6.rs:659-692`. -/
example : ∀ m ∈ modes, let p : Buf := [0x88, 0, 0, 0, 0x80, 0, 0, 0] ++ allNodes
    neighborAdvert.fromPacket m p = .ok (.list [.nums [136], .nums [0], .num 0, .num 0x80, .num 0,
      allNodesVal, .nums [], .list []]) ∧
    (do
      let q ← put m neighborAdvert (fill 24 0) "icmpv6_type" (.nums [136])
      let q ← put m neighborAdvert q "icmpv6_code" (.nums [0])
      let q ← put m neighborAdvert q "target_addr" allNodesVal
      put m neighborAdvert q "flags" (.num 0x80)) = .ok p := by
  decide +kernel

/-- `basic_redirect_parse` and `basic_redirect_create`, `src/icmpv6.rs:694-729`. -/
example : ∀ m ∈ modes, let p : Buf := [0x89, 0, 0, 0, 0, 0, 0, 0] ++ allNodes ++ fill 16 0
    redirect.fromPacket m p = .ok (.list [.nums [137], .nums [0], .num 0, .num 0, allNodesVal,
      .nums [0, 0, 0, 0, 0, 0, 0, 0], .nums [], .list []]) ∧
    (do
      let q ← put m redirect (fill 40 0) "icmpv6_type" (.nums [137])
      let q ← put m redirect q "icmpv6_code" (.nums [0])
      let q ← put m redirect q "target_addr" allNodesVal
      put m redirect q "dest_addr" (.nums [0, 0, 0, 0, 0, 0, 0, 0])) = .ok p := by
  decide +kernel

/-! ## Link layer -/

/-- `vlan_packet_test`, `src/vlan.rs:74-99`. -/
def vlanTest (m : Mode) : Res Buf := do
  let p ← put m vlan (fill 4 0) "priority_code_point" (.nums [0])
  let p ← put m vlan p "drop_eligible_indicator" (.num 0)
  let p ← put m vlan p "ethertype" (.nums [0x0800])
  put m vlan p "vlan_identifier" (.num 0x100)

example : ∀ m ∈ modes, vlanTest m = .ok [0x01, 0x00, 0x08, 0x00] := by decide +kernel

/-- `ethernet_header_test`, `src/ethernet.rs:27-51`. -/
def ethernetTest (m : Mode) : Res Buf := do
  let p ← put m ethernet (fill 14 0) "source" (.nums [0x12, 0x34, 0x56, 0x78, 0x9a, 0xbc])
  let p ← put m ethernet p "destination" (.nums [0xde, 0xf0, 0x12, 0x34, 0x45, 0x67])
  put m ethernet p "ethertype" (.nums [0x86dd])

example : ∀ m ∈ modes, ethernetTest m = .ok [0xde, 0xf0, 0x12, 0x34, 0x45, 0x67,
    0x12, 0x34, 0x56, 0x78, 0x9a, 0xbc, 0x86, 0xdd] := by
  decide +kernel

/-- `ether_type_to_str`, `src/ethernet.rs:165-173`, and `ip_next_header_protocol_to_str`,
`src/ip.rs:646-654`. -/
example : etherDisplay 0x0800 = "Ipv4" ∧ etherDisplay 0x0806 = "Arp" ∧
    etherDisplay 0x0666 = "unknown" ∧ ipDisplay 0 = "Hopopt" ∧
    ipDisplay 66 = "Rvd" ∧ ipDisplay 128 = "Sscopmce" := by
  decide +kernel

/-! ## GRE -/

/-- `gre_packet_test`, `src/gre.rs:80-97`. -/
example : ∀ m ∈ modes, (do
    let p ← gre.set m (fill 4 0) (at_ gre "protocol_type") (.num 0x0800)
    let payload ← gre.payload m p
    .ok (p, payload)) = .ok ([0, 0, 0x08, 0], []) := by
  decide +kernel

/-- `gre_checksum_test`, `src/gre.rs:99-120`. -/
example : ∀ m ∈ modes, (do
    let p ← gre.set m (fill 8 0) 0 (.num 1)
    let payload ← gre.payload m p
    let checksum ← gre.get m p (at_ gre "checksum")
    let offset ← gre.get m p (at_ gre "offset")
    .ok (p, payload, checksum, offset)) = .ok ([0x80, 0, 0, 0, 0, 0, 0, 0], [],
      .list [.list [.num 0, .nums []]], .list [.list [.num 0, .nums []]]) := by
  decide +kernel

/-! ## IPv4 -/

/-- `checksum_zeros` to `checksum_too_large_header_length`, `src/ipv4.rs:175-213`. -/
def ipv4ChecksumTest (m : Mode) (b : UInt8) (headerLength : Nat) : Res (Nat × Nat) := do
  let p ← ipv4.set m (fill 20 b) (at_ ipv4 "header_length") (.num headerLength)
  let c ← ipv4HeaderChecksum m p
  let p ← ipv4.set m p (at_ ipv4 "checksum") (.num 123)
  .ok (c, ← ipv4HeaderChecksum m p)

example : ∀ m ∈ modes,
    ipv4ChecksumTest m 0 5 = .ok (64255, 64255) ∧ ipv4ChecksumTest m 255 5 = .ok (2560, 2560) ∧
    ipv4ChecksumTest m 148 0 = .ok (51910, 51910) ∧ ipv4ChecksumTest m 148 99 = .ok (51142, 51142) := by
  decide +kernel

/-- `ipv4_options_length_test` and `ipv4_payload_length_test`, `src/ipv4.rs:223-238`. -/
example : ipv4OptionsLength 5 = 0 ∧ ipv4PayloadLength 20 5 = 0 ∧ ipv4PayloadLength 30 5 = 10 := by decide

/-- `ipv4_packet_test`, `src/ipv4.rs:274-342`. -/
def ipv4Test (m : Mode) : Res Buf := do
  let p ← put m ipv4 (fill 200 0) "version" (.num 4)
  let p ← put m ipv4 p "header_length" (.num 5)
  let p ← put m ipv4 p "dscp" (.num 4)
  let p ← put m ipv4 p "ecn" (.num 1)
  let p ← put m ipv4 p "total_length" (.num 115)
  assert ((← ipv4.payload m p).length == 95)
  assert ((← ipv4.packetSize m p) == 115)
  let p ← put m ipv4 p "identification" (.num 257)
  let p ← put m ipv4 p "flags" (.num 2)
  let p ← put m ipv4 p "fragment_offset" (.num 257)
  let p ← put m ipv4 p "ttl" (.num 64)
  let p ← put m ipv4 p "next_level_protocol" (.nums [17])
  let p ← put m ipv4 p "source" (.nums [192, 168, 0, 1])
  let p ← put m ipv4 p "destination" (.nums [192, 168, 0, 199])
  let c ← ipv4HeaderChecksum m p
  let p ← put m ipv4 p "checksum" (.num c)
  .ok (p.take 20)

example : ∀ m ∈ modes, ipv4Test m = .ok [0x45, 0x11, 0x00, 0x73, 0x01, 0x01, 0x41, 0x01, 0x40, 0x11,
    0xb6, 0x4e, 0xc0, 0xa8, 0x00, 0x01, 0xc0, 0xa8, 0x00, 0xc7] := by
  decide +kernel

/-- `ipv4_packet_option_test`, `src/ipv4.rs:344-372`. -/
def ipv4OptionTest (m : Mode) : Res Buf := do
  let p ← put m ipv4Option (fill 3 0) "copied" (.num 1)
  let p ← put m ipv4Option p "class" (.num 0)
  let p ← put m ipv4Option p "number" (.nums [3])
  let p ← put m ipv4Option p "length" (.nums [3])
  ipv4Option.set m p (at_ ipv4Option "data") (.nums [16])

example : ∀ m ∈ modes, ipv4OptionTest m = .ok [0x83, 0x03, 0x10] := by decide +kernel

/-- `ipv4_packet_set_payload_test` and `ipv4_packet_set_payload_test_panic`, `src/ipv4.rs:374-396`. -/
def ipv4PayloadTest (m : Mode) (size : Nat) : Res Buf := do
  let p ← ipv4.set m (fill size 0) (at_ ipv4 "total_length") (.num 25)
  let p ← ipv4.set m p (at_ ipv4 "header_length") (.num 5)
  let p ← ipv4.set m p (at_ ipv4 "payload") (.nums [115, 116, 117, 102, 102])
  ipv4.payload m p

example : ∀ m ∈ modes, ipv4PayloadTest m 25 = .ok [115, 116, 117, 102, 102] ∧
    ipv4PayloadTest m 24 = .error .panic := by
  decide +kernel

/-! ## IPv6 -/

/-- The packet of `ipv6_header_test`, `src/ipv6.rs:142-297`, header only. -/
def ipv6Header (m : Mode) : Res Buf := do
  let addr : Val := .nums [0x110, 0x1001, 0x110, 0x1001, 0x110, 0x1001, 0x110, 0x1001]
  let p ← put m ipv6 (fill 300 0) "version" (.num 6)
  let p ← put m ipv6 p "traffic_class" (.num 17)
  let p ← put m ipv6 p "flow_label" (.num 0x10101)
  let p ← put m ipv6 p "payload_length" (.num 0x0101)
  assert ((← ipv6.payload m p).length == 0x0101)
  let p ← put m ipv6 p "next_header" (.nums [0])
  let p ← put m ipv6 p "hop_limit" (.num 1)
  let p ← put m ipv6 p "source" addr
  let p ← put m ipv6 p "destination" addr
  .ok (p.take 40)

example : ∀ m ∈ modes, ipv6Header m = .ok [0x61, 0x11, 0x01, 0x01, 0x01, 0x01, 0x00, 0x01,
    0x01, 0x10, 0x10, 0x01, 0x01, 0x10, 0x10, 0x01, 0x01, 0x10, 0x10, 0x01, 0x01, 0x10, 0x10, 0x01,
    0x01, 0x10, 0x10, 0x01, 0x01, 0x10, 0x10, 0x01, 0x01, 0x10, 0x10, 0x01, 0x01, 0x10, 0x10, 0x01] := by
  decide +kernel

/-- The four extension headers of `ipv6_header_test`, each in its own part of the payload. -/
def ipv6Extensions (m : Mode) : Res (List Buf) := do
  let h ← put m extension (fill 16 0) "next_header" (.nums [60])
  let h ← put m extension h "hdr_ext_len" (.num 1)
  let h ← put m extension h "options" (.nums (List.replicate 14 65))
  assert ((← extension.packetSize m h) == 16)
  let d ← put m extension (fill 16 0) "next_header" (.nums [43])
  let d ← put m extension d "hdr_ext_len" (.num 1)
  let d ← put m extension d "options" (.nums (List.replicate 14 66))
  let r ← put m routing (fill 16 0) "next_header" (.nums [44])
  let r ← put m routing r "hdr_ext_len" (.num 1)
  let r ← put m routing r "routing_type" (.num 4)
  let r ← put m routing r "segments_left" (.num 2)
  let r ← put m routing r "data" (.nums (List.replicate 12 67))
  assert ((← routing.packetSize m r) == 16)
  let f ← put m fragment (fill 8 0) "next_header" (.nums [17])
  let f ← setFragmentOffset m f 1024
  assert ((← getFragmentOffset m f) == 1024)
  let f ← setLastFragment m f false
  assert (!(← isLastFragment m f))
  let f ← put m fragment f "id" (.num 1234)
  assert ((← fragment.packetSize m f) == 8)
  .ok [h, d, r, f]

example : ∀ m ∈ modes, ipv6Extensions m = .ok [
    [0x3c, 0x01] ++ fill 14 65, [0x2b, 0x01] ++ fill 14 66, [0x2c, 0x01, 0x04, 0x02] ++ fill 12 67,
    [0x11, 0x00, 0x04, 0x01, 0x00, 0x00, 0x04, 0xd2]] := by
  decide +kernel

/-- `ExtensionIterable` over the four headers, `src/ipv6.rs:247-263`. -/
example : ∀ m ∈ modes, (do
    let parts ← ipv6Extensions m
    let buf := parts.flatten
    let exts ← extension.codec.items m (buf.length + 1) buf
    exts.mapM fun e => do
      .ok (← extension.get m e 0, ← extension.get m e 1, ← extension.packetSize m e)) =
    .ok [(.nums [60], .num 1, 16), (.nums [43], .num 1, 16), (.nums [44], .num 1, 16),
      (.nums [17], .num 0, 8)] := by
  decide +kernel

/-! ## MAC addresses -/

/-- `mac_addr_from_str`, `core/src/macaddr.rs:226-270`. -/
example :
    MacAddr.parse "00:00:00:00:00:00".toList = .ok MacAddr.zero ∧
    MacAddr.parse "ff:ff:ff:ff:ff:ff".toList = .ok ⟨255, 255, 255, 255, 255, 255⟩ ∧
    MacAddr.broadcast = some ⟨255, 255, 255, 255, 255, 255⟩ ∧
    MacAddr.parse "12:34:56:78:90:ab".toList = .ok ⟨0x12, 0x34, 0x56, 0x78, 0x90, 0xAB⟩ ∧
    MacAddr.parse "::::::".toList = .error .invalidComponent ∧
    MacAddr.parse "0::::::".toList = .error .invalidComponent ∧
    MacAddr.parse "::::0::".toList = .error .invalidComponent ∧
    MacAddr.parse "12:34:56:78".toList = .error .tooFewComponents ∧
    MacAddr.parse "12:34:56:78:".toList = .error .invalidComponent ∧
    MacAddr.parse "12:34:56:78:90".toList = .error .tooFewComponents ∧
    MacAddr.parse "12:34:56:78:90:".toList = .error .invalidComponent ∧
    MacAddr.parse "12:34:56:78:90:00:00".toList = .error .tooManyComponents ∧
    MacAddr.parse "xx:xx:xx:xx:xx:xx".toList = .error .invalidComponent := by
  and_intros <;> decide +kernel

/-- `str_from_mac_addr`, `core/src/macaddr.rs:272-280`. -/
example : MacAddr.zero.display = "00:00:00:00:00:00".toList ∧
    (MacAddr.mk 255 255 255 255 255 255).display = "ff:ff:ff:ff:ff:ff".toList ∧
    (MacAddr.mk 0x12 0x34 0x56 0x78 0x09 0xAB).display = "12:34:56:78:09:ab".toList := by
  decide +kernel

/-- `type_of_addr` and `convertion`, `core/src/macaddr.rs:282-304`. -/
example : MacAddr.zero.isZero ∧ (MacAddr.mk 255 255 255 255 255 255).isBroadcast ∧
    (MacAddr.mk 0x12 0x34 0x56 0x78 0x90 0xAB).isLocal ∧
    (MacAddr.mk 0x12 0x34 0x56 0x78 0x90 0xAB).isUnicast ∧
    (MacAddr.mk 0xac 0x87 0xa3 0x07 0x32 0xb8).isUniversal ∧
    (MacAddr.mk 0xac 0x87 0xa3 0x07 0x32 0xb8).isUnicast ∧
    MacAddr.ofBytes [0x12, 0x34, 0x56, 0x78, 0x90, 0xAB] =
      some (MacAddr.mk 0x12 0x34 0x56 0x78 0x90 0xAB) ∧
    (MacAddr.mk 0x12 0x34 0x56 0x78 0x90 0xAB).toBytes = [0x12, 0x34, 0x56, 0x78, 0x90, 0xAB] ∧
    (MacAddr.mk 0x12 0x34 0x56 0x78 0x90 0xAB).eqBytes [0x12, 0x34, 0x56, 0x78, 0x90, 0xAB] := by
  decide +kernel

/-- `serde::string` and `serde::bytes`, `core/src/macaddr.rs:315-352`. -/
example : let mac := MacAddr.new 0x11 0x22 0x33 0x44 0x55 0x66
    let s := SerdeValue.str "11:22:33:44:55:66".toList
    let b := SerdeValue.bytes [0x11, 0x22, 0x33, 0x44, 0x55, 0x66]
    mac.serialize true = s ∧ mac.serialize false = b ∧
    (∀ h ∈ [true, false], MacAddr.deserialize ⟨h, s, s⟩ = .ok mac ∧ MacAddr.deserialize ⟨h, b, b⟩ = .ok mac) ∧
    MacAddr.deserialize ⟨true, .str "not an address".toList, .other⟩ = .error (.custom .invalidComponent) ∧
    MacAddr.deserialize ⟨false, .other, .bytes [0x11, 0x33]⟩ = .error (.invalidLength 2) ∧
    MacAddr.deserialize ⟨false, .other, .bytes [0x11, 0x22, 0x33, 0x44, 0x55, 0x66, 0x77]⟩ =
      .error (.invalidLength 7) := by
  decide +kernel

end Verif.Tests
