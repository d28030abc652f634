import Verif.Model.Protocols

/-!
# Checksums and `Octets`

Model of `src/util.rs:16-178` and of the `checksum` functions of the protocol modules.
-/

namespace Verif

/-- Number of values of `u32`. -/
abbrev u32Card : Nat := 2 ^ 32

/-- `a + b` on `u32`: panics in debug builds, wraps in release builds (Rust primitive). -/
def u32add (m : Mode) (a b : Nat) : Res Nat :=
  if a + b < u32Card then .ok (a + b)
  else match m with
    | .debug => panic
    | .release => .ok ((a + b) % u32Card)

/-- `u16::from_be_bytes([a, b])` (Rust primitive, used in `src/util.rs:168`). -/
def u16FromBe (a b : UInt8) : Nat := a.toNat <<< 8 ||| b.toNat

/-- The loop of `sum_be_words`, `src/util.rs:163-171`: returns the final `i` and `sum`. `i` cannot
overflow, it is at most half the slice length. -/
def sumLoop (m : Mode) (skipword : Nat) : (curData : Buf) → (i sum : Nat) → Res (Nat × Nat)
  | a :: b :: rest, i, sum => do
    let sum ← if i ≠ skipword then u32add m sum (u16FromBe a b) else pure sum
    sumLoop m skipword rest (i + 1) sum
  | _, i, sum => .ok (i, sum)

/-- `sum_be_words`, `src/util.rs:155-178`. -/
def sumBeWords (m : Mode) (data : Buf) (skipword : Nat) : Res Nat :=
  if data.length = 0 then .ok 0
  else do
    let (i, sum) ← sumLoop m skipword data 0 0
    if i ≠ skipword ∧ data.length &&& 1 ≠ 0 then do
      let last ← index data (data.length - 1)
      u32add m sum (last.toNat <<< 8)
    else .ok sum

/-- The loop of `finalize_checksum`, `src/util.rs:82-84`. `fuel` bounds the number of rounds; the
loop not being over by then is the outcome `hang`. -/
def foldCarry (m : Mode) : (fuel sum : Nat) → Res Nat
  | fuel, sum =>
    if sum >>> 16 ≠ 0 then
      match fuel with
      | 0 => .error .hang
      | fuel + 1 => do foldCarry m fuel (← u32add m (sum >>> 16) (sum &&& 0xFFFF))
    else .ok sum

/-- `!sum as u16` on a `u32` (`src/util.rs:85`). -/
def notAsU16 (sum : Nat) : Nat := (u32Card - 1 - sum) % 2 ^ 16

/-- `finalize_checksum`, `src/util.rs:81-86`. (Rounds are cut at 64; two are enough, see C25.) -/
def finalizeChecksum (m : Mode) (sum : Nat) : Res Nat := do
  .ok (notAsU16 (← foldCarry m 64 sum))

/-- `checksum`, `src/util.rs:73-79`. -/
def checksum (m : Mode) (data : Buf) (skipword : Nat) : Res Nat :=
  if data.length = 0 then .ok 0
  else do finalizeChecksum m (← sumBeWords m data skipword)

/-- `Ipv4Addr`/`Ipv6Addr` (std): an address is its octets. -/
structure Ipv4Addr where
  octets : Vector UInt8 4
  deriving DecidableEq

/-- `Ipv6Addr` (std). -/
structure Ipv6Addr where
  octets : Vector UInt8 16
  deriving DecidableEq

/-- `Ipv6Addr::segments` (std): the eight big-endian 16-bit groups. -/
def Ipv6Addr.segments (ip : Ipv6Addr) : List Nat :=
  [u16FromBe ip.octets[0] ip.octets[1], u16FromBe ip.octets[2] ip.octets[3],
   u16FromBe ip.octets[4] ip.octets[5], u16FromBe ip.octets[6] ip.octets[7],
   u16FromBe ip.octets[8] ip.octets[9], u16FromBe ip.octets[10] ip.octets[11],
   u16FromBe ip.octets[12] ip.octets[13], u16FromBe ip.octets[14] ip.octets[15]]

/-- `ipv4_word_sum`, `src/util.rs:116-119`. -/
def ipv4WordSum (m : Mode) (ip : Ipv4Addr) : Res Nat :=
  u32add m (ip.octets[0].toNat <<< 8 ||| ip.octets[1].toNat)
    (ip.octets[2].toNat <<< 8 ||| ip.octets[3].toNat)

/-- `ipv6_word_sum`, `src/util.rs:149-151` (`Iterator::sum` adds from the left, starting at 0). -/
def ipv6WordSum (m : Mode) (ip : Ipv6Addr) : Res Nat :=
  ip.segments.foldlM (u32add m) 0

/-- The common body of `ipv4_checksum` and `ipv6_checksum` (`src/util.rs:97-113`, `130-146`), which
differ only in the word sum of the addresses. -/
def addrChecksum (m : Mode) (data : Buf) (skipword : Nat) (extra : Buf) (sourceSum destSum : Res Nat)
    (protocol : UInt8) : Res Nat := do
  let sum ← u32add m 0 (← sourceSum)
  let sum ← u32add m sum (← destSum)
  let sum ← u32add m sum protocol.toNat
  let len ← uadd m data.length extra.length
  let sum ← u32add m sum (len % u32Card)
  let sum ← u32add m sum (← sumBeWords m data skipword)
  let sum ← u32add m sum (← sumBeWords m extra (extra.length / 2))
  finalizeChecksum m sum

/-- `util::ipv4_checksum`, `src/util.rs:89-114`. -/
def ipv4Checksum (m : Mode) (data : Buf) (skipword : Nat) (extra : Buf) (source destination : Ipv4Addr)
    (protocol : UInt8) : Res Nat :=
  addrChecksum m data skipword extra (ipv4WordSum m source) (ipv4WordSum m destination) protocol

/-- `util::ipv6_checksum`, `src/util.rs:122-147`. -/
def ipv6Checksum (m : Mode) (data : Buf) (skipword : Nat) (extra : Buf) (source destination : Ipv6Addr)
    (protocol : UInt8) : Res Nat :=
  addrChecksum m data skipword extra (ipv6WordSum m source) (ipv6WordSum m destination) protocol

/-- `IpNextHeaderProtocols::Tcp`, `::Udp`, `::Icmpv6` (`src/ip.rs`, values 6, 17, 58). -/
def protoTcp : UInt8 := 6
/-- see `protoTcp` -/
def protoUdp : UInt8 := 17
/-- see `protoTcp` -/
def protoIcmpv6 : UInt8 := 58

/-- `tcp::ipv4_checksum_adv`, `src/tcp.rs:248-262`. -/
def tcpIpv4ChecksumAdv (m : Mode) (packet extra : Buf) (source destination : Ipv4Addr) : Res Nat :=
  ipv4Checksum m packet 8 extra source destination protoTcp

/-- `tcp::ipv4_checksum`, `src/tcp.rs:237-239`. -/
def tcpIpv4Checksum (m : Mode) (packet : Buf) (source destination : Ipv4Addr) : Res Nat :=
  tcpIpv4ChecksumAdv m packet [] source destination

/-- `tcp::ipv6_checksum_adv`, `src/tcp.rs:276-290`. -/
def tcpIpv6ChecksumAdv (m : Mode) (packet extra : Buf) (source destination : Ipv6Addr) : Res Nat :=
  ipv6Checksum m packet 8 extra source destination protoTcp

/-- `tcp::ipv6_checksum`, `src/tcp.rs:265-267`. -/
def tcpIpv6Checksum (m : Mode) (packet : Buf) (source destination : Ipv6Addr) : Res Nat :=
  tcpIpv6ChecksumAdv m packet [] source destination

/-- `udp::ipv4_checksum_adv`, `src/udp.rs:38-52`. -/
def udpIpv4ChecksumAdv (m : Mode) (packet extra : Buf) (source destination : Ipv4Addr) : Res Nat :=
  ipv4Checksum m packet 3 extra source destination protoUdp

/-- `udp::ipv4_checksum`, `src/udp.rs:27-29`. -/
def udpIpv4Checksum (m : Mode) (packet : Buf) (source destination : Ipv4Addr) : Res Nat :=
  udpIpv4ChecksumAdv m packet [] source destination

/-- `udp::ipv6_checksum_adv`, `src/udp.rs:112-126`. -/
def udpIpv6ChecksumAdv (m : Mode) (packet extra : Buf) (source destination : Ipv6Addr) : Res Nat :=
  ipv6Checksum m packet 3 extra source destination protoUdp

/-- `udp::ipv6_checksum`, `src/udp.rs:101-103`. -/
def udpIpv6Checksum (m : Mode) (packet : Buf) (source destination : Ipv6Addr) : Res Nat :=
  udpIpv6ChecksumAdv m packet [] source destination

/-- `icmp::checksum`, `src/icmp.rs:65-67`. -/
def icmpChecksum (m : Mode) (packet : Buf) : Res Nat := checksum m packet 1

/-- `icmpv6::checksum`, `src/icmpv6.rs:75-84`. -/
def icmpv6Checksum (m : Mode) (packet : Buf) (source destination : Ipv6Addr) : Res Nat :=
  ipv6Checksum m packet 1 [] source destination protoIcmpv6

/-- `ipv4::checksum`, `src/ipv4.rs:159-169`. -/
def ipv4HeaderChecksum (m : Mode) (packet : Buf) : Res Nat := do
  let min := ipv4.minSize
  let max := packet.length
  let hl ← (← ipv4.get m packet 1).asNum
  let length := hl * 4
  let headerLength := if length < min then min else if length > max then max else length
  let data ← slice packet 0 headerLength
  checksum m data 5

/-- `Octets for u64`, `src/util.rs:25-40`. -/
def octets64 (x : Nat) : Buf :=
  [UInt8.ofNat (x >>> 56), UInt8.ofNat (x >>> 48), UInt8.ofNat (x >>> 40), UInt8.ofNat (x >>> 32),
   UInt8.ofNat (x >>> 24), UInt8.ofNat (x >>> 16), UInt8.ofNat (x >>> 8), UInt8.ofNat x]

/-- `Octets for u32`, `src/util.rs:42-53`. -/
def octets32 (x : Nat) : Buf :=
  [UInt8.ofNat (x >>> 24), UInt8.ofNat (x >>> 16), UInt8.ofNat (x >>> 8), UInt8.ofNat x]

/-- `Octets for u16`, `src/util.rs:55-61`. -/
def octets16 (x : Nat) : Buf := [UInt8.ofNat (x >>> 8), UInt8.ofNat x]

/-- `Octets for u8`, `src/util.rs:63-69`. -/
def octets8 (x : Nat) : Buf := [UInt8.ofNat x]

end Verif
