import Verif.Proofs.ChecksumFields

/-!
# Checksums (C22 - C29, C41, C58)
-/

namespace Verif.Props
open Spec

/-! ## C22 -/

/-- **C22**. `util::checksum(data, k)` is the same for any two slices that differ only in bytes
`2k` and `2k + 1` (also when it panics). -/
theorem C22_ignores_skip_word (m : Mode) (data data' : Buf) (k : Nat) (hl : data.length = data'.length)
    (h : ∀ i, i ≠ 2 * k → i ≠ 2 * k + 1 → data[i]? = data'[i]?) :
    checksum m data k = checksum m data' k := by
  unfold checksum
  rw [sumBeWords_eq, sumBeWords_eq, rawSum_eq, rawSum_eq, zeroWord_congr hl h, hl]

example : checksum .debug [8, 0, 0xAB, 0xCD, 1, 2] 1 = checksum .debug [8, 0, 0, 0, 1, 2] 1 :=
  C22_ignores_skip_word .debug _ _ 1 rfl (fun i h1 h2 => match i, h1, h2 with
    | 0, _, _ => rfl | 1, _, _ => rfl | 4, _, _ => rfl | 5, _, _ => rfl
    | 2, h, _ => absurd rfl h | 3, _, h => absurd rfl h | _ + 6, _, _ => rfl)

/-- **C22** for the functions with a pseudo header. -/
theorem C22_ignores_skip_word_pseudo (m : Mode) (data data' extra : Buf) (k : Nat)
    (hl : data.length = data'.length) (h : ∀ i, i ≠ 2 * k → i ≠ 2 * k + 1 → data[i]? = data'[i]?)
    (p : UInt8) :
    (∀ s d, ipv4Checksum m data k extra s d p = ipv4Checksum m data' k extra s d p) ∧
    (∀ s d, ipv6Checksum m data k extra s d p = ipv6Checksum m data' k extra s d p) := by
  constructor <;> intro s d
  · unfold ipv4Checksum addrChecksum
    rw [sumBeWords_eq m data, sumBeWords_eq m data', rawSum_eq k, rawSum_eq k, zeroWord_congr hl h, hl]
  · unfold ipv6Checksum addrChecksum
    rw [sumBeWords_eq m data, sumBeWords_eq m data', rawSum_eq k, rawSum_eq k, zeroWord_congr hl h, hl]

/-- Two UDP packets that differ in the checksum only. -/
example :=
  have h : ∀ i, i ≠ 2 * 3 → i ≠ 2 * 3 + 1 → ([0, 1, 0, 2, 0, 8, 0xAB, 0xCD] : Buf)[i]? =
      ([0, 1, 0, 2, 0, 8, 0, 0] : Buf)[i]?
    | 0, _, _ => rfl | 1, _, _ => rfl | 2, _, _ => rfl | 3, _, _ => rfl | 4, _, _ => rfl | 5, _, _ => rfl
    | 6, h, _ => absurd rfl h | 7, _, h => absurd rfl h | _ + 8, _, _ => rfl
  C22_ignores_skip_word_pseudo .debug [0, 1, 0, 2, 0, 8, 0xAB, 0xCD] [0, 1, 0, 2, 0, 8, 0, 0] [9] 3 rfl h 17

/-- **C22** for packets: setting the checksum field of an ICMP, UDP, TCP or ICMPv6 packet does not
change the checksum computed for it. -/
theorem C22_packets (m : Mode) (buf : Buf) (c : Nat) (hsl : SliceLen buf.length) :
    (8 * buf.length ≥ fixedBits icmp.fields → ∃ new, icmp.set m buf 2 (.num c) = .ok new ∧
      icmpChecksum m new = icmpChecksum m buf) ∧
    (8 * buf.length ≥ fixedBits udp.fields → ∃ new, udp.set m buf 3 (.num c) = .ok new ∧
      (∀ s d, udpIpv4Checksum m new s d = udpIpv4Checksum m buf s d) ∧
      (∀ s d, udpIpv6Checksum m new s d = udpIpv6Checksum m buf s d)) ∧
    (8 * buf.length ≥ fixedBits tcp.fields → ∃ new, tcp.set m buf 8 (.num c) = .ok new ∧
      (∀ s d, tcpIpv4Checksum m new s d = tcpIpv4Checksum m buf s d) ∧
      (∀ s d, tcpIpv6Checksum m new s d = tcpIpv6Checksum m buf s d)) ∧
    (8 * buf.length ≥ fixedBits icmpv6.fields → ∃ new, icmpv6.set m buf 2 (.num c) = .ok new ∧
      (∀ s d, icmpv6Checksum m new s d = icmpv6Checksum m buf s d)) := by
  have hstore : ∀ k, (storeWord k c buf).length = buf.length ∧
      ∀ i, i ≠ 2 * k → i ≠ 2 * k + 1 → (storeWord k c buf)[i]? = buf[i]? := by
    intro k
    constructor
    · simp [storeWord, putWord]
    · intro i h1 h2
      unfold storeWord putWord
      rw [List.getElem?_set_ne (Ne.symm h2), List.getElem?_set_ne (Ne.symm h1)]
  refine ⟨fun h => ?_, fun h => ?_, fun h => ?_, fun h => ?_⟩
  · have := (set_word (d := icmp) (by decide) (k := 2) (j := 1) rfl rfl (by decide) (by decide) m buf hsl
      ((C06_new_iff icmp buf).1.mpr h) c).2
    exact ⟨_, this, C22_ignores_skip_word m _ _ 1 (hstore 1).1 (hstore 1).2⟩
  · have := (set_word (d := udp) (by decide) (k := 3) (j := 3) rfl rfl (by decide) (by decide) m buf hsl
      ((C06_new_iff udp buf).1.mpr h) c).2
    exact ⟨_, this, (C22_ignores_skip_word_pseudo m _ _ [] 3 (hstore 3).1 (hstore 3).2 protoUdp)⟩
  · have := (set_word (d := tcp) (by decide) (k := 8) (j := 8) rfl rfl (by decide) (by decide) m buf hsl
      ((C06_new_iff tcp buf).1.mpr h) c).2
    exact ⟨_, this, (C22_ignores_skip_word_pseudo m _ _ [] 8 (hstore 8).1 (hstore 8).2 protoTcp)⟩
  · have := (set_word (d := icmpv6) (by decide) (k := 2) (j := 1) rfl rfl (by decide) (by decide) m buf hsl
      ((C06_new_iff icmpv6 buf).1.mpr h) c).2
    exact ⟨_, this, (C22_ignores_skip_word_pseudo m _ _ [] 1 (hstore 1).1 (hstore 1).2 protoIcmpv6).2⟩

example : checksum .debug [8, 0, 0xAB, 0xCD, 1, 2] 1 = checksum .debug [8, 0, 0, 0, 1, 2] 1 ∧
    checksum .debug [8, 0, 0, 0, 1, 2] 1 = .ok (65535 - 0x902) := by decide

/-! ## C23 -/

/-- **C23**. For non-empty data of at most 131074 bytes, `util::checksum(data, k)` returns the RFC
1071 checksum of the data with word `k` taken as zero, in both build modes and for every `k`. -/
theorem C23_rfc1071 (m : Mode) (data : Buf) (k : Nat) (hne : data ≠ []) (hlen : data.length ≤ 131074) :
    checksum m data k = .ok (internetChecksum (words16 (zeroWord k data))) := by
  have h0 : data.length ≠ 0 := fun h => hne (List.length_eq_zero_iff.mp h)
  have hle := rawSum_le k data
  have hb : rawSum k 0 data < u32Card := by unfold u32Card; omega
  unfold checksum internetChecksum
  rw [if_neg h0, sumBeWords_eq, u32res_ok hb, ok_bind, finalizeChecksum_eq hb, rawSum_eq,
    ocSum_eq _ (words16_lt _)]

/-- The example of RFC 1071, section 3: sum 0xddf2. -/
example : checksum .debug [0x00, 0x01, 0xf2, 0x03, 0xf4, 0xf5, 0xf6, 0xf7] 9 = .ok (65535 - 0xddf2) ∧
    ocSum (words16 [0x00, 0x01, 0xf2, 0x03, 0xf4, 0xf5, 0xf6, 0xf7]) = 0xddf2 := by decide

/-- **C23**, empty data (outside the claim): the code returns 0 where RFC 1071 gives 0xFFFF. -/
theorem C23_empty (m : Mode) (k : Nat) : checksum m [] k = .ok 0 ∧ internetChecksum (words16 []) = 65535 :=
  ⟨rfl, rfl⟩

/-! ## C25 -/

/-- **C25**. Folding any `u32` sum is over after at most two rounds (`fuel` counts rounds), with the
representative of the sum modulo 65535 in `1 ..= 65535` (zero for zero), whose complement is
returned. -/
theorem C25_folding (m : Mode) (sum : Nat) (h : sum < 2 ^ 32) :
    ∃ r, foldCarry m 2 sum = .ok r ∧ (∀ fuel, 2 ≤ fuel → foldCarry m fuel sum = .ok r) ∧
      r ≤ 65535 ∧ (r = 0 ↔ sum = 0) ∧ r % 65535 = sum % 65535 ∧
      finalizeChecksum m sum = .ok (65535 - r) :=
  ⟨ocNorm sum, foldCarry_eq (by decide) h, fun _ hf => foldCarry_eq hf h, ocNorm_le _, ocNorm_zero,
    ocNorm_mod _, finalizeChecksum_eq h⟩

/-- Two rounds are needed. -/
example : foldCarry .debug 1 0x1FFFF = .error .hang ∧ foldCarry .debug 2 0x1FFFF = .ok 1 := by decide

/-! ## C26, C27 -/

/-- **C26**. The UDP, TCP and ICMPv6 checksums are the Internet checksum of the pseudo header
followed by the packet with its checksum word (word 3, 8, 1) taken as zero; protocol numbers 17, 6
and 58. -/
theorem C26_pseudo_header (m : Mode) (packet : Buf) (hlen : packet.length ≤ 65535) :
    (∀ s d, udpIpv4Checksum m packet s d = .ok (internetChecksum (words16
      (pseudo4 s.octets.toList d.octets.toList 17 packet.length ++ zeroWord 3 packet)))) ∧
    (∀ s d, udpIpv6Checksum m packet s d = .ok (internetChecksum (words16
      (pseudo6 s.octets.toList d.octets.toList 17 packet.length ++ zeroWord 3 packet)))) ∧
    (∀ s d, tcpIpv4Checksum m packet s d = .ok (internetChecksum (words16
      (pseudo4 s.octets.toList d.octets.toList 6 packet.length ++ zeroWord 8 packet)))) ∧
    (∀ s d, tcpIpv6Checksum m packet s d = .ok (internetChecksum (words16
      (pseudo6 s.octets.toList d.octets.toList 6 packet.length ++ zeroWord 8 packet)))) ∧
    (∀ s d, icmpv6Checksum m packet s d = .ok (internetChecksum (words16
      (pseudo6 s.octets.toList d.octets.toList 58 packet.length ++ zeroWord 1 packet)))) := by
  have g4 : ∀ k s d p, ipv4Checksum m packet k [] s d p = .ok (internetChecksum (words16
      (pseudo4 s.octets.toList d.octets.toList p packet.length ++ zeroWord k packet))) := by
    intro k s d p
    rw [ipv4Checksum_general m packet [] k s d p (by simpa using hlen),
      words16_append _ _ (pseudo4_even ..)]
    simp [words16]
  have g6 : ∀ k s d p, ipv6Checksum m packet k [] s d p = .ok (internetChecksum (words16
      (pseudo6 s.octets.toList d.octets.toList p packet.length ++ zeroWord k packet))) := by
    intro k s d p
    rw [ipv6Checksum_general m packet [] k s d p (by simp; omega), words16_append _ _ (pseudo6_even ..)]
    simp [words16]
  exact ⟨fun s d => g4 3 s d 17, fun s d => g6 3 s d 17, fun s d => g4 8 s d 6, fun s d => g6 8 s d 6,
    fun s d => g6 1 s d 58⟩

/-- The packet of the repository's UDP test (`src/udp.rs:55-98`). -/
example : udpIpv4Checksum .debug [0x30, 0x39, 0xd4, 0x31, 0x00, 0x0c, 0, 0, 116, 101, 115, 116]
    ⟨#v[192, 168, 0, 1]⟩ ⟨#v[192, 168, 0, 199]⟩ = .ok 0x9178 := by decide

/-- Full statement of **C27**: `ipv4_checksum_adv`/`ipv6_checksum_adv` of an even-length packet and
extra data is the checksum of the packet followed by the extra data. -/
def C27_statement : Prop :=
  ∀ (m : Mode) (packet extra : Buf), packet.length % 2 = 0 → packet.length + extra.length ≤ 65535 →
    ((udp.newPacket packet).isSome = true →
      (∀ s d, udpIpv4ChecksumAdv m packet extra s d = udpIpv4Checksum m (packet ++ extra) s d) ∧
      (∀ s d, udpIpv6ChecksumAdv m packet extra s d = udpIpv6Checksum m (packet ++ extra) s d)) ∧
    ((tcp.newPacket packet).isSome = true →
      (∀ s d, tcpIpv4ChecksumAdv m packet extra s d = tcpIpv4Checksum m (packet ++ extra) s d) ∧
      (∀ s d, tcpIpv6ChecksumAdv m packet extra s d = tcpIpv6Checksum m (packet ++ extra) s d))

/-- C27 is false: the last byte of odd-length extra data is left out. -/
theorem C27_false : ¬ C27_statement := by
  intro h
  have := ((h .debug (List.replicate 8 0) [1] (by decide) (by decide)).1 (by decide)).1
    ⟨#v[0, 0, 0, 0]⟩ ⟨#v[0, 0, 0, 0]⟩
  revert this
  decide

/-- **C27**, what the code does: the last byte of odd-length extra data counts as zero; for
even-length extra data this is the full claim (`C27_extra_even_partial`). -/
theorem C27_extra_exact (m : Mode) (packet extra : Buf) (heven : packet.length % 2 = 0)
    (hlen : packet.length + extra.length ≤ 65535) :
    (∀ s d, udpIpv4ChecksumAdv m packet extra s d = .ok (internetChecksum (words16
      (pseudo4 s.octets.toList d.octets.toList 17 (packet.length + extra.length) ++ zeroWord 3 packet ++
        extra.take (extra.length / 2 * 2))))) ∧
    (∀ s d, udpIpv6ChecksumAdv m packet extra s d = .ok (internetChecksum (words16
      (pseudo6 s.octets.toList d.octets.toList 17 (packet.length + extra.length) ++ zeroWord 3 packet ++
        extra.take (extra.length / 2 * 2))))) ∧
    (∀ s d, tcpIpv4ChecksumAdv m packet extra s d = .ok (internetChecksum (words16
      (pseudo4 s.octets.toList d.octets.toList 6 (packet.length + extra.length) ++ zeroWord 8 packet ++
        extra.take (extra.length / 2 * 2))))) ∧
    (∀ s d, tcpIpv6ChecksumAdv m packet extra s d = .ok (internetChecksum (words16
      (pseudo6 s.octets.toList d.octets.toList 6 (packet.length + extra.length) ++ zeroWord 8 packet ++
        extra.take (extra.length / 2 * 2))))) := by
  have g4 : ∀ k s d p, ipv4Checksum m packet k extra s d p = .ok (internetChecksum (words16
      (pseudo4 s.octets.toList d.octets.toList p (packet.length + extra.length) ++ zeroWord k packet ++
        extra.take (extra.length / 2 * 2)))) := by
    intro k s d p
    have he := pseudo4_even s d p (packet.length + extra.length)
    rw [ipv4Checksum_general m packet extra k s d p hlen, words16_append (_ ++ _),
      words16_append _ (zeroWord k packet) he]
    rw [List.length_append, zeroWord_length]; omega
  have g6 : ∀ k s d p, ipv6Checksum m packet k extra s d p = .ok (internetChecksum (words16
      (pseudo6 s.octets.toList d.octets.toList p (packet.length + extra.length) ++ zeroWord k packet ++
        extra.take (extra.length / 2 * 2)))) := by
    intro k s d p
    have he := pseudo6_even s d p (packet.length + extra.length)
    rw [ipv6Checksum_general m packet extra k s d p (by omega), words16_append (_ ++ _),
      words16_append _ (zeroWord k packet) he]
    rw [List.length_append, zeroWord_length]; omega
  exact ⟨fun s d => g4 3 s d 17, fun s d => g6 3 s d 17, fun s d => g4 8 s d 6, fun s d => g6 8 s d 6⟩

/-- Three bytes of extra data: the last one does not count. -/
example : udpIpv4ChecksumAdv .debug [0x30, 0x39, 0xd4, 0x31, 0x00, 0x0b, 0, 0] [116, 101, 115]
    ⟨#v[192, 168, 0, 1]⟩ ⟨#v[192, 168, 0, 199]⟩ = .ok (internetChecksum (words16
      (pseudo4 [192, 168, 0, 1] [192, 168, 0, 199] 17 11 ++ [0x30, 0x39, 0xd4, 0x31, 0x00, 0x0b, 0, 0] ++
        [116, 101]))) := (C27_extra_exact .debug _ _ rfl (by decide)).1 _ _

/-- **C27** for extra data of even length. Missing: extra data of odd length (`C27_false`). -/
theorem C27_extra_even_partial (m : Mode) (packet extra : Buf) (heven : packet.length % 2 = 0)
    (hextra : extra.length % 2 = 0) (hlen : packet.length + extra.length ≤ 65535) :
    ((udp.newPacket packet).isSome = true →
      (∀ s d, udpIpv4ChecksumAdv m packet extra s d = udpIpv4Checksum m (packet ++ extra) s d) ∧
      (∀ s d, udpIpv6ChecksumAdv m packet extra s d = udpIpv6Checksum m (packet ++ extra) s d)) ∧
    ((tcp.newPacket packet).isSome = true →
      (∀ s d, tcpIpv4ChecksumAdv m packet extra s d = tcpIpv4Checksum m (packet ++ extra) s d) ∧
      (∀ s d, tcpIpv6ChecksumAdv m packet extra s d = tcpIpv6Checksum m (packet ++ extra) s d)) := by
  obtain ⟨a1, a2, a3, a4⟩ := C27_extra_exact m packet extra heven hlen
  obtain ⟨b1, b2, b3, b4, -⟩ := C26_pseudo_header m (packet ++ extra) (by rw [List.length_append]; exact hlen)
  have ht : extra.take (extra.length / 2 * 2) = extra := List.take_of_length_le (by omega)
  rw [ht] at a1 a2 a3 a4
  rw [List.length_append] at b1 b2 b3 b4
  refine ⟨fun h => ?_, fun h => ?_⟩
  · have h8 := (C06_new_iff udp packet).1.mp h
    have hz : zeroWord 3 (packet ++ extra) = zeroWord 3 packet ++ extra :=
      zeroWord_append (by rw [show fixedBits udp.fields = 64 by decide] at h8; omega)
    rw [hz] at b1 b2
    simp only [← List.append_assoc] at b1 b2
    exact ⟨fun s d => by rw [a1, b1], fun s d => by rw [a2, b2]⟩
  · have h8 := (C06_new_iff tcp packet).1.mp h
    have hz : zeroWord 8 (packet ++ extra) = zeroWord 8 packet ++ extra :=
      zeroWord_append (by rw [show fixedBits tcp.fields = 160 by decide] at h8; omega)
    rw [hz] at b3 b4
    simp only [← List.append_assoc] at b3 b4
    exact ⟨fun s d => by rw [a3, b3], fun s d => by rw [a4, b4]⟩

example : udpIpv4ChecksumAdv .debug [0x30, 0x39, 0xd4, 0x31, 0x00, 0x0c, 0, 0] [116, 101, 115, 116]
    ⟨#v[192, 168, 0, 1]⟩ ⟨#v[192, 168, 0, 199]⟩ = .ok 0x9178 := by decide

/-! ## C28 -/

/-- Full statement of **C28**: `util::checksum` returns on every slice, also in builds with overflow
checks. -/
def C28_statement : Prop := ∀ (m : Mode) (data : Buf) (k : Nat), SliceLen data.length →
  ∃ c, checksum m data k = .ok c

/-- **C28**, exactly when it panics: in builds with overflow checks, when the sum of the words that
count reaches 2^32. -/
theorem C28_exact (data : Buf) (k : Nat) :
    (∃ c, checksum .release data k = .ok c) ∧
    ((∃ c, checksum .debug data k = .ok c) ↔ (words16 (zeroWord k data)).sum < 2 ^ 32) := by
  unfold checksum
  rw [sumBeWords_eq, sumBeWords_eq, rawSum_eq]
  generalize hS : (words16 (zeroWord k data)).sum = S
  by_cases h0 : data.length = 0
  · rw [if_pos h0, if_pos h0]
    have : S = 0 := by
      rw [List.length_eq_zero_iff] at h0
      subst h0
      rw [← hS]; simp [zeroWord, putWord, words16]
    exact ⟨⟨_, rfl⟩, ⟨fun _ => by omega, fun _ => ⟨_, rfl⟩⟩⟩
  · rw [if_neg h0, if_neg h0]
    by_cases h : S < u32Card
    · rw [u32res_ok h, u32res_ok h, ok_bind, ok_bind, finalizeChecksum_eq h, finalizeChecksum_eq h]
      exact ⟨⟨_, rfl⟩, ⟨fun _ => h, fun _ => ⟨_, rfl⟩⟩⟩
    · unfold u32res
      rw [if_neg h, if_neg h]
      constructor
      · rw [ok_bind, finalizeChecksum_eq (Nat.mod_lt _ (by decide))]
        exact ⟨_, rfl⟩
      · rw [panic_bind]
        constructor
        · rintro ⟨c, hc⟩; simp at hc
        · intro h'; exact absurd h' h

example : ∃ c, checksum .debug [0xFF, 0xFF, 0xFF, 0xFF] 7 = .ok c :=
  (C28_exact [0xFF, 0xFF, 0xFF, 0xFF] 7).2.mpr (by decide)

/-- C28 is false: 131076 bytes 0xFF overflow the accumulator. -/
theorem C28_false : ¬ C28_statement := by
  intro h
  have h1 := (C28_exact (List.replicate (2 * 65538) 255) 65538).2.mp
    (h .debug _ _ (by rw [List.length_replicate]; decide))
  rw [zeroWord_past, words16_ones, sum_replicate_nat] at h1
  revert h1
  decide

/-- **C28** holds for slices of at most 131074 bytes. Missing: longer slices (`C28_false`,
`C28_exact`). -/
theorem C28_no_overflow_partial (m : Mode) (data : Buf) (k : Nat) (hlen : data.length ≤ 131074) :
    ∃ c, checksum m data k = .ok c := by
  by_cases h : data = []
  · exact ⟨0, by rw [h]; rfl⟩
  · exact ⟨_, C23_rfc1071 m data k h hlen⟩

example : ∃ c, checksum .debug (List.replicate 131074 255) 0 = .ok c :=
  C28_no_overflow_partial .debug _ 0 (by rw [List.length_replicate]; exact Nat.le_refl _)

/-- Beyond that bound a build without overflow checks returns a wrong value: the checksum of 131076
bytes 0xFF is 0, the code gives 1. -/
theorem C28_release_wrong : checksum .release (List.replicate (2 * 65538) 255) 65538 = .ok 1 ∧
    internetChecksum (words16 (List.replicate (2 * 65538) 255)) = 0 :=
  ⟨(checksum_ones .release 65538 (by decide)).trans (by decide),
    (internetChecksum_ones 65538).trans (by decide)⟩

/-! ## C29 -/

/-- **C29**. On every buffer of at least 20 bytes, `ipv4::checksum` returns the Internet checksum,
with word 5 taken as zero, of the first `max(20, 4 * header_length)` bytes, cut at the buffer's end.
`header_length` is the low nibble of the first byte. -/
theorem C29_ipv4_header_checksum (m : Mode) (packet : Buf) (h : 20 ≤ packet.length) :
    ipv4HeaderChecksum m packet = .ok (internetChecksum (words16 (zeroWord 5
      (packet.take (min packet.length (max 20 (4 * ((packet.getD 0 0).toNat % 16)))))))) := by
  unfold ipv4HeaderChecksum
  rw [ipv4_header_length h, ok_bind]
  generalize hq : (packet.getD 0 0).toNat % 16 = q
  have hq16 : q < 16 := by omega
  simp only [Val.asNum, ok_bind, show ipv4.minSize = 20 by decide]
  have he : (if q * 4 < 20 then 20 else if q * 4 > packet.length then packet.length else q * 4) =
      min packet.length (max 20 (4 * q)) := by
    split
    · omega
    · split <;> omega
  rw [he]
  generalize hn : min packet.length (max 20 (4 * q)) = n
  have hn1 : 20 ≤ n := by omega
  have hn2 : n ≤ packet.length := by omega
  have hn3 : n ≤ 60 := by omega
  have hs : slice packet 0 n = .ok (packet.take n) := by
    unfold slice; rw [if_pos ⟨by omega, hn2⟩, List.drop_zero]
  have hl : (packet.take n).length = n := by rw [List.length_take]; omega
  rw [hs, ok_bind]
  exact C23_rfc1071 m _ 5 (fun hnil => by rw [hnil] at hl; simp at hl; omega) (by omega)

example : ipv4HeaderChecksum .debug
    [0x45, 0, 0, 0x73, 0, 0, 0x40, 0, 0x40, 0x11, 0xb8, 0x61, 0xc0, 0xa8, 0, 1, 0xc0, 0xa8, 0, 0xc7]
    = .ok 0xb861 := by decide

/-! ## C24 -/

/-- **C24**. Storing the computed checksum with the packet's own setter makes the message verify:
the one's complement sum of all its words, pseudo header included, is 0xFFFF. -/
theorem C24_stored_checksum_verifies (m : Mode) (buf : Buf) (hlen : buf.length ≤ 65535) :
    (8 * buf.length ≥ fixedBits icmp.fields → ∃ c new, icmpChecksum m buf = .ok c ∧
      icmp.set m buf 2 (.num c) = .ok new ∧ ocSum (words16 new) = 0xFFFF) ∧
    (8 * buf.length ≥ fixedBits udp.fields → ∀ s d, ∃ c new, udpIpv4Checksum m buf s d = .ok c ∧
      udp.set m buf 3 (.num c) = .ok new ∧
      ocSum (words16 (pseudo4 s.octets.toList d.octets.toList 17 buf.length ++ new)) = 0xFFFF) ∧
    (8 * buf.length ≥ fixedBits udp.fields → ∀ s d, ∃ c new, udpIpv6Checksum m buf s d = .ok c ∧
      udp.set m buf 3 (.num c) = .ok new ∧
      ocSum (words16 (pseudo6 s.octets.toList d.octets.toList 17 buf.length ++ new)) = 0xFFFF) ∧
    (8 * buf.length ≥ fixedBits tcp.fields → ∀ s d, ∃ c new, tcpIpv4Checksum m buf s d = .ok c ∧
      tcp.set m buf 8 (.num c) = .ok new ∧
      ocSum (words16 (pseudo4 s.octets.toList d.octets.toList 6 buf.length ++ new)) = 0xFFFF) ∧
    (8 * buf.length ≥ fixedBits tcp.fields → ∀ s d, ∃ c new, tcpIpv6Checksum m buf s d = .ok c ∧
      tcp.set m buf 8 (.num c) = .ok new ∧
      ocSum (words16 (pseudo6 s.octets.toList d.octets.toList 6 buf.length ++ new)) = 0xFFFF) ∧
    (8 * buf.length ≥ fixedBits icmpv6.fields → ∀ s d, ∃ c new, icmpv6Checksum m buf s d = .ok c ∧
      icmpv6.set m buf 2 (.num c) = .ok new ∧
      ocSum (words16 (pseudo6 s.octets.toList d.octets.toList 58 buf.length ++ new)) = 0xFFFF) := by
  have hsl : SliceLen buf.length := by unfold SliceLen; omega
  obtain ⟨u4, u6, t4, t6, i6⟩ := C26_pseudo_header m buf hlen
  refine ⟨fun h => ?_, fun h s d => ?_, fun h s d => ?_, fun h s d => ?_, fun h s d => ?_, fun h s d => ?_⟩
  · have hs := set_word (d := icmp) (by decide) (k := 2) (j := 1) rfl rfl (by decide) (by decide) m buf hsl
      ((C06_new_iff icmp buf).1.mpr h)
    have hb := (hs 0).1
    refine ⟨_, _, C23_rfc1071 m buf 1 (fun hn => by rw [hn] at hb; simp at hb) (by omega), (hs _).2, ?_⟩
    exact verifies (pre := []) (by simp) hb (by simp)
  · have hs := set_word (d := udp) (by decide) (k := 3) (j := 3) rfl rfl (by decide) (by decide) m buf hsl
      ((C06_new_iff udp buf).1.mpr h)
    refine ⟨_, _, u4 s d, (hs _).2, ?_⟩
    rw [words16_append _ _ (pseudo4_even ..), words16_append _ _ (pseudo4_even ..)]
    exact verifies (words16_lt _) (hs 0).1 rfl
  · have hs := set_word (d := udp) (by decide) (k := 3) (j := 3) rfl rfl (by decide) (by decide) m buf hsl
      ((C06_new_iff udp buf).1.mpr h)
    refine ⟨_, _, u6 s d, (hs _).2, ?_⟩
    rw [words16_append _ _ (pseudo6_even ..), words16_append _ _ (pseudo6_even ..)]
    exact verifies (words16_lt _) (hs 0).1 rfl
  · have hs := set_word (d := tcp) (by decide) (k := 8) (j := 8) rfl rfl (by decide) (by decide) m buf hsl
      ((C06_new_iff tcp buf).1.mpr h)
    refine ⟨_, _, t4 s d, (hs _).2, ?_⟩
    rw [words16_append _ _ (pseudo4_even ..), words16_append _ _ (pseudo4_even ..)]
    exact verifies (words16_lt _) (hs 0).1 rfl
  · have hs := set_word (d := tcp) (by decide) (k := 8) (j := 8) rfl rfl (by decide) (by decide) m buf hsl
      ((C06_new_iff tcp buf).1.mpr h)
    refine ⟨_, _, t6 s d, (hs _).2, ?_⟩
    rw [words16_append _ _ (pseudo6_even ..), words16_append _ _ (pseudo6_even ..)]
    exact verifies (words16_lt _) (hs 0).1 rfl
  · have hs := set_word (d := icmpv6) (by decide) (k := 2) (j := 1) rfl rfl (by decide) (by decide) m buf hsl
      ((C06_new_iff icmpv6 buf).1.mpr h)
    refine ⟨_, _, i6 s d, (hs _).2, ?_⟩
    rw [words16_append _ _ (pseudo6_even ..), words16_append _ _ (pseudo6_even ..)]
    exact verifies (words16_lt _) (hs 0).1 rfl

/-- The hypotheses hold of an ICMP echo request. -/
example : ∃ c new, icmpChecksum .debug [8, 0, 0, 0, 1, 2] = .ok c ∧
    icmp.set .debug [8, 0, 0, 0, 1, 2] 2 (.num c) = .ok new ∧ ocSum (words16 new) = 0xFFFF :=
  (C24_stored_checksum_verifies .debug [8, 0, 0, 0, 1, 2] (by decide)).1 (by decide)

/-- **C24** for the IPv4 header. -/
theorem C24_ipv4_header_verifies (m : Mode) (packet : Buf) (h : 20 ≤ packet.length)
    (hsl : SliceLen packet.length) :
    ∃ c new, ipv4HeaderChecksum m packet = .ok c ∧ ipv4.set m packet 10 (.num c) = .ok new ∧
      ocSum (words16 (new.take (min packet.length (max 20 (4 * ((packet.getD 0 0).toNat % 16)))))) = 0xFFFF := by
  have hs := set_word (d := ipv4) (by decide) (k := 10) (j := 5) rfl rfl (by decide) (by decide) m packet hsl
    ((C06_new_iff ipv4 packet).1.mpr (by rw [show fixedBits ipv4.fields = 160 by decide]; omega))
  refine ⟨_, _, C29_ipv4_header_checksum m packet h, (hs _).2, ?_⟩
  generalize hn : min packet.length (max 20 (4 * ((packet.getD 0 0).toNat % 16))) = n
  rw [storeWord_take]
  exact verifies (pre := []) (by simp) (by rw [List.length_take]; omega) (by simp)

example : ∃ new, icmp.set .debug [8, 0, 0, 0, 1, 2] 2 (.num (65535 - 0x902)) = .ok new ∧
    ocSum (words16 new) = 0xFFFF := ⟨_, rfl, by decide⟩

/-! ## C41 -/

/-- **C41**. `octets()` has the size of the type and is big endian. -/
theorem C41_octets (x : Nat) :
    (x < 2 ^ 64 → (octets64 x).length = 8 ∧ beNat (octets64 x) = x) ∧
    (x < 2 ^ 32 → (octets32 x).length = 4 ∧ beNat (octets32 x) = x) ∧
    (x < 2 ^ 16 → (octets16 x).length = 2 ∧ beNat (octets16 x) = x) ∧
    (x < 2 ^ 8 → (octets8 x).length = 1 ∧ beNat (octets8 x) = x) := by
  refine ⟨fun h => ⟨rfl, ?_⟩, fun h => ⟨rfl, ?_⟩, fun h => ⟨rfl, ?_⟩, fun h => ⟨rfl, ?_⟩⟩ <;>
    simp only [beNat, octets64, octets32, octets16, octets8, List.foldl_cons, List.foldl_nil,
      UInt8.toNat_ofNat', Nat.shiftRight_eq_div_pow] <;> omega

example : octets32 0x01020304 = [1, 2, 3, 4] := by decide

/-! ## C58 -/

/-- Full statement of **C58**: the UDP checksum functions never return zero, which on the wire
means "no checksum" (RFC 768: a computed zero is sent as all ones; RFC 8200 discards it). -/
def C58_statement : Prop :=
  ∀ (m : Mode) (packet : Buf), (udp.newPacket packet).isSome = true → packet.length ≤ 65535 →
    (∀ s d, udpIpv4Checksum m packet s d ≠ .ok 0) ∧ (∀ s d, udpIpv6Checksum m packet s d ≠ .ok 0)

/-- C58 is false: source port 0xFFE6 makes the sum of this packet 0xFFFF. -/
theorem C58_false : ¬ C58_statement := by
  intro h
  have := (h .debug [0xFF, 0xE6, 0, 0, 0, 0, 0, 0] (by decide) (by decide)).2
    ⟨Vector.replicate 16 0⟩ ⟨Vector.replicate 16 0⟩
  revert this
  decide

/-- **C58**, exactly when it happens for IPv6: the sum of pseudo header and message is 0xFFFF. Missing:
the replacement of zero by 0xFFFF, which the code leaves to the caller. -/
theorem C58_zero_iff_partial (m : Mode) (packet : Buf) (hlen : packet.length ≤ 65535) (s d : Ipv6Addr) :
    udpIpv6Checksum m packet s d = .ok 0 ↔ ocSum (words16
      (pseudo6 s.octets.toList d.octets.toList 17 packet.length ++ zeroWord 3 packet)) = 0xFFFF := by
  rw [(C26_pseudo_header m packet hlen).2.1]
  have := ocNorm_le (words16 (pseudo6 s.octets.toList d.octets.toList 17 packet.length ++ zeroWord 3 packet)).sum
  rw [← ocSum_eq _ (words16_lt _)] at this
  unfold internetChecksum
  constructor
  · intro h; injection h with h; omega
  · intro h; rw [h]

/-- The packet of `C58_false`. -/
example : udpIpv6Checksum .debug [0xFF, 0xE6, 0, 0, 0, 0, 0, 0] ⟨Vector.replicate 16 0⟩
      ⟨Vector.replicate 16 0⟩ = .ok 0 :=
  (C58_zero_iff_partial .debug _ (by decide) _ _).mpr (by decide +kernel)

/-- **C58**, exactly when it happens for IPv4. -/
theorem C58_zero_iff_ipv4_partial (m : Mode) (packet : Buf) (hlen : packet.length ≤ 65535) (s d : Ipv4Addr) :
    udpIpv4Checksum m packet s d = .ok 0 ↔ ocSum (words16
      (pseudo4 s.octets.toList d.octets.toList 17 packet.length ++ zeroWord 3 packet)) = 0xFFFF := by
  rw [(C26_pseudo_header m packet hlen).1]
  have := ocNorm_le (words16 (pseudo4 s.octets.toList d.octets.toList 17 packet.length ++ zeroWord 3 packet)).sum
  rw [← ocSum_eq _ (words16_lt _)] at this
  unfold internetChecksum
  constructor
  · intro h; injection h with h; omega
  · intro h; rw [h]

/-- The same packet between two zero addresses. -/
example : udpIpv4Checksum .debug [0xFF, 0xE6, 0, 0, 0, 0, 0, 0] ⟨Vector.replicate 4 0⟩
      ⟨Vector.replicate 4 0⟩ = .ok 0 :=
  (C58_zero_iff_ipv4_partial .debug _ (by decide) _ _).mpr (by decide +kernel)

end Verif.Props
