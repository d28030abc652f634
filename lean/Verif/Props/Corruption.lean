import Verif.Proofs.Corruption
import Verif.Props.Checksum

/-!
# Which corruption checksums detect (C85)

`Burst` and `messageNat` are in `Spec/Checksum`.
-/

namespace Verif.Props
open Spec

/-- The number in a packet's checksum field is the one computed for the packet. -/
def Holds (field : Res Val) (computed : Res Nat) : Prop := ∃ c, field = .ok (.num c) ∧ computed = .ok c

/-- **C85**. Exactly which slices have the same `util::checksum`: those that are congruent modulo 65535
as numbers (with the skipped word taken as zero), both or neither of them consisting of zeroes. -/
theorem C85_same_checksum_iff (m : Mode) (p q : Buf) (k l : Nat) (hp : p ≠ []) (hq : q ≠ [])
    (hpl : p.length ≤ 131074) (hql : q.length ≤ 131074) :
    checksum m p k = checksum m q l ↔
      messageNat (zeroWord k p) % 65535 = messageNat (zeroWord l q) % 65535 ∧
      ((∀ b ∈ zeroWord k p, b = 0) ↔ ∀ b ∈ zeroWord l q, b = 0) := by
  rw [C23_rfc1071 m p k hp hpl, C23_rfc1071 m q l hq hql, ← checksum_eq_iff]
  exact ⟨fun h => by injection h, fun h => by rw [h]⟩

/-- 0x0001 0xFFFF and 0x0001 are congruent modulo 65535. -/
example : checksum .debug [0, 1, 0xFF, 0xFF] 9 = checksum .debug [0, 1] 9 :=
  (C85_same_checksum_iff .debug [0, 1, 0xFF, 0xFF] [0, 1] 9 9 (by decide) (by decide) (by decide)
    (by decide)).mpr (by decide +kernel)

/-- **C85**. If a message holds its checksum, no message that differs from it in a burst of at most 15
bits does: UDP, TCP and ICMPv6 with the addresses they were sent from and to, and ICMP. The burst may
hit addresses, headers, checksum and data. -/
theorem C85_burst_detected (m : Mode) (p q : Buf) (n : Nat) (hn : n ≤ 15)
    (hlen : p.length ≤ 65535) (hl : q.length = p.length) :
    (8 * p.length ≥ fixedBits icmp.fields → Burst n p q →
      Holds (icmp.get m p 2) (icmpChecksum m p) → ¬ Holds (icmp.get m q 2) (icmpChecksum m q)) ∧
    (8 * p.length ≥ fixedBits udp.fields → ∀ s d s' d' : Ipv4Addr,
      Burst n (pseudo4 s.octets.toList d.octets.toList 17 p.length ++ p)
        (pseudo4 s'.octets.toList d'.octets.toList 17 q.length ++ q) →
      Holds (udp.get m p 3) (udpIpv4Checksum m p s d) →
      ¬ Holds (udp.get m q 3) (udpIpv4Checksum m q s' d')) ∧
    (8 * p.length ≥ fixedBits udp.fields → ∀ s d s' d' : Ipv6Addr,
      Burst n (pseudo6 s.octets.toList d.octets.toList 17 p.length ++ p)
        (pseudo6 s'.octets.toList d'.octets.toList 17 q.length ++ q) →
      Holds (udp.get m p 3) (udpIpv6Checksum m p s d) →
      ¬ Holds (udp.get m q 3) (udpIpv6Checksum m q s' d')) ∧
    (8 * p.length ≥ fixedBits tcp.fields → ∀ s d s' d' : Ipv4Addr,
      Burst n (pseudo4 s.octets.toList d.octets.toList 6 p.length ++ p)
        (pseudo4 s'.octets.toList d'.octets.toList 6 q.length ++ q) →
      Holds (tcp.get m p 8) (tcpIpv4Checksum m p s d) →
      ¬ Holds (tcp.get m q 8) (tcpIpv4Checksum m q s' d')) ∧
    (8 * p.length ≥ fixedBits tcp.fields → ∀ s d s' d' : Ipv6Addr,
      Burst n (pseudo6 s.octets.toList d.octets.toList 6 p.length ++ p)
        (pseudo6 s'.octets.toList d'.octets.toList 6 q.length ++ q) →
      Holds (tcp.get m p 8) (tcpIpv6Checksum m p s d) →
      ¬ Holds (tcp.get m q 8) (tcpIpv6Checksum m q s' d')) ∧
    (8 * p.length ≥ fixedBits icmpv6.fields → ∀ s d s' d' : Ipv6Addr,
      Burst n (pseudo6 s.octets.toList d.octets.toList 58 p.length ++ p)
        (pseudo6 s'.octets.toList d'.octets.toList 58 q.length ++ q) →
      Holds (icmpv6.get m p 2) (icmpv6Checksum m p s d) →
      ¬ Holds (icmpv6.get m q 2) (icmpv6Checksum m q s' d')) := by
  have main : ∀ {dec : Decl} {k j : Nat} {f : Field} {pre pre' : Buf} {rp rq : Res Nat},
      dec.accepted = true → dec.fields[k]? = some f → f.ty = .prim ⟨16, .big⟩ →
      (dec.fields.take (k + 1)).all isFixed = true → fixedBits (dec.fields.take k) = 16 * j →
      8 * p.length ≥ fixedBits dec.fields → pre.length % 2 = 0 → pre'.length % 2 = 0 →
      rp = .ok (internetChecksum (words16 (pre ++ zeroWord j p))) →
      rq = .ok (internetChecksum (words16 (pre' ++ zeroWord j q))) →
      Burst n (pre ++ p) (pre' ++ q) →
      Holds (dec.get m p k) rp → ¬ Holds (dec.get m q k) rq := by
    intro dec k j f pre pre' rp rq hacc hf hty hfix hpos hsize h1 h2 e1 e2 hb ⟨c, g1, g2⟩ ⟨c', g1', g2'⟩
    have a1 := get_word hacc hf hty hfix hpos ((C06_new_iff dec p).1.mpr hsize) g1
    have a2 := get_word hacc hf hty hfix hpos ((C06_new_iff dec q).1.mpr (by rw [hl]; exact hsize)) g1'
    rw [e1] at g2; injection g2 with g2
    rw [e2] at g2'; injection g2' with g2'
    have b1 := holds_mod h1 a1.1 a1.2 g2.symm
    have b2 := holds_mod h2 a2.1 a2.2 g2'.symm
    exact burst_mod hn hb (b1.trans b2.symm)
  obtain ⟨u4, u6, t4, t6, i6⟩ := C26_pseudo_header m p hlen
  obtain ⟨u4', u6', t4', t6', i6'⟩ := C26_pseudo_header m q (by omega)
  refine ⟨fun h hb => ?_, fun h s d s' d' hb => ?_, fun h s d s' d' hb => ?_, fun h s d s' d' hb => ?_,
    fun h s d s' d' hb => ?_, fun h s d s' d' hb => ?_⟩
  · have h8 : 1 ≤ p.length := by rw [show fixedBits icmp.fields = 32 by decide] at h; omega
    exact main (pre := []) (pre' := []) (by decide) (k := 2) (j := 1) rfl rfl (by decide) (by decide) h
      rfl rfl
      (C23_rfc1071 m p 1 (fun e => by rw [e] at h8; simp at h8) (by omega))
      (C23_rfc1071 m q 1 (fun e => by rw [e] at hl; simp at hl; omega) (by omega)) hb
  · exact main (by decide) (k := 3) (j := 3) rfl rfl (by decide) (by decide) h (pseudo4_even ..)
      (pseudo4_even ..) (u4 s d) (u4' s' d') hb
  · exact main (by decide) (k := 3) (j := 3) rfl rfl (by decide) (by decide) h (pseudo6_even ..)
      (pseudo6_even ..) (u6 s d) (u6' s' d') hb
  · exact main (by decide) (k := 8) (j := 8) rfl rfl (by decide) (by decide) h (pseudo4_even ..)
      (pseudo4_even ..) (t4 s d) (t4' s' d') hb
  · exact main (by decide) (k := 8) (j := 8) rfl rfl (by decide) (by decide) h (pseudo6_even ..)
      (pseudo6_even ..) (t6 s d) (t6' s' d') hb
  · exact main (by decide) (k := 2) (j := 1) rfl rfl (by decide) (by decide) h (pseudo6_even ..)
      (pseudo6_even ..) (i6 s d) (i6' s' d') hb

/-- **C85** for IPv4 headers: the burst hits the bytes covered by `header_length`, but not that field. -/
theorem C85_ipv4_header_burst_detected (m : Mode) (p q : Buf) (n len : Nat) (hn : n ≤ 15)
    (hlen : 20 ≤ p.length) (hl : q.length = p.length)
    (hihl : (q.getD 0 0).toNat % 16 = (p.getD 0 0).toNat % 16)
    (hcov : len = min p.length (max 20 (4 * ((p.getD 0 0).toNat % 16))))
    (hb : Burst n (p.take len) (q.take len))
    (h : Holds (ipv4.get m p 10) (ipv4HeaderChecksum m p)) :
    ¬ Holds (ipv4.get m q 10) (ipv4HeaderChecksum m q) := by
  have key : ∀ b : Buf, b.length = p.length → (b.getD 0 0).toNat % 16 = (p.getD 0 0).toNat % 16 →
      Holds (ipv4.get m b 10) (ipv4HeaderChecksum m b) → messageNat (b.take len) % 65535 = 0 := by
    intro b hbl hbi ⟨c, g1, g2⟩
    have hnew : (ipv4.newPacket b).isSome = true :=
      (C06_new_iff ipv4 b).1.mpr (by rw [show fixedBits ipv4.fields = 160 by decide]; omega)
    have a := get_word (d := ipv4) (by decide) (k := 10) (j := 5) rfl rfl (by decide) (by decide) hnew g1
    rw [C29_ipv4_header_checksum m b (by omega), hbi, hbl, ← hcov] at g2
    injection g2 with g2
    exact holds_mod (pre := []) rfl (by rw [List.length_take]; omega)
      (by rw [← storeWord_take, a.2]) g2.symm
  intro hq
  exact burst_mod hn hb ((key p rfl rfl h).trans (key q hl hihl hq).symm)

/-- **C85**, what is not detected: two slices with the same words in a different order have the same
checksum. -/
theorem C85_reordered_words (m : Mode) (p q : Buf) (k l : Nat) (hp : p ≠ []) (hq : q ≠ [])
    (hpl : p.length ≤ 131074) (hql : q.length ≤ 131074)
    (h : (words16 (zeroWord k p)).Perm (words16 (zeroWord l q))) :
    checksum m p k = checksum m q l := by
  rw [C23_rfc1071 m p k hp hpl, C23_rfc1071 m q l hq hql]
  unfold internetChecksum
  rw [perm_ocSum (words16_lt _) h]

example : checksum .debug [1, 2, 3, 4] 9 = checksum .debug [3, 4, 1, 2] 9 :=
  C85_reordered_words .debug _ _ 9 9 (by decide) (by decide) (by decide) (by decide) (by decide +kernel)

/-- **C85**: 15 bits is the limit. Both ICMP messages hold their checksum and differ in 16 bits. -/
theorem C85_limit (m : Mode) : Burst 16 [8, 0, 0xF7, 0xFE, 0, 0, 0, 1] [8, 0, 0xF7, 0xFE, 0xFF, 0xFF, 0, 1] ∧
    Holds (icmp.get m [8, 0, 0xF7, 0xFE, 0, 0, 0, 1] 2) (icmpChecksum m [8, 0, 0xF7, 0xFE, 0, 0, 0, 1]) ∧
    Holds (icmp.get m [8, 0, 0xF7, 0xFE, 0xFF, 0xFF, 0, 1] 2)
      (icmpChecksum m [8, 0, 0xF7, 0xFE, 0xFF, 0xFF, 0, 1]) := by
  refine ⟨⟨by decide, bitsOf [8, 0, 0xF7, 0xFE], bitsOf [0, 0], bitsOf [0xFF, 0xFF], bitsOf [0, 1],
    by decide, by decide, by decide, by decide⟩, ⟨0xF7FE, ?_, ?_⟩, ⟨0xF7FE, ?_, ?_⟩⟩ <;> cases m <;> decide

/-- The hypotheses of `C85_burst_detected` hold of this ICMP message with one bit flipped. -/
example (m : Mode) : 8 * [8, 0, 0xF7, 0xFE, 0, 0, 0, 1].length ≥ fixedBits icmp.fields ∧
    Burst 1 [8, 0, 0xF7, 0xFE, 0, 0, 0, 1] [8, 0, 0xF7, 0xFE, 0, 0, 0, 0] ∧
    Holds (icmp.get m [8, 0, 0xF7, 0xFE, 0, 0, 0, 1] 2) (icmpChecksum m [8, 0, 0xF7, 0xFE, 0, 0, 0, 1]) :=
  ⟨by decide, ⟨by decide, bitsOf [8, 0, 0xF7, 0xFE, 0, 0, 0] ++ List.replicate 7 false, [true], [false], [],
    by decide, by decide, rfl, rfl⟩, (C85_limit m).2.1⟩

/-- The UDP packet of the repository's test, delivered to the neighbouring address. -/
example : Burst 1
      (pseudo4 [192, 168, 0, 1] [192, 168, 0, 199] 17 12 ++
        [0x30, 0x39, 0xd4, 0x31, 0x00, 0x0c, 0x91, 0x78, 116, 101, 115, 116])
      (pseudo4 [192, 168, 0, 1] [192, 168, 0, 198] 17 12 ++
        [0x30, 0x39, 0xd4, 0x31, 0x00, 0x0c, 0x91, 0x78, 116, 101, 115, 116]) ∧
    Holds (udp.get .debug [0x30, 0x39, 0xd4, 0x31, 0x00, 0x0c, 0x91, 0x78, 116, 101, 115, 116] 3)
      (udpIpv4Checksum .debug [0x30, 0x39, 0xd4, 0x31, 0x00, 0x0c, 0x91, 0x78, 116, 101, 115, 116]
        ⟨#v[192, 168, 0, 1]⟩ ⟨#v[192, 168, 0, 199]⟩) :=
  ⟨⟨by decide, bitsOf [192, 168, 0, 1, 192, 168, 0] ++ [true, true, false, false, false, true, true], [true],
    [false], bitsOf [0, 17, 0, 12, 0x30, 0x39, 0xd4, 0x31, 0x00, 0x0c, 0x91, 0x78, 116, 101, 115, 116],
    by decide +kernel, by decide +kernel, rfl, rfl⟩, ⟨0x9178, by decide, by decide⟩⟩

/-- An IPv4 header that holds its checksum. -/
example : Holds (ipv4.get .debug [0x45, 0, 0, 0x73, 0, 0, 0x40, 0, 0x40, 0x11, 0xb8, 0x61, 0xc0, 0xa8, 0, 1,
      0xc0, 0xa8, 0, 0xc7] 10)
    (ipv4HeaderChecksum .debug [0x45, 0, 0, 0x73, 0, 0, 0x40, 0, 0x40, 0x11, 0xb8, 0x61, 0xc0, 0xa8, 0, 1,
      0xc0, 0xa8, 0, 0xc7]) := ⟨0xb861, by decide, by decide⟩

end Verif.Props
