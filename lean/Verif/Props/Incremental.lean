import Verif.Proofs.Incremental
import Verif.Props.Corruption

/-!
# Checksums can be updated incrementally (C108)

`rfc1624`, `rfc1624All` and `natChanges` are in `Spec/Checksum`.
-/

namespace Verif.Props
open Spec

/-- **C108**. When a 16-bit word of a slice changes, the new `util::checksum` is the one RFC 1624
computes from the old one and the two words, exactly if something other than the skipped word is not
zero afterwards. -/
theorem C108_word (m : Mode) (data : Buf) (k j w w' c : Nat) (hlen : data.length ≤ 131074)
    (hj : 2 * j + 2 ≤ data.length) (hjk : j ≠ k) (hw' : w' < 65536)
    (hw : w = 256 * (data.getD (2 * j) 0).toNat + (data.getD (2 * j + 1) 0).toNat)
    (hc : checksum m data k = .ok c) :
    checksum m (storeWord j w' data) k = .ok (rfc1624 c w w') ↔
      ∃ b ∈ zeroWord k (storeWord j w' data), b ≠ 0 := by
  have hne : data ≠ [] := by rintro rfl; simp at hj
  have hl := storeWord_length j w' data
  have hne' : storeWord j w' data ≠ [] := by
    intro h; rw [h] at hl; simp only [List.length_nil] at hl; omega
  have hwlt : w < 65536 := by
    have := (data.getD (2 * j) 0).toNat_lt
    have := (data.getD (2 * j + 1) 0).toNat_lt
    omega
  rw [C23_rfc1071 m data k hne hlen] at hc
  injection hc with hc
  rw [C23_rfc1071 m _ k hne' (by omega)]
  have hold := storeWord_old hj
  rw [← hw] at hold
  have hs := sum_change hjk hj hwlt hw' hold
  unfold internetChecksum at hc ⊢
  rw [ocSum_eq _ (words16_lt _)] at hc ⊢
  subst hc
  have := rfc1624_iff hwlt hw' hs
  have hz := words_sum_zero (zeroWord k (storeWord j w' data))
  constructor
  · intro h
    injection h with h
    have := this.1 h
    rw [ne_eq, hz] at this
    simpa using this
  · rintro ⟨b, h1, h2⟩
    congr 1
    exact this.2 (fun h => h2 (hz.1 h b h1))

/-- The example of RFC 1624, section 4: HC = 0xDD2F, m = 0x5555, m' = 0x3285 give HC' = 0x0000. -/
example : rfc1624 0xDD2F 0x5555 0x3285 = 0 := by decide
example : checksum .debug (storeWord 0 0x3285 [0x55, 0x55, 0xCD, 0x7A]) 9 = .ok (rfc1624 0xDD2F 0x5555 0x3285) :=
  (C108_word .debug [0x55, 0x55, 0xCD, 0x7A] 9 0 0x5555 0x3285 0xDD2F (by decide) (by decide) (by decide)
    (by decide) (by decide) (by decide)).2 ⟨0xCD, by decide, by decide⟩

/-- **C108**: the exception. The last word that was not zero becomes zero; the checksum is 0xFFFF and
the update gives 0. -/
theorem C108_zero (m : Mode) : checksum m [0, 1, 0, 0] 9 = .ok 0xFFFE ∧
    checksum m [0, 0, 0, 0] 9 = .ok 0xFFFF ∧ rfc1624 0xFFFE 1 0 = 0 := by
  refine ⟨?_, ?_, by decide⟩ <;> cases m <;> decide

/-- **C108** for address translation. After the addresses and the ports of a UDP or TCP packet were
changed, the new checksum is what RFC 1624 computes from the old one and the changed words. -/
theorem C108_nat (m : Mode) (buf : Buf) (sp sp' dp dp' : Nat) (hlen : buf.length ≤ 65535)
    (hsp' : sp' < 65536) (hdp' : dp' < 65536) :
    (8 * buf.length ≥ fixedBits udp.fields → udp.get m buf 0 = .ok (.num sp) → udp.get m buf 1 = .ok (.num dp) →
      ∃ new₁ new, udp.set m buf 0 (.num sp') = .ok new₁ ∧ udp.set m new₁ 1 (.num dp') = .ok new ∧
      (∀ s s' d d', ∃ c, udpIpv4Checksum m buf s d = .ok c ∧
        udpIpv4Checksum m new s' d' = .ok (rfc1624All c (natChanges s.octets.toList s'.octets.toList
          d.octets.toList d'.octets.toList sp sp' dp dp'))) ∧
      (∀ s s' d d', ∃ c, udpIpv6Checksum m buf s d = .ok c ∧
        udpIpv6Checksum m new s' d' = .ok (rfc1624All c (natChanges s.octets.toList s'.octets.toList
          d.octets.toList d'.octets.toList sp sp' dp dp')))) ∧
    (8 * buf.length ≥ fixedBits tcp.fields → tcp.get m buf 0 = .ok (.num sp) → tcp.get m buf 1 = .ok (.num dp) →
      ∃ new₁ new, tcp.set m buf 0 (.num sp') = .ok new₁ ∧ tcp.set m new₁ 1 (.num dp') = .ok new ∧
      (∀ s s' d d', ∃ c, tcpIpv4Checksum m buf s d = .ok c ∧
        tcpIpv4Checksum m new s' d' = .ok (rfc1624All c (natChanges s.octets.toList s'.octets.toList
          d.octets.toList d'.octets.toList sp sp' dp dp'))) ∧
      (∀ s s' d d', ∃ c, tcpIpv6Checksum m buf s d = .ok c ∧
        tcpIpv6Checksum m new s' d' = .ok (rfc1624All c (natChanges s.octets.toList s'.octets.toList
          d.octets.toList d'.octets.toList sp sp' dp dp')))) := by
  have hsl : SliceLen buf.length := by unfold SliceLen; omega
  have hl1 := storeWord_length 0 sp' buf
  have hl2 := storeWord_length 1 dp' (storeWord 0 sp' buf)
  obtain ⟨u4, u6, t4, t6, -⟩ := C26_pseudo_header m buf hlen
  obtain ⟨u4', u6', t4', t6', -⟩ := C26_pseudo_header m (storeWord 1 dp' (storeWord 0 sp' buf)) (by omega)
  have sum4 : ∀ (s d : Ipv4Addr) (p : UInt8) (rest : Buf),
      internetChecksum (words16 (pseudo4 s.octets.toList d.octets.toList p buf.length ++ rest)) =
      65535 - ocNorm ((words16 s.octets.toList).sum + (words16 d.octets.toList).sum + (p.toNat + buf.length) +
        (words16 rest).sum) := by
    intro s d p rest
    unfold internetChecksum
    rw [ocSum_eq _ (words16_lt _), words16_pseudo4 s d p (by omega), ← Nat.add_assoc]
  have sum6 : ∀ (s d : Ipv6Addr) (p : UInt8) (rest : Buf),
      internetChecksum (words16 (pseudo6 s.octets.toList d.octets.toList p buf.length ++ rest)) =
      65535 - ocNorm ((words16 s.octets.toList).sum + (words16 d.octets.toList).sum + (p.toNat + buf.length) +
        (words16 rest).sum) := by
    intro s d p rest
    unfold internetChecksum
    rw [ocSum_eq _ (words16_lt _), words16_pseudo6_small s d p (by omega), ← Nat.add_assoc]
  constructor
  · intro h g0 g1
    have hnew := (C06_new_iff udp buf).1.mpr h
    have hnew1 := (C06_new_iff udp (storeWord 0 sp' buf)).1.mpr (by rw [hl1]; exact h)
    have a0 := get_word (d := udp) (by decide) (k := 0) (j := 0) rfl rfl (by decide) (by decide) hnew g0
    have a1 := get_word (d := udp) (by decide) (k := 1) (j := 1) rfl rfl (by decide) (by decide) hnew g1
    have l0 := get_word_lt (d := udp) (by decide) (k := 0) rfl rfl (by decide) hnew g0
    have l1 := get_word_lt (d := udp) (by decide) (k := 1) rfl rfl (by decide) hnew g1
    have s0 := set_word (d := udp) (by decide) (k := 0) (j := 0) rfl rfl (by decide) (by decide) m buf hsl hnew sp'
    have s1 := set_word (d := udp) (by decide) (k := 1) (j := 1) rfl rfl (by decide) (by decide) m
      (storeWord 0 sp' buf) (by rw [hl1]; exact hsl) hnew1 dp'
    have hP : ∀ p : Nat, p + buf.length ≠ 0 := by have := a1.1; omega
    refine ⟨_, _, s0.2, s1.2, fun s s' d d' => ⟨_, u4 s d, ?_⟩, fun s s' d d' => ⟨_, u6 s d, ?_⟩⟩
    · rw [u4' s' d', hl2, hl1, sum4, sum4]
      exact congrArg _ (nat_update (by decide) a1.1 (hP _) (by simp) (by simp) l0 hsp' l1 hdp' a0.2 a1.2)
    · rw [u6' s' d', hl2, hl1, sum6, sum6]
      exact congrArg _ (nat_update (by decide) a1.1 (hP _) (by simp) (by simp) l0 hsp' l1 hdp' a0.2 a1.2)
  · intro h g0 g1
    have hnew := (C06_new_iff tcp buf).1.mpr h
    have hnew1 := (C06_new_iff tcp (storeWord 0 sp' buf)).1.mpr (by rw [hl1]; exact h)
    have a0 := get_word (d := tcp) (by decide) (k := 0) (j := 0) rfl rfl (by decide) (by decide) hnew g0
    have a1 := get_word (d := tcp) (by decide) (k := 1) (j := 1) rfl rfl (by decide) (by decide) hnew g1
    have l0 := get_word_lt (d := tcp) (by decide) (k := 0) rfl rfl (by decide) hnew g0
    have l1 := get_word_lt (d := tcp) (by decide) (k := 1) rfl rfl (by decide) hnew g1
    have s0 := set_word (d := tcp) (by decide) (k := 0) (j := 0) rfl rfl (by decide) (by decide) m buf hsl hnew sp'
    have s1 := set_word (d := tcp) (by decide) (k := 1) (j := 1) rfl rfl (by decide) (by decide) m
      (storeWord 0 sp' buf) (by rw [hl1]; exact hsl) hnew1 dp'
    have hP : ∀ p : Nat, p + buf.length ≠ 0 := by have := a1.1; omega
    refine ⟨_, _, s0.2, s1.2, fun s s' d d' => ⟨_, t4 s d, ?_⟩, fun s s' d d' => ⟨_, t6 s d, ?_⟩⟩
    · rw [t4' s' d', hl2, hl1, sum4, sum4]
      exact congrArg _ (nat_update (by decide) a1.1 (hP _) (by simp) (by simp) l0 hsp' l1 hdp' a0.2 a1.2)
    · rw [t6' s' d', hl2, hl1, sum6, sum6]
      exact congrArg _ (nat_update (by decide) a1.1 (hP _) (by simp) (by simp) l0 hsp' l1 hdp' a0.2 a1.2)

/-- The packet of the repository's UDP test (`src/udp.rs:55-98`) leaves 192.168.0.1:12345 for
10.0.0.1:2000. -/
example : udpIpv4Checksum .debug [0x07, 0xd0, 0xd4, 0x31, 0x00, 0x0c, 0, 0, 116, 101, 115, 116]
    ⟨#v[10, 0, 0, 1]⟩ ⟨#v[192, 168, 0, 199]⟩ =
    .ok (rfc1624All 0x9178 [(0xC0A8, 0x0A00), (1, 1), (0xC0A8, 0xC0A8), (199, 199), (12345, 2000), (54321, 54321)]) := by
  decide

/-- The hypotheses of `C108_nat` hold of that packet. -/
example := (C108_nat .debug [0x30, 0x39, 0xd4, 0x31, 0x00, 0x0c, 0, 0, 116, 101, 115, 116] 12345 2000 54321 54321
  (by decide) (by decide) (by decide)).1 (by decide) (by decide) (by decide)

/-- **C108** for forwarding. An IPv4 header that holds its checksum still does after the time to live
was changed and the checksum updated by RFC 1624 from the words (time to live, protocol). -/
theorem C108_forward (m : Mode) (packet : Buf) (h20 : 20 ≤ packet.length) (hsl : SliceLen packet.length)
    (hv : packet.getD 0 0 ≠ 0) (c ttl' old new : Nat) (httl : ttl' < 256)
    (hfield : ipv4.get m packet 10 = .ok (.num c)) (hsum : ipv4HeaderChecksum m packet = .ok c)
    (hold : old = 256 * (packet.getD 8 0).toNat + (packet.getD 9 0).toNat)
    (hnewword : new = 256 * ttl' + (packet.getD 9 0).toNat) :
    ∃ p₁ p₂, ipv4.set m packet 8 (.num ttl') = .ok p₁ ∧ ipv4.set m p₁ 10 (.num (rfc1624 c old new)) = .ok p₂ ∧
      Holds (ipv4.get m p₂ 10) (ipv4HeaderChecksum m p₂) := by
  have hnp : ∀ b : Buf, b.length = packet.length → (ipv4.newPacket b).isSome = true := fun b hb =>
    (C06_new_iff ipv4 b).1.mpr (by rw [show fixedBits ipv4.fields = 160 by decide, hb]; omega)
  have b9 := (packet.getD 9 0).toNat_lt
  have b8 := (packet.getD 8 0).toNat_lt
  have s8 := set_byte (d := ipv4) (by decide) (k := 8) (j := 8) rfl rfl (by decide) (by decide) m packet hsl
    (hnp _ rfl) ttl'
  have e8 : packet.set 8 (UInt8.ofNat ttl') = storeWord 4 new packet := by
    have hold' := storeWord_old (j := 4) (data := packet) (by omega)
    unfold storeWord putWord at hold' ⊢
    rw [show new / 256 = ttl' by omega]
    apply List.ext_getElem?
    intro i
    rw [List.getElem?_set, List.getElem?_set, List.getElem?_set, List.length_set]
    by_cases h9 : 2 * 4 + 1 = i
    · subst h9
      rw [if_neg (by omega), if_pos rfl, if_pos (by omega), List.getElem?_eq_getElem (by omega)]
      congr 1
      apply UInt8.toNat_inj.1
      rw [UInt8.toNat_ofNat', hnewword, List.getD_eq_getElem?_getD, List.getElem?_eq_getElem (by omega),
        Option.getD_some]
      have := (packet[9]'(by omega)).toNat_lt
      show (packet[9]'(by omega)).toNat = _
      omega
    · rw [if_neg h9]
  rw [e8] at s8
  have hl := storeWord_length 4 new packet
  have s10 := set_word (d := ipv4) (by decide) (k := 10) (j := 5) rfl rfl (by decide) (by decide) m
    (storeWord 4 new packet) (by rw [hl]; exact hsl) (hnp _ hl) (rfc1624 c old new)
  refine ⟨_, _, s8, s10.2, rfc1624 c old new, ?_, ?_⟩
  · have hr : rfc1624 c old new < 65536 := by unfold rfc1624; omega
    obtain ⟨q, q1, q2⟩ := C02_declared_set_then_get ipv4 (by decide) 10 _ rfl (by decide) (by decide) m
      (noInner 0) (.num (rfc1624 c old new)) trivial (storeWord 4 new packet) (by rw [hl]; exact hsl) (hnp _ hl)
    rw [s10.2] at q1
    injection q1 with q1
    rw [q1, q2]
    show Except.ok (Val.num (rfc1624 c old new % 2 ^ 16)) = _
    rw [Nat.mod_eq_of_lt hr]
  · have hl2 := storeWord_length 5 (rfc1624 c old new) (storeWord 4 new packet)
    have hhead : (storeWord 5 (rfc1624 c old new) (storeWord 4 new packet)).getD 0 0 = packet.getD 0 0 := by
      simp [storeWord, putWord, List.getD_eq_getElem?_getD]
    rw [C29_ipv4_header_checksum m packet h20] at hsum
    rw [C29_ipv4_header_checksum m _ (by omega), hhead, hl2, hl]
    generalize hn : min packet.length (max 20 (4 * ((packet.getD 0 0).toNat % 16))) = n at hsum ⊢
    injection hsum with hsum
    rw [storeWord_take, storeWord_take]
    have hz : zeroWord 5 (storeWord 5 (rfc1624 c old new) (storeWord 4 new (packet.take n))) =
        zeroWord 5 (storeWord 4 new (packet.take n)) := zeroWord_putWord ..
    rw [hz]
    have hcs := sum_change (j := 4) (k := 5) (w := old) (w' := new) (data := packet.take n) (by decide)
      (by rw [List.length_take]; omega) (by omega) (by omega)
      (by rw [← storeWord_take, hold]; exact congrArg (List.take n) (storeWord_old (j := 4) (by omega)))
    unfold internetChecksum at hsum ⊢
    rw [ocSum_eq _ (words16_lt _)] at hsum ⊢
    subst hsum
    congr 1
    refine (rfc1624_iff (by omega) (by omega) hcs).2 ?_
    rw [ne_eq, words_sum_zero]
    intro hall
    apply hv
    have : (zeroWord 5 (storeWord 4 new (packet.take n))).getD 0 0 = packet.getD 0 0 := by
      simp [zeroWord, storeWord, putWord, List.getD_eq_getElem?_getD,
        show 0 < n by omega]
    rw [← this]
    refine hall _ ?_
    rw [List.getD_eq_getElem?_getD, List.getElem?_eq_getElem (by
      rw [zeroWord_length, storeWord_length, List.length_take]; omega)]
    exact List.getElem_mem _

/-- The header of the example of `C29`, with time to live 0x40 becoming 0x3F. -/
example := C108_forward .debug
  [0x45, 0, 0, 0x73, 0, 0, 0x40, 0, 0x40, 0x11, 0xb8, 0x61, 0xc0, 0xa8, 0, 1, 0xc0, 0xa8, 0, 0xc7]
  (by decide) (by decide) (by decide) 0xb861 0x3F 0x4011 0x3F11 (by decide) (by decide) (by decide) (by decide)
  (by decide)

end Verif.Props
