import Verif.Proofs.Checksum
import Verif.Props.Vectors

/-! # Storing a checksum with a generated setter; digits of a byte -/

namespace Verif
open Spec

theorem bitSlice_toBits {n s k v : Nat} (h : s + k ≤ n) :
    bitSlice (toBits n v) s k = toBits k (v >>> (n - s - k)) := by
  unfold bitSlice
  apply List.ext_getElem?
  intro i
  by_cases hi : i < k
  · rw [List.getElem?_take_of_lt hi, List.getElem?_drop, toBits_getElem? _ _ _ (by omega),
      toBits_getElem? _ _ _ hi, Nat.testBit_shiftRight]
    congr 2
    omega
  · rw [List.getElem?_eq_none (by simp; omega), List.getElem?_eq_none (by simp; omega)]

theorem ofBits_bitSlice_toBits {n s k v : Nat} (h : s + k ≤ n) :
    ofBits (bitSlice (toBits n v) s k) = v / 2 ^ (n - s - k) % 2 ^ k := by
  rw [bitSlice_toBits h, ofBits_toBits, Nat.shiftRight_eq_div_pow]

theorem putWord_eq {k : Nat} {hi lo : UInt8} {data : Buf} (h : 2 * k + 2 ≤ data.length) :
    putWord k hi lo data = data.take (2 * k) ++ [hi, lo] ++ data.drop (2 * k + 2) := by
  unfold putWord
  apply List.ext_getElem?
  intro i
  rw [List.getElem?_set, List.getElem?_set, List.append_assoc, List.getElem?_append, List.length_take,
    Nat.min_eq_left (by omega)]
  by_cases h1 : i < 2 * k
  · rw [if_neg (by omega), if_neg (by omega), if_pos h1, List.getElem?_take_of_lt h1]
  · rw [if_neg h1, List.length_set]
    by_cases h2 : i = 2 * k
    · subst h2
      rw [if_neg (by omega), if_pos rfl, if_pos (by omega)]
      simp
    · by_cases h3 : i = 2 * k + 1
      · subst h3
        rw [if_pos rfl, if_pos (by omega), show 2 * k + 1 - 2 * k = 1 by omega]
        simp
      · rw [if_neg (by omega), if_neg (by omega), show i - 2 * k = (i - (2 * k + 2)) + 1 + 1 by omega]
        simp only [List.cons_append, List.getElem?_cons_succ, List.nil_append, List.getElem?_drop]
        congr 1
        omega

theorem bitsOf_two (c : Nat) : bitsOf [UInt8.ofNat (c / 256), UInt8.ofNat c] = toBits 16 c := by
  have h1 : beNat [UInt8.ofNat (c / 256), UInt8.ofNat c] = c % 2 ^ 16 := by
    simp only [beNat, List.foldl_cons, List.foldl_nil, UInt8.toNat_ofNat']
    omega
  have h2 := toBits_ofBits (bitsOf [UInt8.ofNat (c / 256), UInt8.ofNat c])
  rw [← beNat_eq_ofBits, h1, bitsOf_length] at h2
  rw [← h2]
  exact toBits_mod 16 c

/-- Setting an aligned 16-bit field stores the two bytes of the number. -/
theorem set_word {d : Decl} (hacc : d.accepted = true) {k j : Nat} {f : Field}
    (hf : d.fields[k]? = some f) (hty : f.ty = .prim ⟨16, .big⟩)
    (hfix : (d.fields.take (k + 1)).all Props.isFixed = true)
    (hpos : fixedBits (d.fields.take k) = 16 * j) (m : Mode) (buf : Buf) (hsl : SliceLen buf.length)
    (hnew : (d.newPacket buf).isSome = true) (c : Nat) :
    2 * j + 2 ≤ buf.length ∧ d.set m buf k (.num c) = .ok (storeWord j c buf) := by
  have hlen : 2 * j + 2 ≤ buf.length := by
    have h1 := (Props.C06_new_iff d buf).1.mp hnew
    have h2 := bitsSum_field_le hf
    rw [fixedBits_eq] at h1 hpos
    rw [hpos, hty] at h2
    simp only [Ty.bits] at h2
    omega
  refine ⟨hlen, ?_⟩
  obtain ⟨new, h1, h2, h3⟩ := Props.C03_declared_setter d hacc k f hf hfix (by rw [hty]; rfl) m
    (Props.noInner 0) (.num c) (by rw [hty]; trivial) buf hsl hnew
  rw [h1]
  congr 1
  apply bitsOf_inj
  rw [h3, hty, hpos]
  unfold storeWord
  rw [putWord_eq hlen, bitsOf_append, bitsOf_append, bitsOf_take, bitsOf_drop, bitsOf_two]
  simp only [encField, intWidths, List.sum_cons, List.sum_nil]
  congr 2
  · rw [show 16 * j = 8 * (2 * j) by omega]
  · omega

theorem sum_putWord (hi lo : UInt8) : ∀ (k : Nat) (data : Buf), 2 * k + 2 ≤ data.length →
    (words16 (putWord k hi lo data)).sum = (words16 (zeroWord k data)).sum + (256 * hi.toNat + lo.toNat)
  | 0, a :: b :: rest, _ => by simp [putWord, zeroWord, words16]; omega
  | k + 1, a :: b :: rest, h => by
    simp only [List.length_cons] at h
    unfold zeroWord
    rw [putWord_succ, putWord_succ]
    simp only [words16, List.sum_cons]
    have := sum_putWord hi lo k rest (by omega)
    unfold zeroWord at this
    omega
  | _, [a], h => by simp at h
  | _, [], h => by simp at h

theorem sum_storeWord {k c : Nat} {data : Buf} (h : 2 * k + 2 ≤ data.length) (hc : c < 65536) :
    (words16 (storeWord k c data)).sum = (words16 (zeroWord k data)).sum + c := by
  unfold storeWord
  rw [sum_putWord _ _ k data h, UInt8.toNat_ofNat', UInt8.toNat_ofNat']
  omega

/-- Adding the complement of a sum gives all ones. -/
theorem ocNorm_complement (s : Nat) : ocNorm (s + (65535 - ocNorm s)) = 65535 := by
  have h1 := ocNorm_le s
  have h2 := ocNorm_mod s
  have h3 : ocNorm s = 0 ↔ s = 0 := ocNorm_zero
  generalize ocNorm s = t at *
  unfold ocNorm
  split <;> omega

theorem zeroWord_congr {k : Nat} {data data' : Buf} (hl : data.length = data'.length)
    (h : ∀ i, i ≠ 2 * k → i ≠ 2 * k + 1 → data[i]? = data'[i]?) : zeroWord k data = zeroWord k data' := by
  unfold zeroWord putWord
  apply List.ext_getElem?
  intro i
  rw [List.getElem?_set, List.getElem?_set, List.getElem?_set, List.getElem?_set, List.length_set,
    List.length_set, hl]
  by_cases h1 : 2 * k + 1 = i
  · simp only [if_pos h1]
  · by_cases h2 : 2 * k = i
    · simp only [if_neg h1, if_pos h2]
    · simp only [if_neg h1, if_neg h2]
      exact h i (Ne.symm h2) (Ne.symm h1)

theorem zeroWord_putWord (k : Nat) (hi lo : UInt8) (data : Buf) :
    zeroWord k (putWord k hi lo data) = zeroWord k data := by
  apply zeroWord_congr
  · simp [putWord]
  · intro i h1 h2
    unfold putWord
    rw [List.getElem?_set_ne (Ne.symm h2), List.getElem?_set_ne (Ne.symm h1)]

theorem zeroWord_append {k : Nat} {data extra : Buf} (h : 2 * k + 2 ≤ data.length) :
    zeroWord k (data ++ extra) = zeroWord k data ++ extra := by
  unfold zeroWord
  rw [putWord_eq h, putWord_eq (by rw [List.length_append]; omega), List.take_append_of_le_length (by omega),
    List.drop_append_of_le_length (by omega)]
  simp only [List.append_assoc]

theorem words16_pseudo4 (src dst : Ipv4Addr) (p : UInt8) {len : Nat} (h : len < 65536) (rest : Buf) :
    (words16 (pseudo4 src.octets.toList dst.octets.toList p len ++ rest)).sum =
      (words16 src.octets.toList).sum + (words16 dst.octets.toList).sum + p.toNat + len + (words16 rest).sum := by
  unfold pseudo4
  rw [List.append_assoc, List.append_assoc, words16_append _ _ (by simp), words16_append _ _ (by simp)]
  simp only [List.cons_append, List.nil_append, words16, List.sum_append, List.sum_cons, UInt8.toNat_ofNat',
    UInt8.toNat_zero]
  omega

theorem words16_pseudo6 (src dst : Ipv6Addr) (p : UInt8) {len : Nat} (h : len < u32Card) (rest : Buf) :
    ocNorm (words16 (pseudo6 src.octets.toList dst.octets.toList p len ++ rest)).sum =
      ocNorm ((words16 src.octets.toList).sum + (words16 dst.octets.toList).sum + p.toNat + len +
        (words16 rest).sum) := by
  unfold pseudo6 u32Card at *
  rw [List.append_assoc, List.append_assoc, words16_append _ _ (by simp), words16_append _ _ (by simp)]
  simp only [List.cons_append, List.nil_append, words16, List.sum_append, List.sum_cons, UInt8.toNat_ofNat',
    UInt8.toNat_zero]
  have h1 : 256 * (len / 2 ^ 24 % 2 ^ 8) + len / 2 ^ 16 % 2 ^ 8 = len / 65536 := by omega
  have h2 : 256 * (len / 256 % 2 ^ 8) + len % 2 ^ 8 = len % 65536 := by omega
  rw [h1, h2]
  apply ocNorm_congr <;> omega

/-- Word lists as they enter the checksum functions with extra data. -/
theorem ipv4Checksum_general (m : Mode) (data extra : Buf) (k : Nat) (src dst : Ipv4Addr) (p : UInt8)
    (hlen : data.length + extra.length ≤ 65535) :
    ipv4Checksum m data k extra src dst p = .ok (internetChecksum
      (words16 (pseudo4 src.octets.toList dst.octets.toList p (data.length + extra.length)) ++
        words16 (zeroWord k data) ++ words16 (extra.take (extra.length / 2 * 2)))) := by
  obtain ⟨s1, s2⟩ := ipv4WordSum_eq m src
  obtain ⟨d1, d2⟩ := ipv4WordSum_eq m dst
  have h1 := rawSum_le k data
  have h2 := rawSum_le (extra.length / 2) extra
  have h3 := p.toNat_lt
  unfold ipv4Checksum internetChecksum
  rw [addrChecksum_eq s1 d1 (by unfold u32Card; omega) (by unfold u32Card; omega), rawSum_eq, rawSum_extra,
    ocSum_eq]
  · have := words16_pseudo4 src dst p (len := data.length + extra.length) (by omega) []
    rw [List.append_nil] at this
    simp only [words16, List.sum_nil, Nat.add_zero] at this
    rw [List.sum_append, List.sum_append, this]
  · intro w hw
    simp only [List.mem_append] at hw
    rcases hw with (h | h) | h <;> exact words16_lt _ w h

/-- The same for IPv6. -/
theorem ipv6Checksum_general (m : Mode) (data extra : Buf) (k : Nat) (src dst : Ipv6Addr) (p : UInt8)
    (hlen : data.length + extra.length ≤ 131000) :
    ipv6Checksum m data k extra src dst p = .ok (internetChecksum
      (words16 (pseudo6 src.octets.toList dst.octets.toList p (data.length + extra.length)) ++
        words16 (zeroWord k data) ++ words16 (extra.take (extra.length / 2 * 2)))) := by
  obtain ⟨s1, s2⟩ := ipv6WordSum_eq m src
  obtain ⟨d1, d2⟩ := ipv6WordSum_eq m dst
  have h1 := rawSum_le k data
  have h2 := rawSum_le (extra.length / 2) extra
  have h3 := p.toNat_lt
  unfold ipv6Checksum internetChecksum
  rw [addrChecksum_eq s1 d1 (by unfold u32Card; omega) (by unfold u32Card; omega), rawSum_eq, rawSum_extra,
    ocSum_eq]
  · have := words16_pseudo6 src dst p (len := data.length + extra.length) (by unfold u32Card; omega) []
    rw [List.append_nil] at this
    simp only [words16, List.sum_nil, Nat.add_zero] at this
    rw [List.sum_append, List.sum_append]
    congr 2
    generalize (words16 (zeroWord k data)).sum = A
    generalize (words16 (extra.take (extra.length / 2 * 2))).sum = B
    generalize (words16 (pseudo6 src.octets.toList dst.octets.toList p (data.length + extra.length))).sum = X at *
    generalize (words16 src.octets.toList).sum + (words16 dst.octets.toList).sum + p.toNat +
      (data.length + extra.length) = Y at *
    have hm : X % 65535 = Y % 65535 := by rw [← ocNorm_mod X, ← ocNorm_mod Y, this]
    have hz : X = 0 ↔ Y = 0 := by rw [← ocNorm_zero, ← ocNorm_zero (n := Y), this]
    apply ocNorm_congr <;> omega
  · intro w hw
    simp only [List.mem_append] at hw
    rcases hw with (h | h) | h <;> exact words16_lt _ w h

theorem pseudo4_even (src dst : Ipv4Addr) (p : UInt8) (n : Nat) :
    (pseudo4 src.octets.toList dst.octets.toList p n).length % 2 = 0 := by simp [pseudo4]

theorem pseudo6_even (src dst : Ipv6Addr) (p : UInt8) (n : Nat) :
    (pseudo6 src.octets.toList dst.octets.toList p n).length % 2 = 0 := by simp [pseudo6]

theorem sum_replicate_nat (n a : Nat) : (List.replicate n a).sum = n * a := by
  induction n with
  | zero => simp
  | succ n ih => rw [List.replicate_succ, List.sum_cons, ih, Nat.succ_mul, Nat.add_comm]

theorem words16_ones (n : Nat) : words16 (List.replicate (2 * n) 255) = List.replicate n 65535 := by
  induction n with
  | zero => rfl
  | succ n ih =>
    rw [show 2 * (n + 1) = 2 * n + 1 + 1 by omega, List.replicate_succ, List.replicate_succ,
      List.replicate_succ, words16, ih]
    rfl

theorem zeroWord_past (n : Nat) (b : UInt8) :
    zeroWord n (List.replicate (2 * n) b) = List.replicate (2 * n) b := by
  unfold zeroWord putWord
  rw [List.set_eq_of_length_le (by rw [List.length_set, List.length_replicate]; omega),
    List.set_eq_of_length_le (by rw [List.length_replicate]; omega)]

theorem checksum_ones (m : Mode) (n : Nat) (h : n ≠ 0) :
    checksum m (List.replicate (2 * n) 255) n = (u32res m (n * 65535) >>= finalizeChecksum m) := by
  unfold checksum
  rw [sumBeWords_eq, rawSum_eq, zeroWord_past, words16_ones, sum_replicate_nat,
    if_neg (by rw [List.length_replicate]; omega)]

theorem internetChecksum_ones (n : Nat) :
    internetChecksum (words16 (List.replicate (2 * n) 255)) = 65535 - ocNorm (n * 65535) := by
  unfold internetChecksum
  rw [ocSum_eq _ (words16_lt _), words16_ones, sum_replicate_nat]

theorem ipv4_header_length {m : Mode} {packet : Buf} (h : 20 ≤ packet.length) :
    ipv4.get m packet 1 = .ok (.num ((packet.getD 0 0).toNat % 16)) := by
  rw [Props.C07_fixed_getter_value ipv4 (by decide) 1 _ rfl (by decide) rfl m packet
    ((Props.C06_new_iff ipv4 packet).1.mpr (by rw [show fixedBits ipv4.fields = 160 by decide]; omega))]
  match packet, h with
  | b :: rest, _ =>
    have h1 : bitSlice (bitsOf (b :: rest)) 4 4 = bitSlice (toBits 8 b.toNat) 4 4 := by
      rw [← byteBits_eq_toBits]
      rfl
    have h2 : decodeFixed (bitsOf (b :: rest)) 4 (.prim ⟨4, .big⟩) = .num (b.toNat % 16) := by
      simp only [decodeFixed]
      rw [h1, ofBits_bitSlice_toBits (by decide)]
      simp
    exact congrArg _ h2

theorem verifies {pre : List Nat} {data : Buf} {k c : Nat} (hpre : ∀ w ∈ pre, w < 65536)
    (hk : 2 * k + 2 ≤ data.length) (hc : c = internetChecksum (pre ++ words16 (zeroWord k data))) :
    ocSum (pre ++ words16 (storeWord k c data)) = 65535 := by
  have hall : ∀ d, ∀ w ∈ pre ++ words16 d, w < 65536 := by
    intro d w hw
    rcases List.mem_append.mp hw with h | h
    · exact hpre w h
    · exact words16_lt _ w h
  unfold internetChecksum at hc
  rw [ocSum_eq _ (hall _), List.sum_append] at hc
  rw [ocSum_eq _ (hall _), List.sum_append, sum_storeWord hk (by omega), ← Nat.add_assoc, hc]
  exact ocNorm_complement _

theorem storeWord_take {k c n : Nat} {data : Buf} :
    (storeWord k c data).take n = storeWord k c (data.take n) := by
  unfold storeWord putWord
  rw [List.take_set, List.take_set]

end Verif
