import Verif.Proofs.ChecksumFields

/-! Helper lemmas: which changes of a message the checksum detects. -/

namespace Verif
open Spec

theorem words16_pad (b : Buf) (h : b.length % 2 ≠ 0) : words16 (b ++ [0]) = words16 b := by
  induction b using words16.induct with
  | case1 a b rest ih =>
    simp only [List.length_cons] at h
    simp only [List.cons_append, words16, ih (by omega)]
  | case2 a => simp [words16]
  | case3 => simp at h

theorem pow_65536_mod (n : Nat) : 65536 ^ n % 65535 = 1 := by
  rw [Nat.pow_mod]; simp

theorem words_sum_even (b : Buf) (h : b.length % 2 = 0) : (words16 b).sum % 65535 = beNat b % 65535 := by
  induction b using words16.induct with
  | case1 a b rest ih =>
    simp only [List.length_cons] at h
    have ih := ih (by omega)
    have hp : 256 ^ rest.length % 65535 = 1 := by
      rw [show rest.length = 2 * (rest.length / 2) by omega, Nat.pow_mul]
      exact pow_65536_mod _
    simp only [words16, List.sum_cons, beNat_cons, List.length_cons, Nat.pow_succ]
    rw [show a.toNat * (256 ^ rest.length * 256) + (b.toNat * 256 ^ rest.length + beNat rest) =
      (256 * a.toNat + b.toNat) * 256 ^ rest.length + beNat rest by
        rw [Nat.add_mul, Nat.add_assoc, Nat.mul_comm 256 a.toNat, Nat.mul_assoc, Nat.mul_comm 256]]
    generalize 256 * a.toNat + b.toNat = w
    rw [Nat.add_mod w, ih, Nat.add_mod (w * _), Nat.mul_mod w, hp, Nat.mul_one, Nat.mod_mod]
  | case2 a => simp at h
  | case3 => rfl

theorem words_sum_mod (b : Buf) : (words16 b).sum % 65535 = messageNat b % 65535 := by
  unfold messageNat
  split
  · rename_i h; exact words_sum_even b h
  · rename_i h
    rw [← words16_pad b h]
    exact words_sum_even _ (by rw [List.length_append, List.length_singleton]; omega)

theorem toNat_eq_zero (a : UInt8) : a = 0 ↔ a.toNat = 0 := UInt8.toNat_inj.symm

theorem words_sum_zero (b : Buf) : (words16 b).sum = 0 ↔ ∀ x ∈ b, x = 0 := by
  induction b using words16.induct with
  | case1 a b rest ih =>
    rw [List.forall_mem_cons, List.forall_mem_cons, ← ih, toNat_eq_zero, toNat_eq_zero, words16,
      List.sum_cons]
    omega
  | case2 a =>
    rw [List.forall_mem_singleton, toNat_eq_zero, words16, List.sum_cons, List.sum_nil]
    omega
  | case3 => simp [words16]

theorem checksum_eq_iff (a b : Buf) : internetChecksum (words16 a) = internetChecksum (words16 b) ↔
    messageNat a % 65535 = messageNat b % 65535 ∧ ((∀ x ∈ a, x = 0) ↔ ∀ x ∈ b, x = 0) := by
  unfold internetChecksum
  rw [ocSum_eq _ (words16_lt a), ocSum_eq _ (words16_lt b), ← words_sum_mod, ← words_sum_mod,
    ← words_sum_zero, ← words_sum_zero]
  have h1 := ocNorm_le (words16 a).sum
  have h2 := ocNorm_le (words16 b).sum
  constructor
  · intro h
    have he : ocNorm (words16 a).sum = ocNorm (words16 b).sum := by omega
    exact ⟨by rw [← ocNorm_mod, he, ocNorm_mod], by rw [← ocNorm_zero, he, ocNorm_zero]⟩
  · rintro ⟨h, h0⟩
    rw [ocNorm_congr h h0]

theorem mod_cancel {c x y P : Nat} (hP : Nat.Coprime 65535 P) (hx : x < 65535) (hy : y < 65535)
    (h : (c + x * P) % 65535 = (c + y * P) % 65535) : x = y := by
  have key : ∀ {x y : Nat}, x ≤ y → y < 65535 → (c + x * P) % 65535 = (c + y * P) % 65535 → x = y := by
    intro x y hle hy h
    have h1 := Nat.sub_mod_eq_zero_of_mod_eq h.symm
    have h2 : c + y * P - (c + x * P) = (y - x) * P := by rw [Nat.sub_mul]; omega
    rw [h2] at h1
    have h3 : 65535 ∣ y - x := hP.dvd_of_dvd_mul_right (Nat.dvd_of_mod_eq_zero h1)
    have := Nat.eq_zero_of_dvd_of_lt h3 (by omega)
    omega
  rcases Nat.le_total x y with hle | hle
  · exact key hle hy h
  · exact (key hle hx h.symm).symm

theorem burst_length {n : Nat} {p q : Buf} (h : Burst n p q) : p.length = q.length := by
  obtain ⟨-, a, x, y, b, h1, h2, h3, h4⟩ := h
  have e1 := congrArg List.length h1
  have e2 := congrArg List.length h2
  simp only [bitsOf_length, List.length_append] at e1 e2
  omega

/-- A short burst changes the number modulo 65535. -/
theorem burst_mod {n : Nat} {p q : Buf} (hn : n ≤ 15) (h : Burst n p q) :
    messageNat p % 65535 ≠ messageNat q % 65535 := by
  have hl := burst_length h
  obtain ⟨hne, a, x, y, b, h1, h2, h3, h4⟩ := h
  intro he
  obtain ⟨pad, e1, e2⟩ : ∃ pad, messageNat p = ofBits (bitsOf p ++ pad) ∧
      messageNat q = ofBits (bitsOf q ++ pad) := by
    unfold messageNat
    rw [← hl]
    split
    · exact ⟨[], by rw [List.append_nil, beNat_eq_ofBits], by rw [List.append_nil, beNat_eq_ofBits]⟩
    · exact ⟨bitsOf [0], by rw [← bitsOf_append, beNat_eq_ofBits], by rw [← bitsOf_append, beNat_eq_ofBits]⟩
  rw [e1, e2, h1, h2, List.append_assoc _ b, List.append_assoc _ b] at he
  generalize b ++ pad = b' at he
  have expand : ∀ z : List Bool, z.length = n → ofBits (a ++ z ++ b') =
      ofBits a * 2 ^ n * 2 ^ b'.length + ofBits b' + ofBits z * 2 ^ b'.length := by
    intro z hz
    rw [ofBits_append, ofBits_append, hz, Nat.add_mul]; omega
  rw [expand x h3, expand y h4] at he
  have hb : ∀ z : List Bool, z.length = n → ofBits z < 65535 := by
    intro z hz
    have := ofBits_lt z
    have h15 : 2 ^ z.length ≤ 2 ^ 15 := Nat.pow_le_pow_right (by decide) (by omega)
    omega
  have hxy := mod_cancel (Nat.Coprime.pow_right _ (by decide)) (hb x h3) (hb y h4) he
  have : x = y := by rw [← toBits_ofBits x, ← toBits_ofBits y, hxy, h3, h4]
  exact hne (bitsOf_inj (by rw [h1, h2, this]))

/-- The message sum of a packet that holds its own checksum is a multiple of 65535. -/
theorem holds_mod {pre data : Buf} {k c : Nat} (hpre : pre.length % 2 = 0) (hk : 2 * k + 2 ≤ data.length)
    (hs : storeWord k c data = data)
    (hc : c = internetChecksum (words16 (pre ++ zeroWord k data))) :
    messageNat (pre ++ data) % 65535 = 0 := by
  rw [words16_append _ _ hpre] at hc
  have := verifies (words16_lt pre) hk hc
  rw [hs, ← words16_append _ _ hpre, ocSum_eq _ (words16_lt _)] at this
  rw [← words_sum_mod, ← ocNorm_mod, this]

/-- Getting an aligned 16-bit field: storing the number again changes nothing. -/
theorem get_word {d : Decl} (hacc : d.accepted = true) {k j : Nat} {f : Field}
    (hf : d.fields[k]? = some f) (hty : f.ty = .prim ⟨16, .big⟩)
    (hfix : (d.fields.take (k + 1)).all Props.isFixed = true)
    (hpos : fixedBits (d.fields.take k) = 16 * j) {m : Mode} {buf : Buf} {c : Nat}
    (hnew : (d.newPacket buf).isSome = true) (hget : d.get m buf k = .ok (.num c)) :
    2 * j + 2 ≤ buf.length ∧ storeWord j c buf = buf := by
  have hlen : 2 * j + 2 ≤ buf.length := by
    have h1 := (Props.C06_new_iff d buf).1.mp hnew
    have h2 := bitsSum_field_le hf
    rw [fixedBits_eq] at h1 hpos
    rw [hpos, hty] at h2
    simp only [Ty.bits] at h2
    omega
  refine ⟨hlen, ?_⟩
  rw [Props.C07_fixed_getter_value d hacc k f hf hfix (by rw [hty]; rfl) m buf hnew, hpos,
    hty] at hget
  injection hget with hget
  injection hget with hget
  apply bitsOf_inj
  unfold storeWord
  rw [putWord_eq hlen, bitsOf_append, bitsOf_append, bitsOf_take, bitsOf_drop, bitsOf_two, ← hget]
  have hl : (bitSlice (bitsOf buf) (16 * j) 16).length = 16 := by
    unfold bitSlice
    rw [List.length_take, List.length_drop, bitsOf_length]; omega
  have := toBits_ofBits (bitSlice (bitsOf buf) (16 * j) 16)
  rw [hl] at this
  rw [this, show 8 * (2 * j) = 16 * j by omega, show 8 * (2 * j + 2) = 16 * j + 16 by omega]
  unfold bitSlice
  rw [List.append_assoc, ← List.drop_drop, List.take_append_drop, List.take_append_drop]

theorem perm_ocSum {a b : List Nat} (ha : ∀ w ∈ a, w < 65536) (h : a.Perm b) : ocSum a = ocSum b := by
  rw [ocSum_eq _ ha, ocSum_eq _ (fun w hw => ha w (h.mem_iff.mpr hw)), h.sum_nat]

end Verif
