import Verif.Proofs.MacAddr
import Verif.Proofs.Bits

/-! # Lemmas on the order of MAC addresses -/

namespace Verif
open Spec

theorem lowerHex_lt {i j : Nat} (hi : i < 16) (hj : j < 16) :
    (lowerHex i < lowerHex j ↔ i < j) ∧ (lowerHex i = lowerHex j ↔ i = j) :=
  (by decide : ∀ i, i < 16 → ∀ j, j < 16 →
    ((lowerHex i < lowerHex j ↔ i < j) ∧ (lowerHex i = lowerHex j ↔ i = j))) i hi j hj

theorem fmt02x_lt (x y : UInt8) (l k : List Char) :
    fmt02x x ++ l < fmt02x y ++ k ↔ x.toNat < y.toNat ∨ x.toNat = y.toNat ∧ l < k := by
  have hx := x.toNat_lt
  have hy := y.toNat_lt
  have h1 := lowerHex_lt (i := x.toNat / 16) (j := y.toNat / 16) (by omega) (by omega)
  have h2 := lowerHex_lt (i := x.toNat % 16) (j := y.toNat % 16) (by omega) (by omega)
  simp only [fmt02x, List.cons_append, List.nil_append, List.cons_lt_cons_iff, h1.1, h1.2, h2.1, h2.2]
  by_cases hk : l < k
  · simp only [hk, and_true]; omega
  · simp only [hk, and_false, or_false]; omega

theorem colon_lt (l k : List Char) : ':' :: l < ':' :: k ↔ l < k := by
  simp

theorem beNat_six (a b c d e f : UInt8) : beNat [a, b, c, d, e, f] =
    256 * (256 * (256 * (256 * (256 * a.toNat + b.toNat) + c.toNat) + d.toNat) + e.toNat) + f.toNat := by
  simp [beNat]

theorem lex_step (x y : UInt8) (o : Ordering) (p q n : Nat) (ho : o = compare p q)
    (hp : p < n) (hq : q < n) :
    (match compare x y with | .eq => o | o => o) = compare (x.toNat * n + p) (y.toNat * n + q) := by
  subst ho
  have hc : compare x y = compare x.toNat y.toNat := by
    simp only [compare, compareOfLessAndEq, UInt8.lt_iff_toNat_lt, UInt8.toNat_inj.symm]
  rw [hc]
  rcases Nat.lt_trichotomy x.toNat y.toNat with h | h | h
  · have : x.toNat * n + p < y.toNat * n + q := by
      have := Nat.mul_le_mul_right n (show x.toNat + 1 ≤ y.toNat from h)
      rw [Nat.add_mul] at this; omega
    rw [Nat.compare_eq_lt.2 h, Nat.compare_eq_lt.2 this]
  · rw [h, Nat.compare_eq_eq.2 rfl]
    rcases Nat.lt_trichotomy p q with h' | h' | h'
    · rw [Nat.compare_eq_lt.2 h', Nat.compare_eq_lt.2 (by omega)]
    · rw [Nat.compare_eq_eq.2 h', Nat.compare_eq_eq.2 (by omega)]
    · rw [Nat.compare_eq_gt.2 h', Nat.compare_eq_gt.2 (by omega)]
  · have : y.toNat * n + q < x.toNat * n + p := by
      have := Nat.mul_le_mul_right n (show y.toNat + 1 ≤ x.toNat from h)
      rw [Nat.add_mul] at this; omega
    rw [Nat.compare_eq_gt.2 h, Nat.compare_eq_gt.2 this]

theorem lex_last (x y : UInt8) : compare x y = compare (beNat [x]) (beNat [y]) := by
  simp [compare, compareOfLessAndEq, UInt8.lt_iff_toNat_lt, UInt8.toNat_inj.symm, beNat]

theorem lex_cons (x y : UInt8) (o : Ordering) (p q : Buf) (hl : p.length = q.length)
    (ho : o = compare (beNat p) (beNat q)) :
    (match compare x y with | .eq => o | o => o) = compare (beNat (x :: p)) (beNat (y :: q)) := by
  rw [beNat_cons, beNat_cons, ← hl]
  exact lex_step x y o _ _ _ ho (beNat_lt p) (hl ▸ beNat_lt q)

theorem cmp_number (a b : MacAddr) : a.cmp b = compare (beNat a.toBytes) (beNat b.toBytes) := by
  unfold MacAddr.cmp MacAddr.toBytes
  exact lex_cons _ _ _ _ _ rfl (lex_cons _ _ _ _ _ rfl (lex_cons _ _ _ _ _ rfl
    (lex_cons _ _ _ _ _ rfl (lex_cons _ _ _ _ _ rfl (lex_last _ _)))))

theorem cmp_lt_number (a b : MacAddr) : a.cmp b = .lt ↔ beNat a.toBytes < beNat b.toBytes := by
  rw [cmp_number, Nat.compare_eq_lt]

theorem number_inj {a b : MacAddr} (h : beNat a.toBytes = beNat b.toBytes) : a = b := by
  rcases a with ⟨a0, a1, a2, a3, a4, a5⟩
  rcases b with ⟨b0, b1, b2, b3, b4, b5⟩
  simp only [MacAddr.toBytes, beNat_six] at h
  have := a0.toNat_lt; have := a1.toNat_lt; have := a2.toNat_lt; have := a3.toNat_lt
  have := a4.toNat_lt; have := a5.toNat_lt; have := b0.toNat_lt; have := b1.toNat_lt
  have := b2.toNat_lt; have := b3.toNat_lt; have := b4.toNat_lt; have := b5.toNat_lt
  simp only [MacAddr.mk.injEq, ← UInt8.toNat_inj]
  omega

theorem cmp_eq (a b : MacAddr) : a.cmp b = .eq ↔ a = b := by
  rw [cmp_number, Nat.compare_eq_eq]
  exact ⟨number_inj, fun h => h ▸ rfl⟩

theorem cmp_swap (a b : MacAddr) : b.cmp a = (a.cmp b).swap := by
  rw [cmp_number, cmp_number, Nat.compare_swap]

theorem lt_number (a b : MacAddr) : a.lt b = true ↔ beNat a.toBytes < beNat b.toBytes := by
  rw [← cmp_lt_number]; simp [MacAddr.lt, MacAddr.partialCmp]

theorem le_number (a b : MacAddr) : a.le b = true ↔ beNat a.toBytes ≤ beNat b.toBytes := by
  rw [Nat.le_iff_lt_or_eq, ← cmp_lt_number, ← Nat.compare_eq_eq, ← cmp_number]
  simp [MacAddr.le, MacAddr.partialCmp]

theorem lex_numbers (a b : MacAddr) : beNat a.toBytes < beNat b.toBytes ↔
    a.b0.toNat < b.b0.toNat ∨ a.b0.toNat = b.b0.toNat ∧ (a.b1.toNat < b.b1.toNat ∨
    a.b1.toNat = b.b1.toNat ∧ (a.b2.toNat < b.b2.toNat ∨ a.b2.toNat = b.b2.toNat ∧
    (a.b3.toNat < b.b3.toNat ∨ a.b3.toNat = b.b3.toNat ∧ (a.b4.toNat < b.b4.toNat ∨
    a.b4.toNat = b.b4.toNat ∧ a.b5.toNat < b.b5.toNat)))) := by
  rcases a with ⟨a0, a1, a2, a3, a4, a5⟩
  rcases b with ⟨b0, b1, b2, b3, b4, b5⟩
  simp only [MacAddr.toBytes, beNat_six]
  have := a0.toNat_lt; have := a1.toNat_lt; have := a2.toNat_lt; have := a3.toNat_lt
  have := a4.toNat_lt; have := a5.toNat_lt; have := b0.toNat_lt; have := b1.toNat_lt
  have := b2.toNat_lt; have := b3.toNat_lt; have := b4.toNat_lt; have := b5.toNat_lt
  omega

theorem cmp_bytes (a b : MacAddr) : a.cmp b = .lt ↔ a.toBytes < b.toBytes := by
  rw [cmp_lt_number, lex_numbers]
  simp [MacAddr.toBytes, List.cons_lt_cons_iff, UInt8.lt_iff_toNat_lt, ← UInt8.toNat_inj]

theorem cmp_text (a b : MacAddr) : a.cmp b = .lt ↔ a.display < b.display := by
  rw [cmp_lt_number, lex_numbers]
  have h5 := fmt02x_lt a.b5 b.b5 [] []
  simp only [List.append_nil] at h5
  simp only [MacAddr.display, fmt02x_lt, colon_lt, h5, List.not_lt_nil, and_false, or_false]

end Verif
