import Verif.Model.MacAddr
import Verif.Spec.Text

/-! # Helper lemmas for MAC address text -/

namespace Verif
open Spec

theorem strSplit_ne_nil (c : Char) (s : List Char) : strSplit c s ≠ [] := by
  cases s with
  | nil => simp [strSplit]
  | cons x xs =>
    simp only [strSplit]
    split
    · simp
    · split <;> simp

theorem strSplit_single {c : Char} {w : List Char} (h : c ∉ w) : strSplit c w = [w] := by
  induction w with
  | nil => rfl
  | cons x xs ih =>
    simp only [List.mem_cons, not_or] at h
    simp only [strSplit, if_neg (Ne.symm h.1), ih h.2]

theorem strSplit_cons {c : Char} {w rest : List Char} (h : c ∉ w) :
    strSplit c (w ++ c :: rest) = w :: strSplit c rest := by
  induction w with
  | nil => simp [strSplit]
  | cons x xs ih =>
    simp only [List.mem_cons, not_or] at h
    simp only [List.cons_append, strSplit, if_neg (Ne.symm h.1), ih h.2]

theorem strSplit_components {c : Char} {s : List Char} {comps : List (List Char)}
    (h : Components c s comps) : strSplit c s = comps := by
  obtain ⟨hne, hc, rfl⟩ := h
  induction comps with
  | nil => exact absurd rfl hne
  | cons w ws ih =>
    have hw := hc w (by simp)
    cases ws with
    | nil => simpa [List.intercalate] using strSplit_single hw
    | cons w' ws =>
      have := ih (by simp) (fun x hx => hc x (by simp [hx]))
      rw [show [c].intercalate (w :: w' :: ws) = w ++ c :: [c].intercalate (w' :: ws) by
        simp [List.intercalate, List.intersperse], strSplit_cons hw, this]

theorem components_strSplit (c : Char) (s : List Char) : Components c s (strSplit c s) := by
  induction s with
  | nil => exact ⟨by simp [strSplit], by simp [strSplit], by simp [strSplit, List.intercalate]⟩
  | cons x xs ih =>
    refine ⟨strSplit_ne_nil _ _, ?_, ?_⟩
    · obtain ⟨-, hc, -⟩ := ih
      simp only [strSplit]
      split
      · simpa using hc
      · rename_i hx
        split
        · simpa using Ne.symm hx
        · rename_i w ws hw
          rw [hw] at hc
          simp only [List.mem_cons, forall_eq_or_imp] at hc ⊢
          exact ⟨by simpa using ⟨Ne.symm hx, hc.1⟩, hc.2⟩
    · obtain ⟨hne, -, hs⟩ := ih
      simp only [strSplit]
      split
      · rename_i hx
        subst hx
        cases hsp : strSplit x xs with
        | nil => exact absurd hsp hne
        | cons w ws =>
          rw [hsp] at hs
          conv => lhs; rw [hs]
          simp [List.intercalate, List.intersperse]
      · rename_i hx
        cases hsp : strSplit c xs with
        | nil => exact absurd hsp hne
        | cons w ws =>
          rw [hsp] at hs
          conv => lhs; rw [hs]
          cases ws <;> simp [List.intercalate, List.intersperse]

/-! ## Hexadecimal numbers -/

theorem toDigit16_iff (c : Char) (d : Nat) : toDigit16 c = some d ↔ (c, d) ∈ hexDigits := by
  constructor
  · intro h
    have hc : c = Char.ofNat c.toNat := by simp
    simp only [toDigit16, Char.le_def, UInt32.le_iff_toNat_le] at h
    have key : ∀ n < 128, ∀ d, toDigit16 (Char.ofNat n) = some d → (Char.ofNat n, d) ∈ hexDigits := by
      have : ∀ n < 128, (toDigit16 (Char.ofNat n)).all
          (fun d => decide ((Char.ofNat n, d) ∈ hexDigits)) = true := by decide +kernel
      intro n hn d hd
      have := this n hn
      rw [hd] at this
      simpa using this
    have hlt : c.toNat < 128 := by
      split at h
      · rename_i h1
        exact Nat.lt_of_le_of_lt h1.2 (by decide)
      · split at h
        · rename_i h1
          exact Nat.lt_of_le_of_lt h1.2 (by decide)
        · split at h
          · rename_i h1
            exact Nat.lt_of_le_of_lt h1.2 (by decide)
          · cases h
    have := key c.toNat hlt d (by rw [← hc]; simpa only [toDigit16, Char.le_def, UInt32.le_iff_toNat_le] using h)
    rwa [← hc] at this
  · intro h
    have key : ∀ p ∈ hexDigits, toDigit16 p.1 = some p.2 := by decide +kernel
    exact key (c, d) h

theorem plus_not_digit (d : Nat) : ('+', d) ∉ hexDigits := by
  rw [← toDigit16_iff]
  have : toDigit16 '+' = none := by decide
  rw [this]; simp

theorem minus_not_digit (d : Nat) : ('-', d) ∉ hexDigits := by
  rw [← toDigit16_iff]
  have : toDigit16 '-' = none := by decide
  rw [this]; simp

/-- Digits after a prefix with value `r`. -/
inductive HexFrom : Nat → List Char → Nat → Prop
  | nil {r} : HexFrom r [] r
  | cons {r c d cs v} : (c, d) ∈ hexDigits → HexFrom (16 * r + d) cs v → HexFrom r (c :: cs) v

theorem HexFrom.le {r v : Nat} {cs : List Char} (h : HexFrom r cs v) : r ≤ v := by
  induction h with
  | nil => exact Nat.le_refl _
  | cons _ _ ih => omega

theorem HexFrom.snoc {r v d : Nat} {cs : List Char} {c : Char} (h : HexFrom r cs v)
    (hd : (c, d) ∈ hexDigits) : HexFrom r (cs ++ [c]) (16 * v + d) := by
  induction h with
  | nil => exact .cons hd .nil
  | cons hc _ ih => exact .cons hc ih

theorem HexNum.append {ds cs : List Char} {r v : Nat} (h : HexNum ds r) (h' : HexFrom r cs v) :
    HexNum (ds ++ cs) v := by
  induction h' generalizing ds with
  | nil => rwa [List.append_nil]
  | cons hc _ ih =>
    have := ih (HexNum.snoc h hc)
    rwa [List.append_assoc] at this

theorem hexFrom_iff (cs : List Char) (v : Nat) : HexFrom 0 cs v ↔ HexNum cs v := by
  constructor
  · intro h
    have := HexNum.append .nil h
    rwa [List.nil_append] at this
  · intro h
    induction h with
    | nil => exact .nil
    | snoc _ hd ih => exact ih.snoc hd

theorem radixLoop_iff (r : Nat) (cs : List Char) (v : Nat) (hr : r < 256) :
    radixLoop r cs = some v ↔ HexFrom r cs v ∧ v < 256 := by
  induction cs generalizing r with
  | nil =>
    simp only [radixLoop, Option.some.injEq]
    constructor
    · rintro rfl; exact ⟨.nil, hr⟩
    · rintro ⟨h, -⟩; cases h; rfl
  | cons c cs ih =>
    simp only [radixLoop]
    cases hd : toDigit16 c with
    | none =>
      simp only [reduceCtorEq, false_iff]
      rintro ⟨h, -⟩
      cases h with
      | cons hc _ => rw [← toDigit16_iff, hd] at hc; cases hc
    | some d =>
      simp only []
      have hmem := (toDigit16_iff c d).mp hd
      constructor
      · intro h
        split at h
        · split at h
          · rename_i h2
            obtain ⟨h3, h4⟩ := (ih _ h2).mp h
            exact ⟨.cons hmem (by rwa [Nat.mul_comm] at h3), h4⟩
          · cases h
        · cases h
      · rintro ⟨h, hv⟩
        cases h with
        | cons hc h =>
          rw [← toDigit16_iff, hd, Option.some.injEq] at hc
          subst hc
          have := h.le
          rw [if_pos (by omega), if_pos (by omega)]
          rw [ih _ (by omega), Nat.mul_comm r 16]
          exact ⟨h, hv⟩

theorem radixLoop_num (cs : List Char) (v : Nat) :
    radixLoop 0 cs = some v ↔ HexNum cs v ∧ v < 256 := by
  rw [radixLoop_iff 0 cs v (by decide), hexFrom_iff]

theorem hexNum_head {c : Char} {cs : List Char} {v : Nat} (h : HexNum (c :: cs) v) :
    ∃ d, (c, d) ∈ hexDigits := by
  rw [← hexFrom_iff] at h
  cases h with
  | cons hc _ => exact ⟨_, hc⟩

theorem fromStrRadix16_iff (w : List Char) (v : UInt8) :
    fromStrRadix16 w = some v.toNat ↔ HexU8 w v := by
  have hv := v.toNat_lt
  have plain : ∀ c cs, c ≠ '+' → (radixLoop 0 (c :: cs) = some v.toNat ↔ HexU8 (c :: cs) v) := by
    intro c cs hc
    rw [radixLoop_num]
    constructor
    · rintro ⟨h, -⟩; exact ⟨_, .inl rfl, by simp, h⟩
    · rintro ⟨ds, h1, h2, h3⟩
      rcases h1 with h1 | h1
      · rw [h1]; exact ⟨h3, hv⟩
      · exact absurd (List.cons.inj h1).1 hc
  unfold fromStrRadix16
  split
  · simp only [reduceCtorEq, false_iff]
    rintro ⟨ds, h1, h2, -⟩
    rcases h1 with rfl | h1
    · exact h2 rfl
    · cases h1
  · simp only [reduceCtorEq, false_iff]
    rintro ⟨ds, h1, h2, h3⟩
    rcases h1 with rfl | h1
    · obtain ⟨d, hd⟩ := hexNum_head h3; exact plus_not_digit d hd
    · cases h1; exact h2 rfl
  · simp only [reduceCtorEq, false_iff]
    rintro ⟨ds, h1, h2, h3⟩
    rcases h1 with rfl | h1
    · obtain ⟨d, hd⟩ := hexNum_head h3; exact minus_not_digit d hd
    · cases h1
  · rename_i cs h1 
    rw [radixLoop_num]
    constructor
    · rintro ⟨h, -⟩
      refine ⟨cs, .inr rfl, ?_, h⟩
      rintro rfl; exact h1 rfl
    · rintro ⟨ds, h1 | h1, h2, h3⟩
      · subst h1; obtain ⟨d, hd⟩ := hexNum_head h3; exact absurd hd (plus_not_digit d)
      · cases h1; exact ⟨h3, hv⟩
  · rename_i h1 h2 h3 h4
    match w with
    | [] => exact absurd rfl h1
    | c :: cs =>
      apply plain
      rintro rfl
      exact h4 cs rfl

theorem fromStrRadix16_lt {w : List Char} {n : Nat} (h : fromStrRadix16 w = some n) : n < 256 := by
  unfold fromStrRadix16 at h
  split at h <;> first | cases h | exact ((radixLoop_num _ _).mp h).2

theorem fromStrRadix16_none (w : List Char) :
    fromStrRadix16 w = none ↔ ∀ v, ¬ HexU8 w v := by
  constructor
  · intro h v hv
    rw [← fromStrRadix16_iff, h] at hv; cases hv
  · intro h
    cases hw : fromStrRadix16 w with
    | none => rfl
    | some n =>
      have hn := fromStrRadix16_lt hw
      refine absurd ((fromStrRadix16_iff w (UInt8.ofNat n)).mp ?_) (h _)
      rw [hw, UInt8.toNat_ofNat', Nat.mod_eq_of_lt hn]

theorem macLoop_invalid {i : Nat} {parts : Buf} {comps : List (List Char)} (hi : i ≤ 6)
    (h : ∃ w ∈ comps.take (6 - i), ∀ v, ¬ HexU8 w v) :
    macLoop i parts comps = .error .invalidComponent := by
  induction comps generalizing i parts with
  | nil => simp at h
  | cons w ws ih =>
    have h6 : i ≠ 6 := by
      rintro rfl; simp at h
    simp only [macLoop, if_neg h6]
    cases hw : fromStrRadix16 w with
    | none => rfl
    | some b =>
      simp only []
      split
      · apply ih (by omega)
        rw [show 6 - i = (6 - (i + 1)) + 1 by omega, List.take_succ_cons] at h
        obtain ⟨x, hx, hv⟩ := h
        rcases List.mem_cons.mp hx with rfl | hx
        · rw [(fromStrRadix16_none x).mpr hv] at hw; cases hw
        · exact ⟨x, hx, hv⟩
      · rfl

theorem macLoop_valid {i : Nat} {parts : Buf} {comps : List (List Char)} (hi : i ≤ 6)
    (h : ∀ w ∈ comps.take (6 - i), ∃ v, HexU8 w v) :
    (6 < i + comps.length → macLoop i parts comps = .error .tooManyComponents) ∧
    (i + comps.length ≤ 6 → ∃ parts', macLoop i parts comps = .ok (i + comps.length, parts')) := by
  induction comps generalizing i parts with
  | nil =>
    refine ⟨fun hlt => ?_, fun _ => ⟨parts, rfl⟩⟩
    simp at hlt; omega
  | cons w ws ih =>
    by_cases h6 : i = 6
    · subst h6
      refine ⟨fun _ => by simp [macLoop], fun hle => ?_⟩
      simp at hle
      omega
    · rw [show 6 - i = (6 - (i + 1)) + 1 by omega, List.take_succ_cons] at h
      obtain ⟨v, hv⟩ := h w (by simp)
      have hw := (fromStrRadix16_iff w v).mpr hv
      have hne : w.length ≠ 0 := by
        intro h0
        rw [List.length_eq_zero_iff] at h0
        subst h0; cases hw
      have ih' := ih (i := i + 1) (parts := parts.set i (UInt8.ofNat v.toNat)) (by omega)
        (fun x hx => h x (List.mem_cons_of_mem _ hx))
      simp only [macLoop, if_neg h6, hw, if_pos hne, List.length_cons]
      rw [show i + (ws.length + 1) = i + 1 + ws.length by omega]
      exact ih'

theorem macLoop_six (parts : Buf) (hp : parts.length = 6) (a b c d e f : List Char)
    (v0 v1 v2 v3 v4 v5 : UInt8) (h0 : HexU8 a v0) (h1 : HexU8 b v1) (h2 : HexU8 c v2)
    (h3 : HexU8 d v3) (h4 : HexU8 e v4) (h5 : HexU8 f v5) :
    macLoop 0 parts [a, b, c, d, e, f] = .ok (6, [v0, v1, v2, v3, v4, v5]) := by
  have ne : ∀ w v, HexU8 w v → w ≠ [] := by
    intro w v hv h0
    rw [← fromStrRadix16_iff] at hv
    subst h0; cases hv
  match parts, hp with
  | [p0, p1, p2, p3, p4, p5], _ =>
    simp [macLoop, (fromStrRadix16_iff _ _).mpr h0, (fromStrRadix16_iff _ _).mpr h1,
      (fromStrRadix16_iff _ _).mpr h2, (fromStrRadix16_iff _ _).mpr h3,
      (fromStrRadix16_iff _ _).mpr h4, (fromStrRadix16_iff _ _).mpr h5,
      (ne _ _ h0), (ne _ _ h1),
      (ne _ _ h2), (ne _ _ h3),
      (ne _ _ h4), (ne _ _ h5)]

theorem fmt02x_facts (b : UInt8) : fromStrRadix16 (fmt02x b) = some b.toNat ∧ ':' ∉ fmt02x b := by
  have key : ∀ n < 256, fromStrRadix16 [lowerHex (n / 16), lowerHex (n % 16)] = some n ∧
      ':' ∉ [lowerHex (n / 16), lowerHex (n % 16)] := by decide +kernel
  exact key b.toNat b.toNat_lt

end Verif
