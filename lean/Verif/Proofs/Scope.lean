import Verif.Model.Offsets
import Verif.Proofs.LengthExpr
import Verif.Spec.Offsets

/-!
# Which names the expressions for positions use
-/

namespace Verif
open Spec

theorem identsList_append (a b : List TT) : TT.identsList (a ++ b) = TT.identsList a ++ TT.identsList b := by
  induction a with
  | nil => rfl
  | cons t ts ih => rw [List.cons_append, TT.identsList, TT.identsList, ih, List.append_assoc]

theorem restTokens_self (co : List TT) : "self" ∈ TT.identsList (restTokens co) := by
  simp [restTokens, TT.identsList, TT.idents]

mutual
theorem fill_self (co : List TT) (t : TT) :
    "self" ∈ TT.identsList (t.fill co) ↔ "self" ∈ t.idents ∨ dots ∈ t.idents := by
  cases t with
  | ident n =>
    rw [TT.fill]
    by_cases h : n = "r#field_offset"
    · rw [if_pos h]
      exact ⟨fun _ => .inr (by simp [TT.idents, dots, h]), fun _ => restTokens_self co⟩
    · rw [if_neg h]
      have : dots ≠ n := fun h' => h h'.symm
      simp [TT.identsList, TT.idents, this]
  | punct c => simp [TT.fill, TT.identsList, TT.idents]
  | literal t i => simp [TT.fill, TT.identsList, TT.idents]
  | group d inner =>
    simp only [TT.fill, TT.identsList, TT.idents, List.append_nil]
    exact fillOffset_self co inner

theorem fillOffset_self (co : List TT) (ts : List TT) :
    "self" ∈ TT.identsList (fillOffset co ts) ↔ "self" ∈ TT.identsList ts ∨ dots ∈ TT.identsList ts := by
  cases ts with
  | nil => simp [fillOffset, TT.identsList]
  | cons t ts =>
    rw [fillOffset, identsList_append, TT.identsList]
    simp only [List.mem_append, fill_self co t, fillOffset_self co ts]
    constructor
    · rintro ((h | h) | (h | h)) <;> simp [h]
    · rintro ((h | h) | (h | h)) <;> simp [h]
end

theorem currentOffset_self (bits : Nat) (tss : List (List TT)) :
    "self" ∈ TT.identsList (currentOffset bits tss) ↔ ∃ ts ∈ tss, "self" ∈ TT.identsList ts := by
  unfold currentOffset
  have key : ∀ (tss : List (List TT)) (a : List TT), "self" ∈ TT.identsList (tss.foldl plusTokens a) ↔
      "self" ∈ TT.identsList a ∨ ∃ ts ∈ tss, "self" ∈ TT.identsList ts := by
    intro tss
    induction tss with
    | nil => simp
    | cons ts tss ih =>
      intro a
      rw [List.foldl_cons, ih, plusTokens, identsList_append, TT.identsList]
      simp only [TT.idents, List.nil_append, List.mem_append, List.mem_cons, exists_eq_or_imp, or_assoc]
  rw [key]
  simp [TT.identsList, TT.idents]

theorem getterCall_self (n : String) : "self" ∈ TT.identsList (getterCall n) := by
  simp [getterCall, TT.identsList, TT.idents]

/-- Names that need `self`: `self`, `...` and the fields. -/
def needsSelf (names : List String) (n : String) : Prop := n = "self" ∨ n = dots ∨ n ∈ names

mutual
theorem lengthToken_self (names : List String) (t : TT) (out : List TT) (h : lengthToken names t = .ok out) :
    ("self" ∈ TT.identsList out ∨ dots ∈ TT.identsList out) ↔ ∃ n ∈ t.idents, needsSelf names n := by
  cases t with
  | ident n =>
    rw [lengthToken] at h
    by_cases hn : names.contains n = true
    · rw [if_pos hn] at h
      cases h
      exact ⟨fun _ => ⟨n, by simp [TT.idents], .inr (.inr (by simpa using hn))⟩, fun _ => .inl (getterCall_self n)⟩
    · rw [if_neg hn] at h
      cases h
      have hn' : n ∉ names := by simpa using hn
      simp only [TT.identsList, TT.idents, List.append_nil, List.mem_singleton, exists_eq_left, needsSelf, hn', or_false]
      exact ⟨fun h => h.imp Eq.symm Eq.symm, fun h => h.imp Eq.symm Eq.symm⟩
  | punct c => rw [lengthToken] at h; cases h; simp [TT.identsList, TT.idents]
  | literal text isInt =>
    rw [lengthToken] at h
    split at h
    · cases h; simp [TT.identsList, TT.idents]
    · cases h
  | group d inner =>
    rw [lengthToken] at h
    cases hp : parseLengthExpr names inner with
    | error e => rw [hp] at h; cases h
    | ok tts =>
      rw [hp] at h
      cases h
      simp only [TT.identsList, TT.idents, List.append_nil]
      exact parseLengthExpr_self names inner tts hp

theorem parseLengthExpr_self (names : List String) (ts : List TT) (out : List TT)
    (h : parseLengthExpr names ts = .ok out) :
    ("self" ∈ TT.identsList out ∨ dots ∈ TT.identsList out) ↔ ∃ n ∈ TT.identsList ts, needsSelf names n := by
  cases ts with
  | nil => rw [parseLengthExpr] at h; cases h; simp [TT.identsList]
  | cons t ts =>
    rw [parseLengthExpr] at h
    cases h1 : lengthToken names t with
    | error e => rw [h1] at h; cases h
    | ok o =>
      rw [h1] at h
      simp only at h
      cases h2 : parseLengthExpr names ts with
      | error e => rw [h2] at h; cases h
      | ok os =>
        rw [h2] at h
        cases h
        have i1 := lengthToken_self names t o h1
        have i2 := parseLengthExpr_self names ts os h2
        rw [identsList_append, TT.identsList]
        simp only [List.mem_append, or_and_right, exists_or, ← i1, ← i2]
        constructor
        · rintro ((h | h) | (h | h)) <;> simp [h]
        · rintro ((h | h) | (h | h)) <;> simp [h]
end

theorem packetLength_self (co tokens : List TT) :
    "self" ∈ TT.identsList (packetLength co tokens) ↔ "self" ∈ TT.identsList tokens ∨ dots ∈ TT.identsList tokens := by
  unfold packetLength
  rw [fillOffset_self]
  simp [asUsize, TT.identsList, TT.idents, dots]

theorem steps_self (tok : String → Option (List TT)) (fields : List RawField) (width : RawField → Nat) :
    ∀ (fs : List RawField) (st : Nat × List (List TT)),
      (∃ ts ∈ (fs.foldl (offsetStep tok fields width) st).2, "self" ∈ TT.identsList ts) ↔
        (∃ ts ∈ st.2, "self" ∈ TT.identsList ts) ∨
        ∃ f ∈ fs, ∃ out, lengthTokens tok fields f = some out ∧
          ("self" ∈ TT.identsList out ∨ dots ∈ TT.identsList out)
  | [], st => by simp
  | f :: fs, st => by
    rw [List.foldl_cons, steps_self tok fields width fs, offsetStep]
    cases hl : lengthTokens tok fields f with
    | none => simp [hl]
    | some out =>
      simp only [List.mem_append, or_and_right, exists_or, exists_eq_left, packetLength_self, List.not_mem_nil, false_and,
        exists_false, false_or,
        List.mem_cons, hl, Option.some.injEq, exists_eq_left', or_assoc]

/-- The position of an argument uses `self` if and only if the length of an earlier field does. -/
theorem argOffset_self (tok : String → Option (List TT)) (fields : List RawField) (width : RawField → Nat) (k bits : Nat) :
    "self" ∈ TT.identsList (argOffset tok fields width k bits) ↔
      ∃ f ∈ fields.take k, ∃ out, lengthTokens tok fields f = some out ∧
          ("self" ∈ TT.identsList out ∨ dots ∈ TT.identsList out) := by
  unfold argOffset
  rw [currentOffset_self, steps_self]
  simp

end Verif
