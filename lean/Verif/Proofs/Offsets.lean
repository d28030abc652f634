import Verif.Model.Offsets
import Verif.Spec.Offsets
import Verif.Proofs.LengthGrammar
import Verif.Proofs.LengthExpr

namespace Verif
open Spec

theorem dotsWhole_append (e : Bool) {t : TT} (ht : t.isDots = false) (bs : List TT) (as : List TT) (s : Bool) :
    dotsWhole s e (as ++ t :: bs) =
      (dotsWhole s t.isComma as && t.dotsWhole && dotsWhole t.isComma e bs) := by
  induction as generalizing s with
  | nil => simp [dotsWhole, ht]
  | cons a as ih =>
    have : argumentEnds e (as ++ t :: bs) = argumentEnds t.isComma as := by cases as <;> rfl
    rw [List.cons_append, dotsWhole, ih, this, dotsWhole]
    simp only [Bool.and_assoc]

theorem ne_dots {s e : Bool} (ts : List TT) (h : dotsWhole s e ts = true) (hse : (s && e) = false) :
    ts ≠ [.ident dots] := by
  rintro rfl
  simp [dotsWhole, TT.dotsWhole, TT.isDots, argumentEnds] at h
  simp [h] at hse

theorem fillOffset_append (co : List TT) {as bs : List TT} :
    fillOffset co (as ++ bs) = fillOffset co as ++ fillOffset co bs := by
  induction as with
  | nil => simp [fillOffset]
  | cons a as ih => simp [fillOffset, ih]

/-- `...` replaced by the bytes from a position on. -/
def RExpr.fill (c : RExpr) : RExpr → RExpr
  | .name n => if n = dots then .ref (.rest c) else .name n
  | .int t => .int t
  | .call f x => .call f (RExpr.fill c x)
  | .call0 f => .call0 f
  | .mac f => .mac f
  | .method x f => .method (RExpr.fill c x) f
  | .methodArg x f y => .methodArg (RExpr.fill c x) f (RExpr.fill c y)
  | .field x t => .field (RExpr.fill c x) t
  | .cast x t => .cast (RExpr.fill c x) t
  | .bin op a b => .bin op (RExpr.fill c a) (RExpr.fill c b)
  | .rest x => .rest (RExpr.fill c x)
  | .ref x => .ref (RExpr.fill c x)
  | .ite x a b => .ite (RExpr.fill c x) (RExpr.fill c a) (RExpr.fill c b)

theorem value_fill {α : Type} (I : Meaning α) (c e : RExpr) :
    (RExpr.fill c e).value I = e.value (I.withDots (c.value I)) := by
  induction e with
  | name n =>
    simp only [RExpr.fill, RExpr.value, Meaning.withDots]
    split <;> rfl
  | int t => rfl
  | call f x ih => simp only [RExpr.fill, RExpr.value, ih]; rfl
  | method x f ih => simp only [RExpr.fill, RExpr.value, ih]; rfl
  | cast x t ih => simp only [RExpr.fill, RExpr.value, ih]; rfl
  | bin op a b iha ihb => simp only [RExpr.fill, RExpr.value, iha, ihb]; rfl
  | rest x ih => simp only [RExpr.fill, RExpr.value, ih]; rfl
  | ref x ih => simp only [RExpr.fill, RExpr.value, ih]; rfl
  | call0 f => rfl
  | mac f => rfl
  | methodArg x f y ih ih' => simp only [RExpr.fill, RExpr.value, ih, ih']; rfl
  | field x t ih => simp only [RExpr.fill, RExpr.value, ih]; rfl
  | ite x a b ihx iha ihb => simp only [RExpr.fill, RExpr.value, ihx, iha, ihb]; rfl

theorem fill_dots (co : List TT) : fillOffset co [.ident dots] = restTokens co := by
  simp [fillOffset, TT.fill, dots]

theorem reads_dots {e : RExpr} {l : Nat} (h : Reads l [.ident dots] e) : e = .name dots :=
  rexpr_unique h (reads_lower (.name dots (by decide)) (reads_le h))

theorem reads_restTokens {co : List TT} {c : RExpr} (hc : Reads 1 co c) :
    Reads 9 [.ident "self", .punct '.', .ident "packet",
      .group .bracket [.group .paren co, .punct '.', .punct '.']] (.rest c) := .rest (.paren hc)

theorem fill_ident (co : List TT) {n : String} (hn : n ≠ dots) (ts : List TT) :
    fillOffset co (.ident n :: ts) = .ident n :: fillOffset co ts := by
  simp only [fillOffset, TT.fill]
  rw [if_neg (show n ≠ "r#field_offset" from hn)]
  rfl

theorem reads_fill {co : List TT} {c : RExpr} (hc : Reads 1 co c) {l : Nat} {ts : List TT} {e : RExpr}
    (h : Reads l ts e) {s t : Bool} (hd : dotsWhole s t ts = true) (hw : l ≤ 1 ∨ ts ≠ [.ident dots]) :
    Reads l (fillOffset co ts) (RExpr.fill c e) := by
  induction h generalizing s t with
  | name n hn =>
    have : n ≠ dots := by rintro rfl; simp at hw
    rw [fill_ident co this]
    simp only [RExpr.fill, if_neg this]
    exact .name n hn
  | int text => exact .int text
  | paren h ih =>
    simp only [dotsWhole, TT.dotsWhole, TT.isDots, Bool.and_true, Bool.not_false, Bool.true_or] at hd
    exact .paren (ih hd (.inl (by omega)))
  | call hf h ih =>
    rename_i f _ _
    simp only [dotsWhole, TT.dotsWhole, TT.isDots, TT.isComma, argumentEnds, Bool.and_true, Bool.not_false,
      Bool.true_or, Bool.and_false, Bool.or_false, Bool.true_and, Bool.and_eq_true, Bool.not_eq_true', beq_eq_false_iff_ne] at hd
    rw [fill_ident co hd.1]
    exact .call hf (ih hd.2 (.inl (by omega)))
  | call0 hf =>
    rename_i f
    simp only [dotsWhole, TT.dotsWhole, TT.isDots, TT.isComma, argumentEnds, Bool.and_true, Bool.not_false,
      Bool.true_or, Bool.or_false, Bool.true_and, Bool.not_eq_true', beq_eq_false_iff_ne, Bool.and_false] at hd
    rw [fill_ident co hd]
    exact .call0 hf
  | mac hf =>
    rename_i f
    simp only [dotsWhole, TT.dotsWhole, TT.isDots, TT.isComma, argumentEnds, Bool.and_true, Bool.not_false,
      Bool.true_or, Bool.or_false, Bool.true_and, Bool.not_eq_true', beq_eq_false_iff_ne,
      show ('!' == ',') = false from rfl, Bool.and_false] at hd
    rw [fill_ident co hd]
    exact .mac hf
  | method h ih =>
    rename_i f _ _
    rw [dotsWhole_append _ rfl] at hd
    simp only [dotsWhole, TT.dotsWhole, TT.isDots, TT.isComma, argumentEnds, Bool.and_true, Bool.not_false,
      Bool.true_or, Bool.and_false, Bool.or_false, Bool.true_and, Bool.and_eq_true, Bool.not_eq_true', beq_eq_false_iff_ne] at hd
    rw [fillOffset_append, show ∀ xs, fillOffset co (.punct '.' :: xs) = .punct '.' :: fillOffset co xs from fun _ => rfl,
      fill_ident co hd.2]
    exact .method (ih hd.1 (.inr (ne_dots _ hd.1 (Bool.and_false _))))
  | methodArg h hx ih ihx =>
    rename_i f _ _ _ _
    rw [dotsWhole_append _ rfl] at hd
    simp only [dotsWhole, TT.dotsWhole, TT.isDots, TT.isComma, argumentEnds, Bool.and_true, Bool.not_false,
      Bool.true_or, Bool.and_false, Bool.or_false, Bool.true_and, Bool.and_eq_true, Bool.not_eq_true', beq_eq_false_iff_ne] at hd
    rw [fillOffset_append, show ∀ xs, fillOffset co (.punct '.' :: xs) = .punct '.' :: fillOffset co xs from fun _ => rfl,
      fill_ident co hd.2.1]
    exact .methodArg (ih hd.1 (.inr (ne_dots _ hd.1 (Bool.and_false _)))) (ihx hd.2.2 (.inl (by omega)))
  | field h ih =>
    rw [dotsWhole_append _ rfl] at hd
    simp only [Bool.and_eq_true] at hd
    rw [fillOffset_append]
    exact .field (ih hd.1.1 (.inr (ne_dots _ hd.1.1 (Bool.and_false _))))
  | cast h ih =>
    rename_i ty _ _
    rw [dotsWhole_append _ rfl] at hd
    simp only [dotsWhole, TT.dotsWhole, TT.isDots, TT.isComma, Bool.and_true,
      Bool.false_and, Bool.or_false, Bool.true_and, Bool.and_eq_true, Bool.not_eq_true', beq_eq_false_iff_ne] at hd
    rw [fillOffset_append, fill_ident co (by decide), fill_ident co hd.2]
    exact .cast (ih hd.1 (.inr (ne_dots _ hd.1 (Bool.and_false _))))
  | @bin l op ts us a b ho ha hb iha ihb =>
    rw [dotsWhole_append _ rfl] at hd
    simp only [Bool.and_eq_true] at hd
    have hl := opLevel_lt ho
    rw [fillOffset_append]
    have hz : l = 0 ∨ (TT.punct op).isComma = false := by
      by_cases h0 : op = ','
      · subst h0; simp [opLevel] at ho; omega
      · exact .inr (by simpa [TT.isComma] using h0)
    refine .bin ho (iha hd.1.1 ?_) (ihb hd.2 ?_)
    · exact hz.imp (by omega) fun hz => ne_dots _ hd.1.1 (by simp [hz])
    · exact hz.imp (by omega) fun hz => ne_dots _ hd.2 (by simp [hz])
  | @less op ts us a b ho ha hb iha ihb =>
    rw [dotsWhole_append _ rfl] at hd
    simp only [Bool.and_eq_true] at hd
    have hz : (TT.punct op).isComma = false := by rcases ho with rfl | rfl <;> rfl
    rw [fillOffset_append]
    exact .less ho (iha hd.1.1 (.inr (ne_dots _ hd.1.1 (by simp [hz]))))
      (ihb hd.2 (.inr (ne_dots _ hd.2 (by simp [hz]))))
  | equal ha hb iha ihb =>
    rw [dotsWhole_append _ rfl] at hd
    simp only [dotsWhole, TT.dotsWhole, TT.isDots, TT.isComma, Bool.and_true, Bool.not_false,
      Bool.true_or, Bool.true_and, Bool.and_eq_true] at hd
    rw [fillOffset_append]
    exact .equal (iha hd.1 (.inr (ne_dots _ hd.1 (by simp))))
      (ihb hd.2 (.inr (ne_dots _ hd.2 (by simp))))
  | @rest inner _ h ih =>
    simp only [dotsWhole, TT.dotsWhole, TT.isDots, TT.isComma, argumentEnds, Bool.and_true, Bool.not_false,
      Bool.true_or, Bool.true_and, Bool.and_eq_true] at hd
    have hd' : dotsWhole true true [.group .paren inner] = true := by
      simp only [dotsWhole, TT.dotsWhole, TT.isDots, Bool.and_true, Bool.not_false, Bool.true_or]
      exact hd.2.2
    exact .rest (ih hd' (.inr (by simp)))
  | ref h ih =>
    simp only [dotsWhole, TT.dotsWhole, TT.isDots, TT.isComma, Bool.not_false, Bool.true_or, Bool.true_and,
      show ('&' == ',') = false from rfl] at hd
    exact .ref (ih hd (.inr (ne_dots _ hd rfl)))
  | @ite cs ts us c' a b hcc ha hb ihc iha ihb =>
    have h1 : dotsWhole s t (.ident "if" :: (cs ++ [.group .brace ts, .ident "else", .group .brace us])) =
        dotsWhole false t (cs ++ .group .brace ts :: [.ident "else", .group .brace us]) := by
      rw [dotsWhole]
      rfl
    rw [h1, dotsWhole_append _ rfl] at hd
    have h2 : (dotsWhole (TT.isComma (.group .brace ts)) t [.ident "else", .group .brace us]) =
        dotsWhole true true us := by
      simp only [dotsWhole, TT.dotsWhole]
      simp [TT.isDots, dots]
    rw [h2] at hd
    simp only [Bool.and_eq_true] at hd
    rw [fill_ident co (by decide), fillOffset_append,
      show ∀ d xs ys, fillOffset co (.group d xs :: ys) = .group d (fillOffset co xs) :: fillOffset co ys
        from fun _ _ _ => rfl, fill_ident co (by decide)]
    exact .ite (ihc hd.1.1 (.inr (ne_dots _ hd.1.1 rfl))) (iha hd.1.2 (.inl (by omega)))
      (ihb hd.2 (.inl (by omega)))
  | @up l ts e hl h ih =>
    rcases hw with hw | hw
    · by_cases ht : ts = [.ident dots]
      · subst ht
        cases reads_dots h
        rw [fill_dots]
        simp only [RExpr.fill, if_true]
        exact reads_lower (.ref (reads_restTokens hc)) hw
      · exact .up hl (ih hd (.inr ht))
    · exact .up hl (ih hd (.inr hw))

/-! ## The macro -/

theorem get_ne_dots (n : String) : "get_" ++ n ≠ dots := by
  intro h
  have := congrArg String.toList h
  simp [dots] at this

theorem getterCall_dots (n : String) (s e : Bool) (ts : List TT) :
    dotsWhole s e (getterCall n ++ ts) = dotsWhole false e ts := by
  have := get_ne_dots n
  simp [getterCall, dotsWhole, TT.dotsWhole, TT.isDots, TT.isComma]
  simp [dots] at this ⊢
  exact fun _ => this

mutual
theorem lengthToken_dots {names : List String} (hn : dots ∉ names) : ∀ (t : TT) {out : List TT},
    lengthToken names t = .ok out → t.dotsWhole = true →
    (∃ n, n ≠ dots ∧ t = .ident n ∧ out = getterCall n) ∨
    ∃ t', out = [t'] ∧ t'.isDots = t.isDots ∧ t'.isComma = t.isComma ∧ t'.dotsWhole = true
  | .ident n, out, h, hd => by
    simp only [lengthToken] at h
    split at h
    · rename_i hm
      injection h with h
      subst h
      exact .inl ⟨n, by rintro rfl; exact hn (by simpa using hm), rfl, rfl⟩
    · injection h with h
      subst h
      exact .inr ⟨_, rfl, rfl, rfl, hd⟩
  | .punct c, out, h, hd => by
    simp only [lengthToken] at h
    injection h with h
    subst h
    exact .inr ⟨_, rfl, rfl, rfl, hd⟩
  | .literal t i, out, h, hd => by
    simp only [lengthToken] at h
    split at h
    · injection h with h
      subst h
      exact .inr ⟨_, rfl, rfl, rfl, hd⟩
    · cases h
  | .group d inner, out, h, hd => by
    simp only [lengthToken] at h
    cases hp : parseLengthExpr names inner with
    | error e => rw [hp] at h; cases h
    | ok o =>
      rw [hp] at h
      injection h with h
      subst h
      simp only [TT.dotsWhole] at hd
      exact .inr ⟨_, rfl, rfl, rfl, by simp only [TT.dotsWhole]; exact (parseLengthExpr_dots hn inner hp).1 _ _ hd⟩
theorem parseLengthExpr_dots {names : List String} (hn : dots ∉ names) : ∀ (ts : List TT) {out : List TT},
    parseLengthExpr names ts = .ok out →
    (∀ s e, dotsWhole s e ts = true → dotsWhole s e out = true) ∧
    ∀ e s e', dotsWhole s e' ts = true → argumentEnds e ts = true → argumentEnds e out = true
  | [], out, h => by
    simp only [parseLengthExpr] at h
    injection h with h
    subst h
    exact ⟨fun _ _ h => h, fun _ _ _ _ h => h⟩
  | t :: ts, out, h => by
    rw [parseLengthExpr] at h
    cases ht : lengthToken names t with
    | error e => rw [ht] at h; cases h
    | ok o =>
      cases hp : parseLengthExpr names ts with
      | error e => rw [ht, hp] at h; cases h
      | ok os =>
        rw [ht, hp] at h
        injection h with h
        subst h
        obtain ⟨ih1, ih2⟩ := parseLengthExpr_dots hn ts hp
        refine ⟨fun s e hd => ?_, fun e s e' hd ha => ?_⟩
        · simp only [dotsWhole, Bool.and_eq_true] at hd
          rcases lengthToken_dots hn t ht hd.1.1 with ⟨n, _, rfl, rfl⟩ | ⟨t', rfl, h1, h2, h3⟩
          · rw [getterCall_dots]
            exact ih1 _ _ hd.2
          · simp only [List.singleton_append, dotsWhole, Bool.and_eq_true, h1, h2, h3, true_and]
            refine ⟨?_, ih1 _ _ hd.2⟩
            have := hd.1.2
            simp only [Bool.or_eq_true, Bool.and_eq_true] at this ⊢
            exact this.imp_right fun h => ⟨h.1, ih2 _ _ _ hd.2 h.2⟩
        · simp only [dotsWhole, Bool.and_eq_true] at hd
          rcases lengthToken_dots hn t ht hd.1.1 with ⟨n, _, rfl, rfl⟩ | ⟨t', rfl, h1, h2, h3⟩
          · simp [argumentEnds, TT.isComma] at ha
          · simp only [List.singleton_append, argumentEnds] at ha ⊢
            rw [h2, ha]
end

/-- The length of a field at a position that is the expression `c`. -/
theorem reads_packetLength {co ts : List TT} {c e : RExpr} (hc : Reads 1 co c) (h : Reads 1 ts e)
    (hd : dotsWhole true true ts = true) :
    Reads 7 (packetLength co ts) (.cast (RExpr.fill c e) "usize") := by
  have : dotsWhole true true ([.group .paren ts] ++ [.ident "as", .ident "usize"]) = true := by
    rw [dotsWhole_append _ (by decide)]
    simp only [dotsWhole, TT.dotsWhole, TT.isDots, hd]
    decide
  exact reads_fill hc (l := 7) (ts := [.group .paren ts] ++ [.ident "as", .ident "usize"])
    (.up (by decide) (.cast (.up (by decide) (.paren h)))) this (.inr (by simp))

theorem lengthTokens_is {tok : String → Option (List TT)} {fields : List RawField} {f : RawField}
    {e : RExpr} (has : ∀ k ∈ keywords, k ∉ fieldNames fields f.name) (hdots : dots ∉ fieldNames fields f.name)
    (h : LengthIs tok fields f (some e)) :
    ∃ out, lengthTokens tok fields f = some out ∧
      Reads 1 out (RExpr.subst (fieldNames fields f.name) e) ∧ dotsWhole true true out = true := by
  obtain ⟨s, ts, h1, h2, h3, h4, h5⟩ := h
  obtain ⟨out, h6, h7⟩ := reads_subst has h3 h4
  refine ⟨out, ?_, h7, ?_⟩
  · rw [lengthTokens_last h1, h2]
    simp only [h6]
    rfl
  · exact (parseLengthExpr_dots hdots _ h6).1 _ _ h5

theorem lengthTokens_none {tok : String → Option (List TT)} {fields : List RawField} {f : RawField}
    (h : LengthIs tok fields f none) : lengthTokens tok fields f = none := by
  cases hl : lengthTokens tok fields f with
  | none => rfl
  | some out =>
    obtain ⟨s, _, _, hm, _⟩ := lengthTokens_some hl
    exact absurd hm (h s)

theorem fieldNames_not {fields : List RawField} {n : String} (h : ∀ f ∈ fields, f.name ≠ some n)
    (own : Option String) : n ∉ fieldNames fields own := by
  simp only [fieldNames, List.mem_filter, List.mem_filterMap]
  rintro ⟨⟨f, hf, hn⟩, -⟩
  exact h f hf hn

/-- Tokens that read as sums of terms with given values. -/
inductive ReadsAll : List (List TT) → List RExpr → Prop
  | nil : ReadsAll [] []
  | snoc {ts : List TT} {e : RExpr} {tss : List (List TT)} {es : List RExpr}
      (hs : ReadsAll tss es) (h : Reads 7 ts e) : ReadsAll (tss ++ [ts]) (es ++ [e])

/-- The expression of a position. -/
def sumExpr (bits : Nat) (es : List RExpr) : RExpr :=
  es.foldl (.bin '+') (.int (toString (bits / 8) ++ "usize"))

theorem reads_currentOffset {tss : List (List TT)} {es : List RExpr} (h : ReadsAll tss es) (bits : Nat) :
    Reads 6 (currentOffset bits tss) (sumExpr bits es) := by
  induction h with
  | nil => exact .up (by decide) (.up (by decide) (.up (by decide) (.int _)))
  | snoc _ h ih =>
    simp only [currentOffset, sumExpr, List.foldl_append, List.foldl_cons, List.foldl_nil]
    exact .bin rfl ih h

theorem value_sumExpr {α : Type} (I : Meaning α) (bits : Nat) (es : List RExpr) :
    (sumExpr bits es).value I = position I bits (es.map (·.value I)) := by
  unfold sumExpr position
  rw [show I.int (toString (bits / 8) ++ "usize") = (RExpr.int (toString (bits / 8) ++ "usize")).value I from rfl]
  generalize RExpr.int _ = a
  induction es generalizing a with
  | nil => rfl
  | cons e es ih => exact ih _

/-- The expressions of the lengths. -/
def exprsFrom (fields : List RawField) (width : RawField → Nat) (len : RawField → Option RExpr) :
    (bits : Nat) → (es : List RExpr) → (fs : List RawField) → List RExpr
  | _, es, [] => es
  | bits, es, f :: fs =>
    exprsFrom fields width len (bits + width f)
      (es ++ ((len f).map fun e =>
        .cast (RExpr.fill (sumExpr bits es) (RExpr.subst (fieldNames fields f.name) e)) "usize").toList) fs

theorem exprsFrom_values {α : Type} (I : Meaning α) (fields : List RawField) (width : RawField → Nat)
    (len : RawField → Option RExpr) (fs : List RawField) (bits : Nat) (es : List RExpr) :
    (exprsFrom fields width len bits es fs).map (·.value I) =
      lengthsFrom I fields width len bits (es.map (·.value I)) fs := by
  induction fs generalizing bits es with
  | nil => rfl
  | cons f fs ih =>
    rw [exprsFrom, ih, lengthsFrom]
    congr 1
    cases hl : len f with
    | none => simp
    | some e =>
      simp only [Option.map_some, Option.toList_some, List.map_append, List.map_cons, List.map_nil,
        RExpr.value, value_fill, value_subst, value_sumExpr, lengthValue]

theorem readsAll_step {tok : String → Option (List TT)} {fields : List RawField}
    (has : ∀ k ∈ keywords, ∀ f ∈ fields, f.name ≠ some k) (hdots : ∀ f ∈ fields, f.name ≠ some dots)
    {len : RawField → Option RExpr} (width : RawField → Nat) (fs : List RawField)
    (h : ∀ f ∈ fs, LengthIs tok fields f (len f)) (bits : Nat) (tss : List (List TT)) (es : List RExpr)
    (hr : ReadsAll tss es) :
    (fs.foldl (offsetStep tok fields width) (bits, tss)).1 = bits + (fs.map width).sum ∧
    ReadsAll (fs.foldl (offsetStep tok fields width) (bits, tss)).2
      (exprsFrom fields width len bits es fs) := by
  induction fs generalizing bits tss es with
  | nil => exact ⟨rfl, hr⟩
  | cons f fs ih =>
    have hf := h f List.mem_cons_self
    have h' : ∀ g ∈ fs, LengthIs tok fields g (len g) := fun g hg => h g (List.mem_cons_of_mem _ hg)
    rw [List.foldl_cons, exprsFrom, offsetStep]
    cases hl : len f with
    | none =>
      rw [hl] at hf
      rw [lengthTokens_none hf]
      have := ih h' (bits + width f) tss es hr
      simp only [Option.map_none, Option.toList_none, List.append_nil, List.map_cons, List.sum_cons]
      exact ⟨by rw [this.1]; omega, this.2⟩
    | some e =>
      rw [hl] at hf
      obtain ⟨out, h1, h2, h3⟩ := lengthTokens_is (fun k hk => fieldNames_not (has k hk) _) (fieldNames_not hdots _) hf
      rw [h1]
      have := ih h' (bits + width f) _ _
        (.snoc hr (reads_packetLength (reads_lower (reads_currentOffset hr bits) (by decide)) h2 h3))
      simp only [Option.map_some, Option.toList_some, List.map_cons, List.sum_cons]
      exact ⟨by rw [this.1]; omega, this.2⟩

theorem reads_fieldOffset {tok : String → Option (List TT)} {fields : List RawField}
    (has : ∀ k ∈ keywords, ∀ f ∈ fields, f.name ≠ some k) (hdots : ∀ f ∈ fields, f.name ≠ some dots)
    {len : RawField → Option RExpr} (width : RawField → Nat) (k : Nat)
    (h : ∀ f ∈ fields.take k, LengthIs tok fields f (len f)) :
    ∃ e, Reads 6 (fieldOffset tok fields width k) e ∧
      ∀ (α : Type) (I : Meaning α), e.value I = positionOf I fields width len k := by
  obtain ⟨h1, h2⟩ := readsAll_step has hdots width _ h 0 [] [] .nil
  refine ⟨_, reads_currentOffset h2 _, fun α I => ?_⟩
  rw [value_sumExpr, exprsFrom_values, h1, Nat.zero_add]
  rfl

end Verif
