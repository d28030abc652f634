import Verif.Spec.CodeSize
import Verif.Spec.Macro
import Verif.Model.Offsets
import Verif.Model.Protocols
import Verif.Model.LengthEval
import Verif.Props.Macro
import Verif.Props.CrateLengths

/-!
# C127: the size of the generated expressions

`TT.countAll` (tokens), `TT.dotsAll` (occurrences of `...`) and `structSize` are in `Spec/CodeSize`; `fieldOffset`
is the expression for the position of a field (`Model/Offsets`).
-/

set_option autoImplicit false

namespace Verif.Props
open Spec

/-- **C127** as stated: the expression for a position has at most as many tokens as the square of the size of
the struct. -/
def C127_statement : Prop :=
  ∀ (fields : List RawField) (d : Decl) (width : RawField → Nat) (k : Nat),
    derivePacket (lengthTextOk LengthText.tokenise) true (.struct fields) = .ok (shapes d) →
    TT.countAll (fieldOffset LengthText.tokenise fields width k) ≤ structSize LengthText.tokenise fields ^ 2

theorem countAll_append (a b : List TT) : TT.countAll (a ++ b) = TT.countAll a + TT.countAll b := by
  induction a with
  | nil => simp [TT.countAll]
  | cons t a ih => simp only [List.cons_append, TT.countAll, ih]; omega

theorem count_restTokens (co : List TT) : TT.countAll (restTokens co) = 8 + TT.countAll co := by
  simp [restTokens, TT.countAll, TT.count]; omega

mutual
theorem count_fill (co : List TT) (t : TT) :
    TT.countAll (t.fill co) = t.count + t.dotsCount * (7 + TT.countAll co) := by
  cases t with
  | ident n =>
    by_cases hn : n = dots
    · subst hn
      simp only [TT.fill, show dots = "r#field_offset" from rfl, if_true, count_restTokens, TT.count, TT.dotsCount]
      omega
    · have : n ≠ "r#field_offset" := hn
      simp [TT.fill, this, TT.countAll, TT.count, TT.dotsCount, hn]
  | punct c => simp [TT.fill, TT.countAll, TT.count, TT.dotsCount]
  | literal s i => simp [TT.fill, TT.countAll, TT.count, TT.dotsCount]
  | group d inner =>
    simp only [TT.fill, TT.countAll, TT.count, TT.dotsCount, count_fillOffset co inner]
    omega

theorem count_fillOffset (co ts : List TT) :
    TT.countAll (fillOffset co ts) = TT.countAll ts + TT.dotsAll ts * (7 + TT.countAll co) := by
  cases ts with
  | nil => simp [fillOffset, TT.countAll, TT.dotsAll]
  | cons t ts =>
    rw [fillOffset, countAll_append, count_fill co t, count_fillOffset co ts]
    simp only [TT.countAll, TT.dotsAll, Nat.add_mul]
    omega
end

theorem count_currentOffset (b b' : Nat) (fns : List (List TT)) :
    TT.countAll (currentOffset b fns) = TT.countAll (currentOffset b' fns) := by
  unfold currentOffset
  have : ∀ (fns : List (List TT)) (a a' : List TT), TT.countAll a = TT.countAll a' →
      TT.countAll (fns.foldl plusTokens a) = TT.countAll (fns.foldl plusTokens a') := by
    intro fns
    induction fns with
    | nil => intro a a' h; exact h
    | cons f fns ih =>
      intro a a' h
      refine ih _ _ ?_
      simp only [plusTokens, countAll_append, h]
  exact this fns _ _ (by simp [TT.countAll, TT.count])

theorem currentOffset_snoc (b : Nat) (fns : List (List TT)) (f : List TT) :
    currentOffset b (fns ++ [f]) = plusTokens (currentOffset b fns) f := by
  simp [currentOffset, List.foldl_append]

/-- **C127**: the position of the first field is one token, and every field with a length makes the next
expression longer by the tokens of its length and four more, and by another copy of its own position, in
seven more tokens, for every `...` in it. -/
theorem C127_growth (tok : String → Option (List TT)) (fields : List RawField) (width : RawField → Nat) :
    TT.countAll (fieldOffset tok fields width 0) = 1 ∧
    ∀ (k : Nat) (f : RawField), fields[k]? = some f →
      TT.countAll (fieldOffset tok fields width (k + 1)) = TT.countAll (fieldOffset tok fields width k) +
        match lengthTokens tok fields f with
        | some ts => 4 + TT.countAll ts + TT.dotsAll ts * (7 + TT.countAll (fieldOffset tok fields width k))
        | none => 0 := by
  refine ⟨by simp [fieldOffset, currentOffset, TT.countAll, TT.count], fun k f hf => ?_⟩
  obtain ⟨hk, rfl⟩ := List.getElem?_eq_some_iff.mp hf
  simp only [fieldOffset]
  rw [List.take_succ_eq_append_getElem hk, List.foldl_append]
  generalize (fields.take k).foldl (offsetStep tok fields width) (0, []) = st
  simp only [List.foldl_cons, List.foldl_nil, offsetStep]
  cases lengthTokens tok fields fields[k] with
  | none => simp only [Nat.add_zero]; exact count_currentOffset _ _ _
  | some ts =>
    simp only
    rw [currentOffset_snoc, plusTokens, countAll_append, count_currentOffset _ st.1]
    simp only [TT.countAll, TT.count, packetLength, count_fillOffset, asUsize, TT.dotsAll, TT.dotsCount,
      show ("as" = dots) = False by simp [dots], show ("usize" = dots) = False by simp [dots], if_false, Nat.add_zero]
    omega

/-- **C127** without `...`: the size is the sum of the lengths and four for each. -/
theorem C127_linear_partial (tok : String → Option (List TT)) (fields : List RawField) (width : RawField → Nat)
    (h : ∀ f ∈ fields, usesDots tok fields f = false) (k : Nat) (hk : k ≤ fields.length) :
    TT.countAll (fieldOffset tok fields width k) =
      1 + ((fields.take k).map fun f => if (lengthTokens tok fields f).isSome then 4 + lengthSize tok fields f else 0).sum := by
  induction k with
  | zero => simpa using (C127_growth tok fields width).1
  | succ k ih =>
    have hf : fields[k]? = some (fields[k]'(by omega)) := List.getElem?_eq_getElem (by omega)
    rw [(C127_growth tok fields width).2 k _ hf, ih (by omega), List.take_succ_eq_append_getElem (by omega)]
    have hd := h _ (List.mem_of_getElem? hf)
    simp only [List.map_append, List.sum_append, List.map_cons, List.map_nil, List.sum_cons, List.sum_nil, lengthSize]
    simp only [usesDots] at hd
    cases hl : lengthTokens tok fields fields[k] with
    | none => simp
    | some ts =>
      rw [hl] at hd
      have h0 : TT.dotsAll ts = 0 := by simpa using hd
      simp [h0]
      omega

/-- **C127**: the expression for a position has at least `2 ^ n` tokens if `n` fields before it use `...`. -/
theorem C127_doubles (tok : String → Option (List TT)) (fields : List RawField) (width : RawField → Nat) (k : Nat)
    (hk : k ≤ fields.length) :
    2 ^ (fields.take k).countP (usesDots tok fields) ≤ TT.countAll (fieldOffset tok fields width k) := by
  induction k with
  | zero => simp [(C127_growth tok fields width).1]
  | succ k ih =>
    have hf : fields[k]? = some (fields[k]'(by omega)) := List.getElem?_eq_getElem (by omega)
    have h1 := ih (by omega)
    rw [(C127_growth tok fields width).2 k _ hf, List.take_succ_eq_append_getElem (by omega), List.countP_append]
    cases hl : lengthTokens tok fields fields[k] with
    | none => simp [usesDots, hl]; exact h1
    | some ts =>
      simp only [List.countP_cons, List.countP_nil, usesDots, hl, decide_eq_true_eq]
      split
      · rename_i hd
        have : 7 + TT.countAll (fieldOffset tok fields width k) ≤
            TT.dotsAll ts * (7 + TT.countAll (fieldOffset tok fields width k)) := Nat.le_mul_of_pos_left _ hd
        rw [Nat.pow_add]
        omega
      · simp
        omega

/-- Six fields of the length `f(...)` and a payload. -/
def dottedFields : List RawField :=
  (["a", "b", "c", "d", "e", "g"].map fun n => Source.field n [Source.length "f(...)"] "Vec < u8 >") ++
  [Source.field "payload" [Source.payload] "Vec < u8 >"]

/-- The same as a declaration; what `f` computes does not matter here. -/
def dottedDecl : Decl :=
  ⟨(["a", "b", "c", "d", "e", "g"].map fun n => fbytes n (lenNum 0 id)) ++ [fpayloadRest "payload"]⟩

/-- C127 is false: for a struct of seven fields the macro writes a position of 946 tokens. -/
theorem C127_false : ¬ C127_statement := by
  intro h
  have := h dottedFields dottedDecl (fun _ => 0) 6 (by decide +kernel)
  exact absurd this (by decide +kernel)

theorem count_width (tok : String → Option (List TT)) (fields : List RawField) (w w' : RawField → Nat) (k : Nat) :
    TT.countAll (fieldOffset tok fields w k) = TT.countAll (fieldOffset tok fields w' k) := by
  induction k with
  | zero => rw [(C127_growth tok fields w).1, (C127_growth tok fields w').1]
  | succ k ih =>
    cases hf : fields[k]? with
    | some f => rw [(C127_growth tok fields w).2 k f hf, (C127_growth tok fields w').2 k f hf, ih]
    | none =>
      have hk : fields.length ≤ k := List.getElem?_eq_none_iff.mp hf
      have : ∀ v : RawField → Nat, fieldOffset tok fields v (k + 1) = fieldOffset tok fields v k := by
        intro v
        simp only [fieldOffset]
        rw [List.take_of_length_le hk, List.take_of_length_le (by omega : fields.length ≤ k + 1)]
      rw [this, this, ih]

theorem crate_sizes : (crateSources.all fun e => (List.range (e.2.1.length + 1)).all fun k =>
    decide (TT.countAll (fieldOffset LengthText.tokenise e.2.1 (fun _ => 0) k) ≤
      structSize LengthText.tokenise e.2.1 ^ 2)) = true := by
  decide +kernel

/-- **C127** for the crate: no position of a field, nor the end of the last one, has more tokens than the square
of the size of its struct. -/
theorem C127_crate_partial (e : String × List RawField × Decl) (he : e ∈ crateSources) (width : RawField → Nat)
    (k : Nat) :
    TT.countAll (fieldOffset LengthText.tokenise e.2.1 width k) ≤ structSize LengthText.tokenise e.2.1 ^ 2 := by
  have h := List.all_eq_true.mp crate_sizes e he
  rw [count_width _ _ width (fun _ => 0)]
  by_cases hk : k ≤ e.2.1.length
  · exact of_decide_eq_true (List.all_eq_true.mp h k (List.mem_range.mpr (by omega)))
  · have : fieldOffset LengthText.tokenise e.2.1 (fun _ => 0) k =
        fieldOffset LengthText.tokenise e.2.1 (fun _ => 0) e.2.1.length := by
      simp only [fieldOffset]
      rw [List.take_of_length_le (by omega : e.2.1.length ≤ k), List.take_of_length_le (Nat.le_refl _)]
    rw [this]
    exact of_decide_eq_true (List.all_eq_true.mp h _ (List.mem_range.mpr (by omega)))

/-- The largest is that of `Ack`, of 978 tokens. -/
theorem C127_ack (width : RawField → Nat) :
    TT.countAll (fieldOffset LengthText.tokenise Source.srcQuicAck width 8) = 978 := by
  rw [count_width _ _ width (fun _ => 0)]
  decide +kernel

/-- No length of `Ipv4` uses `...`. -/
example := C127_linear_partial LengthText.tokenise Source.srcIpv4 (fun _ => 0) (by decide +kernel) 14 (by decide)

/-- Six fields before the payload use `...`. -/
example : 64 ≤ TT.countAll (fieldOffset LengthText.tokenise dottedFields (fun _ => 0) 6) := by
  have := C127_doubles LengthText.tokenise dottedFields (fun _ => 0) 6 (by decide)
  rwa [show (dottedFields.take 6).countP (usesDots LengthText.tokenise dottedFields) = 6 by decide +kernel] at this

/-- A field with `...` and one without a length. -/
example := (C127_growth LengthText.tokenise dottedFields (fun _ => 0)).2 5
  (Source.field "g" [Source.length "f(...)"] "Vec < u8 >") rfl

end Verif.Props
