import Verif.Proofs.LengthExpr
import Verif.Props.Macro

/-! # C67, C68: length expressions -/

namespace Verif
open Spec

/-! ## C67 -/

/-- C67: a length expression is rejected exactly when it contains, at any depth, a literal that is
not an integer; the field names do not matter. -/
theorem C67_accepted_iff (names : List String) (tts : List TT) :
    (∃ out, parseLengthExpr names tts = .ok out) ↔ ∀ text, .literal text false ∉ flatten tts :=
  (parseLengthExpr_spec names tts).1

example : (∀ text, .literal text false ∉ flatten [.ident "a", .group .paren [.literal "1" true]]) ∧
    .literal "7.5" false ∈ flatten [.ident "a", .group .paren [.literal "7.5" false]] := by
  constructor
  · intro text h
    have h : Leaf.literal text false ∈ [.ident "a", .opening .paren, .literal "1" true, .closing .paren] := h
    simp at h
  · decide

/-- C67: a length expression that is not accepted is a compile error, not a panic of the macro. -/
theorem C67_rejected_iff (names : List String) (tts : List TT) :
    parseLengthExpr names tts = .error .rejected ↔ ∃ text, .literal text false ∈ flatten tts := by
  have h := C67_accepted_iff names tts
  cases hp : parseLengthExpr names tts with
  | ok out =>
    have := h.mp ⟨out, hp⟩
    exact ⟨fun h => (by cases h), fun ⟨text, ht⟩ => absurd ht (this text)⟩
  | error e =>
    rw [parseLengthExpr_error names tts e hp]
    refine ⟨fun _ => ?_, fun _ => rfl⟩
    apply Classical.byContradiction
    intro hno
    obtain ⟨out, ho⟩ := h.mpr fun text ht => hno ⟨text, ht⟩
    rw [hp] at ho
    cases ho

example : parseLengthExpr [] [.ident "a", .punct '*', .literal "7.5" false] = .error .rejected :=
  (C67_rejected_iff _ _).mpr ⟨"7.5", by decide⟩

/-- C67: the text of a `#[length]` is accepted exactly when it is a sequence of tokens whose literals
are all integers. -/
theorem C67_text (tok : String → Option (List TT)) (s : String) :
    lengthTextOk tok s = true ↔ ∃ tts, tok s = some tts ∧ ∀ text, .literal text false ∉ flatten tts := by
  unfold lengthTextOk
  cases ht : tok s with
  | none => simp
  | some tts =>
    have := C67_accepted_iff [] tts
    simp only [Option.some.injEq, exists_eq_left', ← this]
    cases parseLengthExpr [] tts <;> simp [Except.toOption]

example : lengthTextOk (fun _ => some [.ident "a", .punct '+', .literal "1" true]) "a + 1" = true ∧
    lengthTextOk (fun _ => none) "a + (" = false := by decide +kernel

/-- C67: the processed expression is the original, token for token, with `self.get_x()` in place of
every field name `x`. -/
theorem C67_substitution (names : List String) (tts out : List TT)
    (h : parseLengthExpr names tts = .ok out) :
    flatten out = (flatten tts).flatMap (withGetters names) :=
  (parseLengthExpr_spec names tts).2 out h

example : (parseLengthExpr ["a"] [.group .paren [.ident "a", .punct '+', .ident "b"]]).toOption.map flatten =
    some [.opening .paren, .ident "self", .punct '.', .ident "get_a", .opening .paren,
      .closing .paren, .punct '+', .ident "b", .closing .paren] ∧
    (parseLengthExpr ["a"] [.group .paren [.literal "7.5" false]]).toOption.isSome = false := by
  decide +kernel

/-- C67: in a field's length expression, exactly the names of the other fields stand for their values;
of several `#[length]`s the last counts. -/
theorem C67_field (tok : String → Option (List TT)) (fields : List RawField) (f : RawField) (s : String)
    (tts : List TT) (hs : LastLength f s) (ht : tok s = some tts)
    (hi : ∀ text, .literal text false ∉ flatten tts) (names : List String)
    (hn : ∀ n, n ∈ names ↔ OtherField fields f n) :
    ∃ out, lengthTokens tok fields f = some out ∧
      flatten out = (flatten tts).flatMap (withGetters names) := by
  obtain ⟨out, hp⟩ := (C67_accepted_iff (fieldNames fields f.name) tts).mpr hi
  refine ⟨out, ?_, ?_⟩
  · rw [lengthTokens_last hs, ht]
    simp only [hp, Except.toOption]
  · rw [C67_substitution _ _ _ hp]
    have : withGetters (fieldNames fields f.name) = withGetters names := by
      funext t
      cases t with
      | ident n =>
        have h : n ∈ fieldNames fields f.name ↔ n ∈ names := mem_fieldNames.trans (hn n).symm
        by_cases hm : n ∈ names
        · simp only [withGetters, if_pos hm, if_pos (h.mpr hm)]
        · simp only [withGetters, if_neg hm, if_neg fun h' => hm (h.mp h')]
      | _ => rfl
    rw [this]

/-- `#[length = "n * 2"]` beside a field `n`. -/
example := C67_field (fun _ => some [.ident "n", .punct '*', .literal "2" true])
  [Source.field "n" [] "u8", Source.field "v" [Source.length "n * 2"] "Vec < u8 >"]
  (Source.field "v" [Source.length "n * 2"] "Vec < u8 >") "n * 2" _ ⟨[], [], rfl, by simp⟩ rfl
  (by simp [flatten, leaves]) ["n"] (by
    simp [OtherField, Source.field]
    grind)

/-- C67: a field whose last `#[length]` is not an expression, or has a literal that is not an integer,
has no processed length; nor has a field without `#[length]`. -/
theorem C67_no_length (tok : String → Option (List TT)) (fields : List RawField) (f : RawField) :
    ((∀ s, .nameValue (some "length") (some s) ∉ f.attrs) → lengthTokens tok fields f = none) ∧
    ∀ s, LastLength f s →
      (∀ tts, tok s = some tts → ∃ text, .literal text false ∈ flatten tts) →
      lengthTokens tok fields f = none := by
  constructor
  · intro h
    cases hl : lengthTokens tok fields f with
    | none => rfl
    | some out =>
      obtain ⟨s, _, _, h1, _⟩ := lengthTokens_some hl
      exact absurd h1 (h s)
  · intro s hs h
    rw [lengthTokens_last hs]
    cases ht : tok s with
    | none => rfl
    | some tts =>
      simp only
      cases hp : parseLengthExpr (fieldNames fields f.name) tts with
      | error e => rfl
      | ok out =>
        obtain ⟨text, hm⟩ := h tts ht
        exact absurd hm ((C67_accepted_iff _ _).mp ⟨out, hp⟩ text)

example : LastLength (Source.field "v" [Source.length "n", Source.length "v"] "Vec < u8 >") "v" :=
  ⟨[Source.length "n"], [], rfl, by simp⟩

/-- Full statement of the documented restriction: only field names, constants, integers, `+ - * / %`
and parentheses are accepted. -/
def C67_documented_statement : Prop :=
  ∀ (names : List String) (tts out : List TT), parseLengthExpr names tts = .ok out →
    ∀ t ∈ flatten tts, Documented names t

/-- The documented restriction is not enforced: `a & 1` is accepted. -/
theorem C67_documented_false : ¬ C67_documented_statement := by
  intro h
  have := h ["a"] [.ident "a", .punct '&', .literal "1" true] _ rfl (.punct '&') (by decide +kernel)
  revert this
  simp [Documented]

/-- C67, the part that holds: documented expressions are accepted, and accepted expressions contain
no literals but integers. Missing: other operators, calls, blocks and macros are accepted too. -/
theorem C67_documented_partial (names : List String) (tts : List TT) :
    ((∀ t ∈ flatten tts, Documented names t) → ∃ out, parseLengthExpr names tts = .ok out) ∧
    ∀ out, parseLengthExpr names tts = .ok out →
      ∀ text isInt, .literal text isInt ∈ flatten tts → isInt = true := by
  constructor
  · intro h
    rw [C67_accepted_iff]
    intro text hm
    have := h _ hm
    simp [Documented] at this
  · intro out h text isInt hm
    cases isInt
    · exact absurd hm ((C67_accepted_iff names tts).mp ⟨out, h⟩ text)
    · rfl

example : Documented ["a"] (.ident "a") ∧ Documented ["a"] (.ident "MAX_LEN") := by
  refine ⟨.inl (by simp), .inr ?_⟩
  decide +kernel

/-! ## C68 -/

/-- Full statement of C68: in every declaration the macro accepts, no chain of getter evaluations
goes on for ever. -/
def C68_statement : Prop :=
  ∀ (tok : String → Option (List TT)) (fields : List RawField) (ss : List Shape),
    deriveMacro (lengthTextOk tok) fields = .ok ss →
    ∀ k, Acc (fun j k => Calls tok fields k j) k

/-- A vector whose length is a later field: `#[length = "n"] v: Vec<u8>, n: u8`. -/
def lookAhead : List RawField :=
  [Source.field "v" [Source.length "n"] "Vec < u8 >", Source.field "n" [] "u8"]

/-- The tokens of `n`. -/
def lookAheadTok : String → Option (List TT) := fun s => if s = "n" then some [.ident "n"] else none

/-- C68 is false: the macro accepts `lookAhead`, where `get_n()` evaluates `get_n()`. -/
theorem C68_false : ¬ C68_statement := by
  intro h
  have hd : deriveMacro (lengthTextOk lookAheadTok) lookAhead =
      .ok [⟨"v", .vecPrim ⟨8, .big⟩, false, true⟩, ⟨"n", .prim ⟨8, .big⟩, false, false⟩] := by
    decide +kernel
  have hacc := h lookAheadTok lookAhead _ hd 1
  have hloop : Calls lookAheadTok lookAhead 1 1 :=
    ⟨Source.field "n" [] "u8", "n", rfl, rfl, by decide +kernel⟩
  have key : ∀ k, Acc (fun j k => Calls lookAheadTok lookAhead k j) k →
      ¬ Calls lookAheadTok lookAhead k k := by
    intro k hk
    induction hk with
    | intro k _ ih => exact fun hc => ih k hc hc
  exact key 1 hacc hloop

/-- C68: the getters a getter evaluates are those used in the length expressions of the earlier fields
and, for a vector, in its own. -/
theorem C68_calls_exact (tok : String → Option (List TT)) (fields : List RawField) (k j : Nat) :
    Calls tok fields k j ↔ ∃ g n i f, fields[j]? = some g ∧ g.name = some n ∧
      fields[i]? = some f ∧ LengthUses tok fields f n ∧
      (i < k ∨ (i = k ∧ ∃ inner, parseType (tyToString f.ty) true = .ok (.vector inner))) := by
  have hmem : ∀ n, "get_" ++ n ∈ getterRefs tok fields k ↔ ∃ i f, fields[i]? = some f ∧
      LengthUses tok fields f n ∧
      (i < k ∨ (i = k ∧ ∃ inner, parseType (tyToString f.ty) true = .ok (.vector inner))) := by
    intro n
    unfold getterRefs
    simp only [List.mem_append, List.mem_flatMap, lengthUses_iff]
    constructor
    · rintro (⟨f, hf, hu⟩ | hm)
      · obtain ⟨i, hi, hfi⟩ := List.getElem_of_mem hf
        rw [List.length_take] at hi
        rw [List.getElem_take] at hfi
        exact ⟨i, f, by rw [List.getElem?_eq_getElem (by omega), hfi], hu, .inl (by omega)⟩
      · cases hk : fields[k]? with
        | none => rw [hk] at hm; simp at hm
        | some f =>
          rw [hk] at hm
          simp only at hm
          split at hm
          · rename_i inner hv
            exact ⟨k, f, hk, lengthUses_iff.mp hm, .inr ⟨rfl, inner, hv⟩⟩
          · cases hm
    · rintro ⟨i, f, hf, hu, hi | ⟨rfl, inner, hv⟩⟩
      · obtain ⟨hl, hfi⟩ := List.getElem?_eq_some_iff.mp hf
        refine .inl ⟨f, ?_, hu⟩
        rw [← hfi, List.mem_take_iff_getElem]
        exact ⟨i, by omega, rfl⟩
      · right
        rw [hf]
        simp only [hv]
        exact lengthUses_iff.mpr hu
  constructor
  · rintro ⟨g, n, hg, hn, hm⟩
    obtain ⟨i, f, h1, h2, h3⟩ := (hmem n).mp hm
    exact ⟨g, n, i, f, hg, hn, h1, h2, h3⟩
  · rintro ⟨g, n, i, f, hg, hn, h1, h2, h3⟩
    exact ⟨g, n, hg, hn, (hmem n).mpr ⟨i, f, h1, h2, h3⟩⟩

/-- C68, the part that holds: if length expressions mention earlier fields only, a getter evaluates
getters of earlier fields only, so evaluation ends. Missing: the macro does not check this. -/
theorem C68_look_back_partial (tok : String → Option (List TT)) (fields : List RawField)
    (h : LengthsLookBack tok fields) (k : Nat) :
    (∀ j, Calls tok fields k j → j < k) ∧ Acc (fun j k => Calls tok fields k j) k :=
  ⟨fun _ hj => calls_lt h hj, calls_acc h k⟩

/-- The hypothesis holds of the structs of the crate. -/
example : LengthsLookBack Source.tokens Source.srcTcp :=
  looksBack_sound (by decide +kernel)

/-- C68 holds for every declaration of the crate. -/
theorem C68_crate (e : String × List RawField × Decl) (h : e ∈ crateSources) (k : Nat) :
    (∀ j, Calls Source.tokens e.2.1 k j → j < k) ∧
    Acc (fun j k => Calls Source.tokens e.2.1 k j) k := by
  have key : ∀ e ∈ crateSources, looksBack Source.tokens e.2.1 = true := by decide +kernel
  exact C68_look_back_partial _ _ (looksBack_sound (key e h)) k

example : Calls Source.tokens Source.srcTcp 11 4 :=
  ⟨Source.field "data_offset" [] "u4", "data_offset", rfl, rfl, by decide +kernel⟩

end Verif
