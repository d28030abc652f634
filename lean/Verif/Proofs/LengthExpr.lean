import Verif.Spec.LengthExpr
import Verif.Proofs.Parse

/-! # Helper lemmas about length expressions -/

namespace Verif
open Spec

theorem flatten_append (a b : List TT) : flatten (a ++ b) = flatten a ++ flatten b := by
  induction a with
  | nil => simp [flatten]
  | cons t ts ih => simp [flatten, ih]

theorem flatten_getterCall (n : String) : flatten (getterCall n) =
    [.ident "self", .punct '.', .ident ("get_" ++ n), .opening .paren, .closing .paren] := by
  simp [getterCall, flatten, leaves]

mutual
theorem lengthToken_spec (names : List String) : (t : TT) →
    ((∃ out, lengthToken names t = .ok out) ↔ ∀ text, .literal text false ∉ leaves t) ∧
    ∀ out, lengthToken names t = .ok out → flatten out = (leaves t).flatMap (withGetters names)
  | .ident n => by
    constructor
    · simp only [lengthToken, leaves]
      constructor
      · intro _ text h
        simp at h
      · intro _; split <;> exact ⟨_, rfl⟩
    · intro out h
      simp only [lengthToken] at h
      split at h
      · rename_i hn
        cases h
        simp [flatten_getterCall, leaves, withGetters, List.contains_iff_mem.mp hn]
      · rename_i hn
        cases h
        have : n ∉ names := fun hm => hn (List.contains_iff_mem.mpr hm)
        simp [flatten, leaves, withGetters, this]
  | .punct c => by
    constructor
    · simp [lengthToken, leaves]
    · intro out h
      cases h
      simp [flatten, leaves, withGetters]
  | .literal text isInt => by
    constructor
    · cases isInt <;> simp [lengthToken, leaves]
    · intro out h
      cases isInt
      · simp [lengthToken] at h
      · simp only [lengthToken, if_true] at h
        cases h
        simp [flatten, leaves, withGetters]
  | .group d inner => by
    obtain ⟨h1, h2⟩ := parseLengthExpr_spec names inner
    constructor
    · simp only [lengthToken, leaves, List.mem_cons, List.mem_append]
      cases hp : parseLengthExpr names inner with
      | error e =>
        simp only [reduceCtorEq, exists_false, false_iff]
        rw [hp] at h1
        simp only [reduceCtorEq, exists_false, false_iff] at h1
        intro h
        exact h1 fun text hm => h text (.inr (.inl hm))
      | ok out =>
        rw [hp] at h1
        have := h1.mp ⟨_, rfl⟩
        simp only [Except.ok.injEq, exists_eq', true_iff]
        intro text h
        rcases h with h | h | h | h
        · cases h
        · exact this text h
        · cases h
        · cases h
    · intro out h
      simp only [lengthToken] at h
      cases hp : parseLengthExpr names inner with
      | error e => rw [hp] at h; cases h
      | ok inner' =>
        rw [hp] at h
        cases h
        simp [flatten, leaves, h2 _ hp, withGetters]

theorem parseLengthExpr_spec (names : List String) : (tts : List TT) →
    ((∃ out, parseLengthExpr names tts = .ok out) ↔ ∀ text, .literal text false ∉ flatten tts) ∧
    ∀ out, parseLengthExpr names tts = .ok out →
      flatten out = (flatten tts).flatMap (withGetters names)
  | [] => by
    constructor
    · simp [parseLengthExpr, flatten]
    · intro out h
      cases h
      simp [flatten]
  | t :: ts => by
    obtain ⟨h1, h2⟩ := lengthToken_spec names t
    obtain ⟨h3, h4⟩ := parseLengthExpr_spec names ts
    constructor
    · simp only [parseLengthExpr, flatten, List.mem_append, not_or]
      cases hp : lengthToken names t with
      | error e =>
        rw [hp] at h1
        simp only [reduceCtorEq, exists_false, false_iff] at h1 ⊢
        intro h
        exact h1 fun text => (h text).1
      | ok out =>
        rw [hp] at h1
        have g1 := h1.mp ⟨_, rfl⟩
        cases hq : parseLengthExpr names ts with
        | error e =>
          rw [hq] at h3
          simp only [reduceCtorEq, exists_false, false_iff] at h3 ⊢
          intro h
          exact h3 fun text => (h text).2
        | ok outs =>
          rw [hq] at h3
          have g3 := h3.mp ⟨_, rfl⟩
          simp only [Except.ok.injEq, exists_eq', true_iff]
          exact fun text => ⟨g1 text, g3 text⟩
    · intro out h
      simp only [parseLengthExpr] at h
      cases hp : lengthToken names t with
      | error e => rw [hp] at h; cases h
      | ok o =>
        rw [hp] at h
        simp only at h
        cases hq : parseLengthExpr names ts with
        | error e => rw [hq] at h; cases h
        | ok os =>
          rw [hq] at h
          cases h
          simp [flatten_append, flatten, h2 _ hp, h4 _ hq]
end

mutual
theorem mem_idents (n : String) : (t : TT) → (n ∈ t.idents ↔ .ident n ∈ leaves t)
  | .ident m => by simp [TT.idents, leaves]
  | .punct c => by simp [TT.idents, leaves]
  | .literal text i => by simp [TT.idents, leaves]
  | .group d inner => by
    have := mem_identsList n inner
    simp [TT.idents, leaves, this]

theorem mem_identsList (n : String) : (ts : List TT) → (n ∈ TT.identsList ts ↔ .ident n ∈ flatten ts)
  | [] => by simp [TT.identsList, flatten]
  | t :: ts => by
    have h1 := mem_idents n t
    have h2 := mem_identsList n ts
    simp [TT.identsList, flatten, h1, h2]
end

theorem get_inj {a b : String} (h : "get_" ++ a = "get_" ++ b) : a = b := by
  have : ("get_" ++ a).toList = ("get_" ++ b).toList := by rw [h]
  simp only [String.toList_append, List.append_cancel_left_eq] at this
  exact String.toList_injective this

theorem get_ne_self (a : String) : "get_" ++ a ≠ "self" := by
  intro h
  have : ("get_" ++ a).toList = "self".toList := by rw [h]
  simp only [String.toList_append] at this
  rw [show "get_".toList = ['g', 'e', 't', '_'] by decide +kernel,
    show "self".toList = ['s', 'e', 'l', 'f'] by decide +kernel] at this
  simp at this

/-- A getter named in a processed expression is spelled out in the original, or its field is. -/
theorem getter_mem {names : List String} {tts out : List TT} {n : String}
    (h : parseLengthExpr names tts = .ok out) (hm : .ident ("get_" ++ n) ∈ flatten out) :
    .ident n ∈ flatten tts ∨ .ident ("get_" ++ n) ∈ flatten tts := by
  rw [(parseLengthExpr_spec names tts).2 out h, List.mem_flatMap] at hm
  obtain ⟨l, hl, hw⟩ := hm
  cases l with
  | ident m =>
    simp only [withGetters] at hw
    split at hw
    · simp only [List.mem_cons, Leaf.ident.injEq, reduceCtorEq, List.not_mem_nil, or_false,
        false_or] at hw
      rcases hw with hw | hw
      · exact absurd hw (get_ne_self n)
      · exact .inl (get_inj hw ▸ hl)
    · simp only [List.mem_singleton, Leaf.ident.injEq] at hw
      exact .inr (hw ▸ hl)
  | _ => simp [withGetters] at hw

theorem lengthTokens_some {tok : String → Option (List TT)} {fields : List RawField} {f : RawField}
    {out : List TT} (h : lengthTokens tok fields f = some out) :
    ∃ s tts names, .nameValue (some "length") (some s) ∈ f.attrs ∧ tok s = some tts ∧
      parseLengthExpr names tts = .ok out := by
  unfold lengthTokens at h
  generalize fieldNames fields f.name = names at h
  have key : ∀ (attrs : List Meta) (acc : Option (List TT)),
      attrs.foldl (fun acc m => match m with
        | .nameValue (some "length") (some s) =>
          match tok s with
          | some tts => (parseLengthExpr names tts).toOption
          | none => none
        | _ => acc) acc = some out →
      acc = some out ∨ ∃ s tts, .nameValue (some "length") (some s) ∈ attrs ∧ tok s = some tts ∧
        parseLengthExpr names tts = .ok out := by
    intro attrs
    induction attrs with
    | nil => intro acc h; exact .inl h
    | cons m ms ih =>
      intro acc h
      rw [List.foldl_cons] at h
      rcases ih _ h with hm | ⟨s, tts, h1, h2, h3⟩
      · split at hm
        · rename_i s
          split at hm
          · rename_i tts ht
            right
            refine ⟨s, tts, List.mem_cons_self, ht, ?_⟩
            cases hp : parseLengthExpr names tts with
            | error e => rw [hp] at hm; cases hm
            | ok o => rw [hp] at hm; cases hm; rfl
          · cases hm
        · exact .inl hm
      · exact .inr ⟨s, tts, List.mem_cons_of_mem _ h1, h2, h3⟩
  rcases key f.attrs none h with h | ⟨s, tts, h1, h2, h3⟩
  · cases h
  · exact ⟨s, tts, names, h1, h2, h3⟩

theorem mem_fieldNames {fields : List RawField} {f : RawField} {n : String} :
    n ∈ fieldNames fields f.name ↔ OtherField fields f n := by
  simp only [fieldNames, OtherField, List.mem_filter, List.mem_filterMap, decide_eq_true_eq]

/-- Only the last length attribute counts. -/
theorem lengthTokens_last {tok : String → Option (List TT)} {fields : List RawField} {f : RawField}
    {s : String} (h : LastLength f s) : lengthTokens tok fields f =
      match tok s with
      | some tts => (parseLengthExpr (fieldNames fields f.name) tts).toOption
      | none => none := by
  obtain ⟨before, after, ha, hn⟩ := h
  unfold lengthTokens
  rw [ha, List.foldl_append, List.foldl_cons]
  have key : ∀ (g : Option (List TT) → Meta → Option (List TT)) (l : List Meta) acc,
      (∀ m ∈ l, ∀ acc, g acc m = acc) → l.foldl g acc = acc := by
    intro g l
    induction l with
    | nil => intros; rfl
    | cons m ms ih =>
      intro acc h
      rw [List.foldl_cons, h m List.mem_cons_self]
      exact ih acc fun m' hm' => h m' (List.mem_cons_of_mem _ hm')
  rw [key]
  · rfl
  · intro m hm acc
    split
    · exact absurd hm (hn _)
    · rfl

/-- A field has a last length attribute or none. -/
theorem lastLength_or (f : RawField) : (∃ s, LastLength f s) ∨
    ∀ t, .nameValue (some "length") (some t) ∉ f.attrs := by
  have key : ∀ l : List Meta, (∃ s before after, l = before ++ .nameValue (some "length") (some s) :: after ∧
      ∀ t, Meta.nameValue (some "length") (some t) ∉ after) ∨
      ∀ t, Meta.nameValue (some "length") (some t) ∉ l := by
    intro l
    induction l with
    | nil => right; intro t h; cases h
    | cons m ms ih =>
      rcases ih with ⟨s, b, a, h1, h2⟩ | h
      · left; exact ⟨s, m :: b, a, by rw [h1]; rfl, h2⟩
      · by_cases hm : ∃ s, m = .nameValue (some "length") (some s)
        · obtain ⟨s, rfl⟩ := hm
          left; exact ⟨s, [], ms, rfl, h⟩
        · right
          intro t ht
          rcases List.mem_cons.mp ht with rfl | ht
          · exact hm ⟨t, rfl⟩
          · exact h t ht
  exact key f.attrs

/-- The getters in the processed length expression of a field. -/
theorem lengthUses_iff {tok : String → Option (List TT)} {fields : List RawField} {f : RawField}
    {n : String} : "get_" ++ n ∈ TT.identsList ((lengthTokens tok fields f).getD []) ↔
      LengthUses tok fields f n := by
  constructor
  · intro hm
    rcases lastLength_or f with ⟨s, hs⟩ | hno
    · rw [lengthTokens_last hs] at hm
      cases ht : tok s with
      | none => rw [ht] at hm; simp [TT.identsList] at hm
      | some tts =>
        rw [ht] at hm
        simp only at hm
        cases hp : parseLengthExpr (fieldNames fields f.name) tts with
        | error e => rw [hp] at hm; simp [Except.toOption, TT.identsList] at hm
        | ok out =>
          rw [hp] at hm
          simp only [Except.toOption, Option.getD_some, mem_identsList] at hm
          refine ⟨s, tts, hs, ht, (parseLengthExpr_spec _ tts).1.mp ⟨_, hp⟩, ?_⟩
          rw [(parseLengthExpr_spec _ tts).2 out hp, List.mem_flatMap] at hm
          obtain ⟨l, hl, hw⟩ := hm
          cases l with
          | ident m =>
            simp only [withGetters] at hw
            split at hw
            · rename_i hmem
              simp only [List.mem_cons, Leaf.ident.injEq, reduceCtorEq, List.not_mem_nil, or_false,
                false_or] at hw
              rcases hw with hw | hw
              · exact absurd hw (get_ne_self n)
              · have := get_inj hw
                subst this
                exact .inl ⟨hl, mem_fieldNames.mp hmem⟩
            · rename_i hmem
              simp only [List.mem_singleton, Leaf.ident.injEq] at hw
              subst hw
              exact .inr ⟨hl, fun h => hmem (mem_fieldNames.mpr h)⟩
          | _ => simp [withGetters] at hw
    · cases hl : lengthTokens tok fields f with
      | none => rw [hl] at hm; simp [TT.identsList] at hm
      | some out =>
        obtain ⟨s, _, _, h1, _⟩ := lengthTokens_some hl
        exact absurd h1 (hno s)
  · rintro ⟨s, tts, hs, ht, hacc, hu⟩
    obtain ⟨out, hp⟩ := (parseLengthExpr_spec (fieldNames fields f.name) tts).1.mpr hacc
    rw [lengthTokens_last hs, ht]
    simp only [hp, Except.toOption, Option.getD_some, mem_identsList]
    rw [(parseLengthExpr_spec _ tts).2 out hp, List.mem_flatMap]
    rcases hu with ⟨h1, h2⟩ | ⟨h1, h2⟩
    · refine ⟨_, h1, ?_⟩
      simp only [withGetters]
      rw [if_pos (mem_fieldNames.mpr h2)]
      simp
    · refine ⟨_, h1, ?_⟩
      simp only [withGetters]
      rw [if_neg fun h => h2 (mem_fieldNames.mp h)]
      simp

/-- Decision procedure for `LengthsLookBack`. -/
def looksBack (tok : String → Option (List TT)) : List RawField → Bool
  | [] => true
  | f :: fs =>
    (f.attrs.all fun m => match m with
      | .nameValue (some "length") (some s) =>
        match tok s with
        | some tts => (f :: fs).all fun g =>
          match g.name with
          | some n => !(flatten tts).contains (.ident n) && !(flatten tts).contains (.ident ("get_" ++ n))
          | none => true
        | none => true
      | _ => true) && looksBack tok fs

theorem looksBack_sound {tok : String → Option (List TT)} {fields : List RawField}
    (h : looksBack tok fields = true) : LengthsLookBack tok fields := by
  induction fields with
  | nil => intro i j f g s n tts hf; cases hf
  | cons f0 fs ih =>
    simp only [looksBack, Bool.and_eq_true, List.all_eq_true] at h
    obtain ⟨h1, h2⟩ := h
    intro i j f g s n tts hf hs ht hg hn hij
    cases i with
    | zero =>
      cases hf
      have := h1 _ hs
      simp only [ht, List.all_eq_true] at this
      have := this g (List.mem_of_getElem? hg)
      simpa [hn] using this
    | succ i =>
      cases j with
      | zero => omega
      | succ j => exact ih h2 i j f g s n tts (by simpa using hf) hs ht (by simpa using hg) hn (by omega)

theorem calls_lt {tok : String → Option (List TT)} {fields : List RawField}
    (h : LengthsLookBack tok fields) {k j : Nat} (hc : Calls tok fields k j) : j < k := by
  obtain ⟨g, n, hg, hn, hm⟩ := hc
  have key : ∀ i f, fields[i]? = some f →
      "get_" ++ n ∈ TT.identsList ((lengthTokens tok fields f).getD []) → j < i := by
    intro i f hf hm
    cases hl : lengthTokens tok fields f with
    | none => rw [hl] at hm; simp [TT.identsList] at hm
    | some out =>
      rw [hl] at hm
      simp only [Option.getD_some, mem_identsList] at hm
      obtain ⟨s, tts, names, h1, h2, h3⟩ := lengthTokens_some hl
      refine Nat.lt_of_not_le fun hij => ?_
      have := h i j f g s n tts hf h1 h2 hg hn hij
      rcases getter_mem h3 hm with hx | hx
      · exact this.1 hx
      · exact this.2 hx
  unfold getterRefs at hm
  simp only [List.mem_append, List.mem_flatMap] at hm
  rcases hm with ⟨f, hf, hm⟩ | hm
  · obtain ⟨i, hi, hfi⟩ := List.getElem_of_mem hf
    rw [List.length_take] at hi
    have hfi' : fields[i]? = some f := by
      rw [List.getElem_take] at hfi
      rw [List.getElem?_eq_getElem (by omega), hfi]
    have := key i f hfi' hm
    omega
  · cases hk : fields[k]? with
    | none => rw [hk] at hm; simp at hm
    | some f =>
      rw [hk] at hm
      simp only at hm
      split at hm
      · exact key k f hk hm
      · cases hm

theorem calls_acc {tok : String → Option (List TT)} {fields : List RawField}
    (h : LengthsLookBack tok fields) (k : Nat) : Acc (fun j k => Calls tok fields k j) k := by
  induction k using Nat.strongRecOn with
  | _ k ih => exact ⟨_, fun j hj => ih j (calls_lt h hj)⟩

mutual
theorem lengthToken_error (names : List String) : (t : TT) → ∀ e, lengthToken names t = .error e → e = .rejected
  | .ident n => by
    intro e h
    rw [lengthToken] at h
    split at h <;> cases h
  | .punct c => by intro e h; cases h
  | .literal text isInt => by
    intro e h
    cases isInt with
    | true => cases h
    | false => cases h; rfl
  | .group d inner => by
    intro e h
    rw [lengthToken] at h
    cases hp : parseLengthExpr names inner with
    | ok out => rw [hp] at h; cases h
    | error e' =>
      rw [hp] at h
      cases h
      exact parseLengthExpr_error names inner _ hp

/-- The only error is a compile error. -/
theorem parseLengthExpr_error (names : List String) :
    (tts : List TT) → ∀ e, parseLengthExpr names tts = .error e → e = .rejected
  | [] => by intro e h; cases h
  | t :: ts => by
    intro e h
    rw [parseLengthExpr] at h
    cases ht : lengthToken names t with
    | error e' =>
      rw [ht] at h
      cases h
      exact lengthToken_error names t _ ht
    | ok out =>
      rw [ht] at h
      dsimp only at h
      cases hp : parseLengthExpr names ts with
      | ok outs => rw [hp] at h; cases h
      | error e' =>
        rw [hp] at h
        cases h
        exact parseLengthExpr_error names ts _ hp
end

end Verif
