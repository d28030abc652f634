import Verif.Spec.Diagnostics
import Verif.Proofs.Macro
import Verif.Props.LengthExpr

/-! # Helper lemmas about the macro's error messages -/

namespace Verif
open Spec

/-- The failure of `parse_type` without its message. -/
def TypeFailure.forget : TypeFailure → MacroErr
  | .text _ => .rejected
  | .panicked => .panicked
  | .hang => .hang

theorem mapError_ok {α ε ε' : Type} {g : ε → ε'} {x : Except ε α} {a : α} :
    x.mapError g = .ok a ↔ x = .ok a := by
  cases x <;> simp [Except.mapError]

namespace Diag

/-! ## Without the messages, the functions are those of `Parse` and `Macro` -/

theorem vecInner_forget (s : List Char) :
    (vecInner s).mapError TypeFailure.forget = Verif.vecInner s := by
  unfold vecInner Verif.vecInner
  simp only
  cases (s.drop 4).getLast? with
  | none => rfl
  | some c =>
    simp only
    by_cases hc : c.utf8Size = 1
    · rw [if_pos hc]; rfl
    · rw [if_neg hc]; rfl

theorem parseTypeFuel_forget (n : Nat) (s : List Char) (imp : Bool) :
    (parseTypeFuel n s imp).mapError TypeFailure.forget = Verif.parseTypeFuel n s imp := by
  induction n generalizing s with
  | zero => rfl
  | succ n ih =>
    simp only [parseTypeFuel, Verif.parseTypeFuel]
    cases parseTy s with
    | some x =>
      obtain ⟨w, e, b⟩ := x
      simp only
      split <;> rfl
    | none =>
      simp only
      split
      · have hv := vecInner_forget s
        cases h : vecInner s with
        | error e => rw [h] at hv; rw [← hv]; rfl
        | ok t =>
          rw [h] at hv
          rw [← hv]
          simp only [Except.mapError]
          have ht := ih t
          rw [← ht]
          cases parseTypeFuel n t imp <;> rfl
      · split <;> rfl

theorem parseType_forget (s : List Char) (imp : Bool) :
    (parseType s imp).mapError TypeFailure.forget = Verif.parseType s imp :=
  parseTypeFuel_forget _ _ _

theorem atType_forget (i : Nat) (e : TypeFailure) : (atType i e).forget = e.forget := by
  cases e <;> rfl

theorem constructItems_forget (i k : Nat) (acc : List PType) (items : List (Option (List Char))) :
    (constructItems i k acc items).mapError Failure.forget = Verif.constructItems acc items := by
  induction items generalizing acc with
  | nil => rfl
  | cons item items ih =>
    cases item with
    | none => rfl
    | some text =>
      simp only [constructItems, Verif.constructItems]
      rw [← parseType_forget]
      cases parseType text false with
      | ok ty => exact ih _
      | error e => simp only [Except.mapError, atType_forget]

theorem lengthTextOk_iff (tok : String → Option (List TT)) (names : List String) (s : String) :
    lengthTextOk tok s = true ↔ ∃ tts out, tok s = some tts ∧ parseLengthExpr names tts = .ok out := by
  unfold lengthTextOk
  cases ht : tok s with
  | none => simp
  | some tts =>
    have h1 := C67_accepted_iff [] tts
    have h2 := C67_accepted_iff names tts
    rw [← h2] at h1
    simp only [Option.some.injEq, exists_and_left, exists_eq_left']
    rw [← h1]
    cases parseLengthExpr [] tts <;> simp [Except.toOption]

theorem attrStep_forget (tok : String → Option (List TT)) (names : List String) (i k : Nat)
    (st : AttrSt) (m : Meta) :
    (attrStep tok names i k st m).mapError Failure.forget =
      Verif.attrStep (lengthTextOk tok) st m := by
  cases m with
  | invalid => rfl
  | path ident =>
    simp only [attrStep, Verif.attrStep]
    split
    · split <;> rfl
    · rfl
  | nameValue ident lit =>
    cases ident with
    | none => rfl
    | some name =>
      simp only [attrStep, Verif.attrStep]
      split
      · cases lit with
        | none => rfl
        | some s =>
          have hl := lengthTextOk_iff tok names s
          simp only
          cases ht : tok s with
          | none =>
            have : lengthTextOk tok s = false := by simp [lengthTextOk, ht]
            rw [this]; rfl
          | some tts =>
            simp only
            rw [ht] at hl
            cases hp : parseLengthExpr names tts with
            | ok out => rw [hl.mpr ⟨tts, out, rfl, hp⟩]; rfl
            | error e =>
              have : lengthTextOk tok s = false := by
                rw [Bool.eq_false_iff]
                intro hc
                obtain ⟨tts', out, h1, h2⟩ := hl.mp hc
                cases h1
                rw [hp] at h2; cases h2
              rw [this]; rfl
      · rfl
  | list ident items =>
    cases ident with
    | none => rfl
    | some name =>
      simp only [attrStep, Verif.attrStep]
      split
      · split
        · rfl
        · rw [← constructItems_forget i k]
          cases constructItems i k st.constructWith items <;> rfl
      · rfl

theorem attrLoop_forget (tok : String → Option (List TT)) (names : List String) (i k : Nat)
    (st : AttrSt) (ms : List Meta) :
    (attrLoop tok names i k st ms).mapError Failure.forget =
      Verif.attrLoop (lengthTextOk tok) st ms := by
  induction ms generalizing k st with
  | nil => rfl
  | cons m ms ih =>
    simp only [attrLoop, Verif.attrLoop]
    rw [← attrStep_forget tok names i k]
    cases attrStep tok names i k st m with
    | ok st' => exact ih _ _
    | error e => rfl

theorem fieldStep_forget (tok : String → Option (List TT)) (all : List RawField) (i : Nat)
    (seen last : Bool) (f : RawField) :
    (fieldStep tok all i seen last f).mapError Failure.forget =
      Verif.fieldStep (lengthTextOk tok) seen last f := by
  unfold fieldStep Verif.fieldStep
  cases f.name with
  | none => rfl
  | some name =>
    simp only
    rw [← attrLoop_forget tok (fieldNames all (some name)) i 0]
    cases attrLoop tok (fieldNames all (some name)) i 0 ⟨seen, [], false, none⟩ f.attrs with
    | error e => rfl
    | ok st =>
      simp only [Except.mapError]
      rw [← parseType_forget]
      cases parseType (tyToString f.ty) true with
      | error e => simp only [Except.mapError, atType_forget]
      | ok ty =>
        simp only [Except.mapError]
        cases ty with
        | primitive a b c => rfl
        | vector inner =>
          simp only
          by_cases hc : (!last && st.packetLength.isNone) = true
          · rw [if_pos hc, if_pos hc]; rfl
          · rw [if_neg hc, if_neg hc]
        | misc text =>
          simp only
          by_cases hc : st.constructWith = []
          · rw [if_pos hc, if_pos hc]; rfl
          · rw [if_neg hc, if_neg hc]

theorem fieldLoop_forget (tok : String → Option (List TT)) (all : List RawField) (i : Nat)
    (seen : Bool) (fs : List RawField) :
    (fieldLoop tok all i seen fs).mapError Failure.forget =
      Verif.fieldLoop (lengthTextOk tok) seen fs := by
  induction fs generalizing i seen with
  | nil => rfl
  | cons f fs ih =>
    simp only [fieldLoop, Verif.fieldLoop]
    rw [← fieldStep_forget tok all i]
    cases fieldStep tok all i seen fs.isEmpty f with
    | error e => rfl
    | ok r =>
      simp only [Except.mapError]
      rw [← ih (i + 1)]
      cases fieldLoop tok all (i + 1) r.1 fs <;> rfl

theorem genArgs_forget (i bit : Nat) (args : List PType) :
    (genArgs i bit args).mapError Failure.forget = Verif.genArgs bit args := by
  induction args generalizing bit with
  | nil => rfl
  | cons a args ih =>
    cases a with
    | primitive t w e =>
      simp only [genArgs, Verif.genArgs]
      cases operations (bit % 8) w e with
      | none => rfl
      | some _ =>
        simp only
        rw [← ih]
        cases genArgs i (bit + w) args <;> rfl
    | vector t => rfl
    | misc t => rfl

theorem genKind_forget (i bit : Nat) (f : PField) :
    (genKind i bit f).mapError Failure.forget = Verif.genKind bit f := by
  unfold genKind Verif.genKind
  cases f.ty with
  | primitive t w e =>
    simp only
    cases operations (bit % 8) w e <;> rfl
  | misc t =>
    simp only
    rw [← genArgs_forget i]
    cases genArgs i bit f.constructWith <;> rfl
  | vector inner =>
    cases inner with
    | primitive t w e =>
      simp only
      split
      · rfl
      · cases operations 0 w .big <;> rfl
    | vector t => rfl
    | misc t =>
      simp only
      split
      · rfl
      · split <;> rfl

theorem genFields_forget (i bit : Nat) (fs : List PField) :
    (genFields i bit fs).mapError Failure.forget = Verif.genFields bit fs := by
  induction fs generalizing i bit with
  | nil => rfl
  | cons f fs ih =>
    simp only [genFields, Verif.genFields]
    split
    · rfl
    rw [← genKind_forget i]
    cases genKind i bit f with
    | error e => rfl
    | ok k =>
      simp only [Except.mapError]
      rw [← ih (i + 1)]
      cases genFields (i + 1) (bit + k.bits) fs <;> rfl

theorem deriveMacro_forget (tok : String → Option (List TT)) (fields : List RawField) :
    (deriveMacro tok fields).mapError Failure.forget =
      Verif.deriveMacro (lengthTextOk tok) fields := by
  unfold deriveMacro Verif.deriveMacro parsePacket Verif.parsePacket
  rw [← fieldLoop_forget tok fields 0]
  cases fieldLoop tok fields 0 false fields with
  | ok pfs => exact genFields_forget _ _ _
  | error e => rfl

theorem derivePacket_forget (tok : String → Option (List TT)) (isPub : Bool) (item : DeriveItem) :
    (derivePacket tok isPub item).mapError Failure.forget =
      Verif.derivePacket (lengthTextOk tok) isPub item := by
  unfold derivePacket Verif.derivePacket
  cases isPub with
  | false => rfl
  | true =>
    cases item with
    | enumOrUnion => rfl
    | struct fields => exact deriveMacro_forget tok fields

/-! ## Types -/

theorem vecInner_error (r : List Char) (x : TypeFailure) :
    vecInner (['V', 'e', 'c', '<'] ++ r) = .error x ↔
      x = .panicked ∧ (r = [] ∨ ∃ t c, r = t ++ [c] ∧ Char.utf8Size c ≠ 1) := by
  have hd : (['V', 'e', 'c', '<'] ++ r).drop 4 = r := by simp
  simp only [vecInner, Verif.vecInner, hd]
  cases hl : r.getLast? with
  | none =>
    have : r = [] := List.getLast?_eq_none_iff.mp hl
    subst this
    simp only [Except.error.injEq, true_or, and_true]
    exact ⟨Eq.symm, Eq.symm⟩
  | some c =>
    obtain ⟨ys, rfl⟩ := List.getLast?_eq_some_iff.mp hl
    simp only
    by_cases hc : c.utf8Size = 1
    · rw [if_pos hc]
      simp only [reduceCtorEq, false_iff, not_and, not_or]
      rintro -
      refine ⟨by simp, ?_⟩
      rintro ⟨t, c', h1, h2⟩
      have h3 := congrArg List.getLast? h1
      simp only [List.getLast?_concat, Option.some.injEq] at h3
      subst h3
      exact h2 hc
    · rw [if_neg hc]
      simp only
      constructor
      · intro h; cases h; exact ⟨rfl, .inr ⟨ys, c, rfl, hc⟩⟩
      · rintro ⟨rfl, _⟩; rfl

theorem parseTypeFuel_error (n : Nat) (s : List Char) (imp : Bool) (hn : s.length < n)
    (x : TypeFailure) : parseTypeFuel n s imp = .error x ↔ TypeDefect imp s x := by
  induction n generalizing s with
  | zero => omega
  | succ n ih =>
    simp only [parseTypeFuel]
    cases hp : parseTy s with
    | some y =>
      obtain ⟨w, e, spec⟩ := y
      obtain ⟨h1, h2⟩ := (parseTy_iff _ _ _ _).mp hp
      simp only
      constructor
      · intro h
        split at h
        · cases h
        · rename_i hc
          cases h
          cases spec with
          | yes => simp at hc
          | no =>
            simp only [Bool.or_eq_true, Bool.not_eq_true', decide_eq_true_eq, reduceCtorEq, or_false,
              not_or, Bool.not_eq_false, Nat.not_le] at hc
            exact .endianness hc.1 h1 hc.2 h2
      · intro h
        cases h with
        | @endianness _ w' e' g0 g1 g2 g3 =>
          have hp' : parseTy s = some (w', e', .no) := (parseTy_iff _ _ _ _).mpr ⟨g1, g3⟩
          rw [hp] at hp'
          cases hp'
          rw [if_neg]
          simp only [Bool.or_eq_true, Bool.not_eq_true', decide_eq_true_eq, reduceCtorEq, or_false,
            not_or, Bool.not_eq_false, Nat.not_le]
          exact ⟨g0, g2⟩
        | reference => rw [parseTy_head (by decide)] at hp; cases hp
        | vec => rw [List.append_assoc, List.cons_append, parseTy_head (by decide)] at hp; cases hp
        | incomplete => rw [parseTy_head (by decide)] at hp; cases hp
        | wide => rw [List.append_assoc, List.cons_append, parseTy_head (by decide)] at hp; cases hp
    | none =>
      have hno : ∀ {w e}, IntType s w e false → w < 2 ^ 64 → False := by
        intro w e h1 h2
        have : parseTy s = some (w, e, .no) := (parseTy_iff _ _ _ _).mpr ⟨h1, h2⟩
        rw [hp] at this; cases this
      simp only
      by_cases hv : ['V', 'e', 'c', '<'] <+: s
      · rw [if_pos (List.isPrefixOf_iff_prefix.mpr hv)]
        obtain ⟨r, rfl⟩ := hv
        cases hi : vecInner (['V', 'e', 'c', '<'] ++ r) with
        | error y =>
          obtain ⟨rfl, hr⟩ := (vecInner_error r y).mp hi
          simp only [Except.error.injEq]
          constructor
          · rintro rfl
            rcases hr with rfl | ⟨t, c, rfl, hc⟩
            · exact .incomplete
            · rw [← List.append_assoc]; exact .wide hc
          · intro h
            generalize hs : ['V', 'e', 'c', '<'] ++ r = s at h
            cases h with
            | endianness g0 g1 g2 g3 => exact (hno (hs ▸ g1) g3).elim
            | reference => cases hs
            | incomplete => rfl
            | wide => rfl
            | @vec t c x hc g =>
              rw [List.append_assoc, List.append_cancel_left_eq] at hs
              subst hs
              rcases hr with h | ⟨t', c', h, hc'⟩
              · simp at h
              · have h3 := congrArg List.getLast? h
                simp only [List.getLast?_concat, Option.some.injEq] at h3
                subst h3
                exact absurd hc hc'
        | ok t =>
          have hvi := vecInner_forget (['V', 'e', 'c', '<'] ++ r)
          rw [hi] at hvi
          have hl := Verif.vecInner_length hvi.symm
          obtain ⟨c, hc, hr⟩ := (Verif.vecInner_iff ⟨r, rfl⟩).mp hvi.symm
          have hih := ih t (by omega)
          simp only
          refine Iff.trans (b := parseTypeFuel n t imp = .error x) ?_ (hih.trans ?_)
          · cases parseTypeFuel n t imp <;> simp
          rw [List.append_assoc, List.append_cancel_left_eq] at hr
          subst hr
          rw [← List.append_assoc]
          constructor
          · exact .vec hc
          · intro h
            generalize hs : ['V', 'e', 'c', '<'] ++ t ++ [c] = s at h
            cases h with
            | endianness g0 g1 g2 g3 => exact (hno (by rw [← List.append_assoc, hs]; exact g1) g3).elim
            | reference => cases hs
            | incomplete => simp at hs
            | @wide t' c' hc' =>
              have h3 := congrArg List.getLast? hs
              simp only [List.getLast?_concat, Option.some.injEq] at h3
              subst h3
              exact absurd hc hc'
            | @vec t' c' x hc' g =>
              rw [List.append_assoc, List.append_assoc, List.append_cancel_left_eq] at hs
              have h3 := congrArg List.dropLast hs
              simp only [List.dropLast_concat] at h3
              subst h3
              exact g
      · rw [if_neg (by rwa [List.isPrefixOf_iff_prefix])]
        by_cases ha : ['&'] <+: s
        · rw [if_pos (List.isPrefixOf_iff_prefix.mpr ha)]
          obtain ⟨t, rfl⟩ := ha
          constructor
          · intro h; cases h; exact .reference
          · intro h
            generalize hs : ['&'] ++ t = s at h
            cases h with
            | endianness g0 g1 g2 g3 => exact (hno (hs ▸ g1) g3).elim
            | reference => rfl
            | incomplete => cases hs
            | wide => cases hs
            | vec => cases hs
        · rw [if_neg (by rwa [List.isPrefixOf_iff_prefix])]
          refine ⟨fun h => (by cases h), fun h => ?_⟩
          cases h with
          | endianness g0 g1 g2 g3 => exact (hno g1 g3).elim
          | reference => exact absurd ⟨_, rfl⟩ ha
          | incomplete => exact absurd ⟨[], rfl⟩ hv
          | wide => exact absurd ⟨_, (List.append_assoc ..).symm⟩ hv
          | vec => exact absurd ⟨_, (List.append_assoc ..).symm⟩ hv

theorem parseType_error (s : List Char) (imp : Bool) (x : TypeFailure) :
    parseType s imp = .error x ↔ TypeDefect imp s x :=
  parseTypeFuel_error _ s imp (Nat.lt_succ_self _) x

theorem parseType_ok (s : List Char) (imp : Bool) (ty : PType) :
    parseType s imp = .ok ty ↔ TypeText imp s ty := by
  rw [← parseType_iff, ← parseType_forget, mapError_ok]

theorem atType_eq (i : Nat) (x : TypeFailure) : atType i x = onType i x := by cases x <;> rfl

/-! ## Attributes -/

theorem constructItems_error (tok : String → Option (List TT)) (seen : Prop) (i k : Nat)
    (acc : List PType) (items : List (Option (List Char))) (hne : items ≠ []) (r : Failure) :
    constructItems i k acc items = .error r ↔
      AttrDefect tok seen i k (.list (some "construct_with") items) r := by
  have key : constructItems i k acc items = .error r ↔
      ∃ pre item post, items = pre ++ item :: post ∧
        (∀ x ∈ pre, ∃ text ty, x = some text ∧ TypeText false text ty) ∧
        ((item = none ∧ r = .message (.attribute i k)
            "#[construct_with] should be of the form #[construct_with(<types>)]") ∨
         ∃ text x, item = some text ∧ TypeDefect false text x ∧ r = onType i x) := by
    clear hne
    induction items generalizing acc with
    | nil =>
      simp only [constructItems]
      refine ⟨fun h => (by cases h), ?_⟩
      rintro ⟨pre, item, post, h, _⟩
      cases pre <;> cases h
    | cons item items ih =>
      cases item with
      | none =>
        simp only [constructItems]
        constructor
        · intro h
          cases h
          exact ⟨[], none, items, rfl, by simp, .inl ⟨rfl, rfl⟩⟩
        · rintro ⟨pre, item, post, h1, h2, h3⟩
          cases pre with
          | nil =>
            cases h1
            rcases h3 with ⟨_, rfl⟩ | ⟨_, _, h, _⟩
            · rfl
            · cases h
          | cons x pre =>
            cases h1
            obtain ⟨_, _, h, _⟩ := h2 none (by simp)
            cases h
      | some text =>
        simp only [constructItems]
        cases ht : parseType text false with
        | error x =>
          simp only [Except.error.injEq]
          constructor
          · rintro rfl
            exact ⟨[], some text, items, rfl, by simp,
              .inr ⟨text, x, rfl, (parseType_error _ _ _).mp ht, atType_eq i x⟩⟩
          · rintro ⟨pre, item, post, h1, h2, h3⟩
            cases pre with
            | nil =>
              cases h1
              rcases h3 with ⟨h, _⟩ | ⟨text', x', h, hx, rfl⟩
              · cases h
              · cases h
                rw [← parseType_error, ht] at hx
                cases hx
                exact atType_eq i x
            | cons y pre =>
              cases h1
              obtain ⟨_, ty, h, h4⟩ := h2 (some text) (by simp)
              cases h
              rw [← parseType_ok, ht] at h4
              cases h4
        | ok ty =>
          simp only
          rw [ih]
          constructor
          · rintro ⟨pre, item, post, h1, h2, h3⟩
            refine ⟨some text :: pre, item, post, by rw [h1]; rfl, ?_, h3⟩
            intro x hx
            rcases List.mem_cons.mp hx with rfl | hx
            · exact ⟨text, ty, rfl, (parseType_ok _ _ _).mp ht⟩
            · exact h2 x hx
          · rintro ⟨pre, item, post, h1, h2, h3⟩
            cases pre with
            | nil =>
              cases h1
              rcases h3 with ⟨h, _⟩ | ⟨text', x', h, hx, rfl⟩
              · cases h
              · cases h
                rw [← parseType_error, ht] at hx
                cases hx
            | cons y pre =>
              cases h1
              exact ⟨pre, item, post, rfl, fun x hx => h2 x (List.mem_cons_of_mem _ hx), h3⟩
  rw [key]
  constructor
  · rintro ⟨pre, item, post, rfl, h2, ⟨rfl, rfl⟩ | ⟨text, x, rfl, hx, rfl⟩⟩
    · exact .constructLiteral h2
    · exact .constructType h2 hx
  · intro h
    generalize hm : Meta.list (some "construct_with") items = m at h
    cases h with
    | constructEmpty => cases hm; exact absurd rfl hne
    | constructLiteral h2 => cases hm; exact ⟨_, _, _, rfl, h2, .inl ⟨rfl, rfl⟩⟩
    | constructType h2 hx => cases hm; exact ⟨_, _, _, rfl, h2, .inr ⟨_, _, rfl, hx, rfl⟩⟩
    | otherList hn => cases hm; exact absurd rfl hn
    | _ => cases hm

theorem attrStep_error (tok : String → Option (List TT)) (names : List String) (i k : Nat)
    (st : AttrSt) (m : Meta) (r : Failure) :
    attrStep tok names i k st m = .error r ↔ AttrDefect tok (st.payloadSeen = true) i k m r := by
  cases m with
  | invalid =>
    simp only [attrStep]
    constructor
    · intro h; cases h; exact .unreadable
    · intro h; cases h; rfl
  | path ident =>
    simp only [attrStep]
    by_cases hi : ident = some "payload"
    · subst hi
      rw [if_pos rfl]
      by_cases hs : st.payloadSeen = true
      · rw [if_pos hs]
        constructor
        · intro h; cases h; exact .secondPayload hs
        · intro h; cases h; rfl
      · rw [if_neg hs]
        refine ⟨fun h => (by cases h), fun h => ?_⟩
        cases h with
        | secondPayload h => exact absurd h hs
    · rw [if_neg hi]
      refine ⟨fun h => (by cases h), fun h => ?_⟩
      cases h
      exact absurd rfl hi
  | nameValue ident lit =>
    cases ident with
    | none =>
      simp only [attrStep]
      exact ⟨fun h => (by cases h), fun h => (by cases h)⟩
    | some name =>
      simp only [attrStep]
      by_cases hn : name = "length"
      · subst hn
        rw [if_pos rfl]
        cases lit with
        | none =>
          simp only
          constructor
          · intro h; cases h; exact .lengthNotText
          · intro h
            cases h with
            | lengthNotText => rfl
            | otherNameValue h => exact absurd rfl h
        | some s =>
          simp only
          cases ht : tok s with
          | none =>
            simp only
            constructor
            · intro h; cases h; exact .lengthUnreadable ht
            · intro h
              cases h with
              | lengthUnreadable => rfl
              | lengthLiteral h => rw [ht] at h; cases h
              | otherNameValue h => exact absurd rfl h
          | some tts =>
            simp only
            have hok := C67_accepted_iff names tts
            cases hp : parseLengthExpr names tts with
            | ok out =>
              simp only
              refine ⟨fun h => (by cases h), fun h => ?_⟩
              cases h with
              | lengthUnreadable h => rw [ht] at h; cases h
              | lengthLiteral h hm =>
                rw [ht] at h; cases h
                exact absurd hm (hok.mp ⟨out, hp⟩ _)
              | otherNameValue h => exact absurd rfl h
            | error e =>
              simp only
              constructor
              · intro h
                cases h
                have : ¬ ∀ text, .literal text false ∉ flatten tts := fun hall => by
                  obtain ⟨out, ho⟩ := hok.mpr hall
                  rw [hp] at ho; cases ho
                simp only [Classical.not_forall, Classical.not_not] at this
                obtain ⟨text, hm⟩ := this
                exact .lengthLiteral ht hm
              · intro h
                cases h with
                | lengthUnreadable h => rw [ht] at h; cases h
                | lengthLiteral h hm => rfl
                | otherNameValue h => exact absurd rfl h
      · rw [if_neg hn]
        constructor
        · intro h; cases h; exact .otherNameValue hn
        · intro h
          cases h with
          | otherNameValue => rfl
          | _ => exact absurd rfl hn
  | list ident items =>
    cases ident with
    | none =>
      simp only [attrStep]
      constructor
      · intro h; cases h; exact .listPath
      · intro h; cases h; rfl
    | some name =>
      simp only [attrStep]
      by_cases hn : name = "construct_with"
      · subst hn
        rw [if_pos rfl]
        by_cases he : items = []
        · subst he
          rw [if_pos rfl]
          constructor
          · intro h; cases h; exact .constructEmpty
          · intro h
            generalize hm : Meta.list (some "construct_with") [] = m at h
            cases h with
            | constructEmpty => rfl
            | otherList h => cases hm; exact absurd rfl h
            | constructLiteral => simp at hm
            | constructType => simp at hm
            | _ => cases hm
        · rw [if_neg he, ← constructItems_error tok (st.payloadSeen = true) i k st.constructWith items he]
          cases constructItems i k st.constructWith items <;> simp
      · rw [if_neg hn]
        constructor
        · intro h; cases h; exact .otherList hn
        · intro h
          cases h with
          | otherList => rfl
          | _ => exact absurd rfl hn

theorem attrStep_ok_iff (tok : String → Option (List TT)) (names : List String) (i k : Nat)
    (st st' : AttrSt) (m : Meta) :
    attrStep tok names i k st m = .ok st' ↔ Verif.attrStep (lengthTextOk tok) st m = .ok st' := by
  rw [← attrStep_forget tok names i k, mapError_ok]

/-- The set of defects depends on `seen` only up to equivalence. -/
theorem attrDefect_congr {tok : String → Option (List TT)} {p q : Prop} {i k : Nat} {m : Meta}
    {r : Failure} (hpq : p ↔ q) (h : AttrDefect tok p i k m r) : AttrDefect tok q i k m r :=
  propext hpq ▸ h

/-- An attribute that is legal where it stands has no defect. -/
theorem attrDefect_not_legal {tok : String → Option (List TT)} {p : Prop} {i k : Nat} {m : Meta}
    {r : Failure} (h : AttrDefect tok p i k m r) (hl : LegalAttr (lengthTextOk tok) m) :
    m = .path (some "payload") ∧ p := by
  have hd := Classical.propDecidable p
  have hp : p ↔ (AttrSt.mk (decide p) [] false none).payloadSeen = true := by simp
  have he := (attrStep_error tok [] i k ⟨decide p, [], false, none⟩ m r).mpr (attrDefect_congr hp h)
  apply Classical.byContradiction
  intro hn
  obtain ⟨st', hs⟩ := attrStep_legal ⟨decide p, [], false, none⟩ hl (by
    intro hm
    simp only [decide_eq_false_iff_not]
    exact fun hpp => hn ⟨hm, hpp⟩)
  rw [← attrStep_ok_iff tok [] i k, he] at hs
  cases hs

theorem attrLoop_error (tok : String → Option (List TT)) (names : List String) (i k : Nat)
    (st : AttrSt) (ms : List Meta) (r : Failure) :
    attrLoop tok names i k st ms = .error r ↔ ∃ pre m post, ms = pre ++ m :: post ∧
      (∀ a ∈ pre, LegalAttr (lengthTextOk tok) a) ∧
      pre.count (.path (some "payload")) + (if st.payloadSeen then 1 else 0) ≤ 1 ∧
      AttrDefect tok (st.payloadSeen = true ∨ .path (some "payload") ∈ pre) i (k + pre.length) m r := by
  induction ms generalizing k st with
  | nil =>
    simp only [attrLoop]
    refine ⟨fun h => (by cases h), ?_⟩
    rintro ⟨pre, m, post, h, _⟩
    cases pre <;> cases h
  | cons m ms ih =>
    simp only [attrLoop]
    have herr := attrStep_error tok names i k st m
    cases hs : attrStep tok names i k st m with
    | error e =>
      simp only [Except.error.injEq]
      constructor
      · rintro rfl
        refine ⟨[], m, ms, rfl, by simp, by simp; split <;> omega, ?_⟩
        simpa using (herr e).mp hs
      · rintro ⟨pre, m', post, h1, h2, h3, h4⟩
        cases pre with
        | nil =>
          cases h1
          have h4 := (herr r).mpr (by simpa using h4)
          rw [hs] at h4
          cases h4; rfl
        | cons a pre =>
          cases h1
          obtain ⟨hm, hp⟩ := attrDefect_not_legal ((herr e).mp hs) (h2 m (by simp))
          subst hm
          rw [hp] at h3
          simp at h3
    | ok st' =>
      obtain ⟨g1, g2, g3, -⟩ := attrStep_ok ((attrStep_ok_iff _ _ _ _ _ _ _).mp hs)
      have hnot : ∀ r, ¬ AttrDefect tok (st.payloadSeen = true) i k m r := fun r hd => by
        rw [← herr, hs] at hd; cases hd
      simp only
      rw [ih]
      have hcount : ∀ pre : List Meta, pre.count (.path (some "payload")) +
            (if st'.payloadSeen then 1 else 0) =
          (m :: pre).count (.path (some "payload")) + (if st.payloadSeen then 1 else 0) := by
        intro pre
        rw [g3, List.count_cons]
        by_cases hm : m = .path (some "payload")
        · have := g2 hm
          simp [hm, this]
        · have : (m == Meta.path (some "payload")) = false := by simpa using hm
          simp [this]
      have hseen : ∀ pre : List Meta, (st'.payloadSeen = true ∨ .path (some "payload") ∈ pre) ↔
          (st.payloadSeen = true ∨ .path (some "payload") ∈ m :: pre) := by
        intro pre
        rw [g3]
        simp only [Bool.or_eq_true, beq_iff_eq, List.mem_cons, or_assoc]
        constructor
        · rintro (h | h | h)
          · exact .inl h
          · exact .inr (.inl h.symm)
          · exact .inr (.inr h)
        · rintro (h | h | h)
          · exact .inl h
          · exact .inr (.inl h.symm)
          · exact .inr (.inr h)
      constructor
      · rintro ⟨pre, m', post, h1, h2, h3, h4⟩
        refine ⟨m :: pre, m', post, by rw [h1]; rfl, ?_, ?_, ?_⟩
        · intro a ha
          rcases List.mem_cons.mp ha with rfl | ha
          · exact g1
          · exact h2 a ha
        · rw [← hcount]; exact h3
        · rw [List.length_cons, Nat.add_comm pre.length 1, ← Nat.add_assoc]
          exact attrDefect_congr (hseen pre) h4
      · rintro ⟨pre, m', post, h1, h2, h3, h4⟩
        cases pre with
        | nil =>
          cases h1
          exact absurd (by simpa using h4) (hnot r)
        | cons a pre =>
          cases h1
          refine ⟨pre, m', post, rfl, fun a ha => h2 a (List.mem_cons_of_mem _ ha), ?_, ?_⟩
          · rw [hcount]; exact h3
          · rw [List.length_cons, Nat.add_comm pre.length 1, ← Nat.add_assoc] at h4
            exact attrDefect_congr (hseen pre).symm h4

theorem attrLoop_ok_iff (tok : String → Option (List TT)) (names : List String) (i k : Nat)
    (st st' : AttrSt) (ms : List Meta) :
    attrLoop tok names i k st ms = .ok st' ↔ Verif.attrLoop (lengthTextOk tok) st ms = .ok st' := by
  rw [← attrLoop_forget tok names i k, mapError_ok]

/-! ## Fields -/

theorem fieldStep_error (tok : String → Option (List TT)) (all : List RawField) (i : Nat)
    (before : List Meta) (seen last : Bool) (f : RawField)
    (hseen : seen = true ↔ .path (some "payload") ∈ before)
    (hcount : before.count (.path (some "payload")) = if seen then 1 else 0) (r : Failure) :
    fieldStep tok all i seen last f = .error r ↔ FieldDefect tok before i (last = true) f r := by
  unfold fieldStep
  cases hname : f.name with
  | none =>
    simp only
    constructor
    · intro h; cases h; exact .unnamed hname
    · intro h
      cases h with
      | unnamed => rfl
      | attr h => exact absurd hname h
      | type h => exact absurd hname h
      | noLength h => exact absurd hname h
      | noConstruct h => exact absurd hname h
  | some name =>
    have hn : f.name ≠ none := by rw [hname]; simp
    simp only
    have hloop := attrLoop_error tok (fieldNames all (some name)) i 0 ⟨seen, [], false, none⟩ f.attrs
    have hok := attrLoop_iff (lengthTextOk tok) f.attrs ⟨seen, [], false, none⟩
    simp only at hloop hok
    have hattr : ∀ r, (attrLoop tok (fieldNames all (some name)) i 0 ⟨seen, [], false, none⟩ f.attrs =
        .error r) ↔ ∃ pre m post, f.attrs = pre ++ m :: post ∧
          (∀ a ∈ pre, LegalAttr (lengthTextOk tok) a) ∧
          (before ++ pre).count (.path (some "payload")) ≤ 1 ∧
          AttrDefect tok (.path (some "payload") ∈ before ++ pre) i pre.length m r := by
      intro r
      rw [hloop]
      simp only [List.count_append, List.mem_append, hseen, hcount, Nat.zero_add,
        Nat.add_comm (if .path (some "payload") ∈ before then 1 else 0)]
    cases ha : attrLoop tok (fieldNames all (some name)) i 0 ⟨seen, [], false, none⟩ f.attrs with
    | error e =>
      have hnl : ¬ ((∀ m ∈ f.attrs, LegalAttr (lengthTextOk tok) m) ∧
          (before ++ f.attrs).count (.path (some "payload")) ≤ 1) := by
        rintro ⟨h1, h2⟩
        rw [List.count_append, hcount] at h2
        obtain ⟨st, hs⟩ := hok.mpr ⟨h1, by omega⟩
        rw [← attrLoop_ok_iff tok (fieldNames all (some name)) i 0, ha] at hs
        cases hs
      simp only [Except.error.injEq]
      constructor
      · rintro rfl
        obtain ⟨pre, m, post, h1, h2, h3, h4⟩ := (hattr e).mp ha
        exact .attr hn h1 h2 h3 h4
      · intro h
        cases h with
        | unnamed h => exact absurd h hn
        | attr _ h1 h2 h3 h4 =>
          have := (hattr r).mpr ⟨_, _, _, h1, h2, h3, h4⟩
          rw [ha] at this
          cases this; rfl
        | type _ h1 h2 => exact absurd ⟨h1, h2⟩ hnl
        | noLength _ h1 h2 => exact absurd ⟨h1, h2⟩ hnl
        | noConstruct _ h1 h2 => exact absurd ⟨h1, h2⟩ hnl
    | ok st =>
      have hst := (attrLoop_ok_iff _ _ _ _ _ _ _).mp ha
      obtain ⟨hl, hc⟩ := hok.mp ⟨st, hst⟩
      have hc : (before ++ f.attrs).count (.path (some "payload")) ≤ 1 := by
        rw [List.count_append, hcount]; omega
      obtain ⟨-, -, -, h4, h5⟩ := attrLoop_ok hst
      simp only [and_true] at h4 h5
      have hna : ∀ {pre m post r}, f.attrs = pre ++ m :: post →
          (∀ a ∈ pre, LegalAttr (lengthTextOk tok) a) →
          (before ++ pre).count (.path (some "payload")) ≤ 1 →
          ¬ AttrDefect tok (.path (some "payload") ∈ before ++ pre) i pre.length m r := by
        intro pre m post r h1 h2 h3 h4
        have := (hattr r).mpr ⟨_, _, _, h1, h2, h3, h4⟩
        rw [ha] at this; cases this
      simp only
      cases ht : parseType (tyToString f.ty) true with
      | error x =>
        have hx := (parseType_error _ _ _).mp ht
        simp only [Except.error.injEq, atType_eq]
        constructor
        · rintro rfl; exact .type hn hl hc hx
        · intro h
          cases h with
          | unnamed h => exact absurd h hn
          | attr _ g1 g2 g3 g4 => exact absurd g4 (hna g1 g2 g3)
          | type _ _ _ g => rw [← parseType_error, ht] at g; cases g; rfl
          | noLength _ _ _ g => rw [← parseType_ok, ht] at g; cases g
          | noConstruct _ _ _ g => rw [← parseType_ok, ht] at g; cases g
      | ok ty =>
        have hty := (parseType_ok _ _ _).mp ht
        have hdet : ∀ {ty'}, TypeText true (tyToString f.ty) ty' → ty = ty' := by
          intro ty' g
          rw [← parseType_ok, ht] at g; cases g; rfl
        have hnt : ∀ {x}, ¬ TypeDefect true (tyToString f.ty) x := by
          intro x g
          rw [← parseType_error, ht] at g; cases g
        cases ty with
        | primitive a b c =>
          simp only
          refine ⟨fun h => (by cases h), fun h => ?_⟩
          cases h with
          | unnamed h => exact absurd h hn
          | attr _ g1 g2 g3 g4 => exact absurd g4 (hna g1 g2 g3)
          | type _ _ _ g => exact absurd g hnt
          | noLength _ _ _ g => cases hdet g
          | noConstruct _ _ _ g => cases hdet g
        | vector inner =>
          simp only
          by_cases hcond : (!last && st.packetLength.isNone) = true
          · rw [if_pos hcond]
            simp only [Bool.and_eq_true, Bool.not_eq_true', Option.isNone_iff_eq_none] at hcond
            constructor
            · intro h
              cases h
              exact .noLength hn hl hc hty (by simp [hcond.1]) (h4.mp hcond.2)
            · intro h
              cases h with
              | unnamed h => exact absurd h hn
              | attr _ g1 g2 g3 g4 => exact absurd g4 (hna g1 g2 g3)
              | type _ _ _ g => exact absurd g hnt
              | noLength _ _ _ g => rfl
              | noConstruct _ _ _ g => cases hdet g
          · rw [if_neg hcond]
            refine ⟨fun h => (by cases h), fun h => ?_⟩
            cases h with
            | unnamed h => exact absurd h hn
            | attr _ g1 g2 g3 g4 => exact absurd g4 (hna g1 g2 g3)
            | type _ _ _ g => exact absurd g hnt
            | noLength _ _ _ _ g1 g2 =>
              refine absurd ?_ hcond
              simp only [Bool.and_eq_true, Bool.not_eq_true', Option.isNone_iff_eq_none]
              exact ⟨by simpa using g1, h4.mpr g2⟩
            | noConstruct _ _ _ g => cases hdet g
        | misc text =>
          simp only
          by_cases hcond : st.constructWith = []
          · rw [if_pos hcond]
            constructor
            · intro h
              cases h
              exact .noConstruct hn hl hc hty (h5.mp hcond)
            · intro h
              cases h with
              | unnamed h => exact absurd h hn
              | attr _ g1 g2 g3 g4 => exact absurd g4 (hna g1 g2 g3)
              | type _ _ _ g => exact absurd g hnt
              | noLength _ _ _ g => cases hdet g
              | noConstruct _ _ _ g => rfl
          · rw [if_neg hcond]
            refine ⟨fun h => (by cases h), fun h => ?_⟩
            cases h with
            | unnamed h => exact absurd h hn
            | attr _ g1 g2 g3 g4 => exact absurd g4 (hna g1 g2 g3)
            | type _ _ _ g => exact absurd g hnt
            | noLength _ _ _ g => cases hdet g
            | noConstruct _ _ _ _ g => exact absurd (h5.mpr g) hcond

theorem fieldDefect_congr {tok : String → Option (List TT)} {before : List Meta} {i : Nat}
    {p q : Prop} {f : RawField} {r : Failure} (hpq : p ↔ q) (h : FieldDefect tok before i p f r) :
    FieldDefect tok before i q f r :=
  propext hpq ▸ h

/-- A field that is legal where it stands has no defect. -/
theorem fieldDefect_not_legal {tok : String → Option (List TT)} {before : List Meta} {i : Nat}
    {last : Bool} {f : RawField} {r : Failure} {seen : Bool}
    (hseen : seen = true ↔ .path (some "payload") ∈ before)
    (hcount : before.count (.path (some "payload")) = if seen then 1 else 0)
    (h : FieldDefect tok before i (last = true) f r)
    (hl : LegalField (lengthTextOk tok) (last = true) f) :
    1 < (before ++ f.attrs).count (.path (some "payload")) := by
  apply Classical.byContradiction
  intro hc
  rw [← fieldStep_error tok [] i before seen last f hseen hcount] at h
  rw [List.count_append, hcount] at hc
  obtain ⟨x, hx⟩ := (fieldStep_iff (lengthTextOk tok) seen last f).mpr ⟨hl, by omega⟩
  rw [← fieldStep_forget tok [] i, mapError_ok, h] at hx
  cases hx

theorem legalField_mono {lenOk : String → Bool} {p q : Prop} {f : RawField} (hpq : p → q)
    (h : LegalField lenOk p f) : LegalField lenOk q f := by
  obtain ⟨h1, h2, ty, h3, h4, h5⟩ := h
  exact ⟨h1, h2, ty, h3, fun hv => (h4 hv).imp_left hpq, h5⟩

theorem fieldLoop_error (tok : String → Option (List TT)) (all : List RawField) (i : Nat)
    (before : List Meta) (seen : Bool) (fs : List RawField)
    (hseen : seen = true ↔ .path (some "payload") ∈ before)
    (hcount : before.count (.path (some "payload")) = if seen then 1 else 0) (r : Failure) :
    fieldLoop tok all i seen fs = .error r ↔ ∃ pre f post, fs = pre ++ f :: post ∧
      (∀ g ∈ pre, LegalField (lengthTextOk tok) False g) ∧
      (before ++ pre.flatMap (·.attrs)).count (.path (some "payload")) ≤ 1 ∧
      FieldDefect tok (before ++ pre.flatMap (·.attrs)) (i + pre.length) (post = []) f r := by
  induction fs generalizing i before seen with
  | nil =>
    simp only [fieldLoop]
    refine ⟨fun h => (by cases h), ?_⟩
    rintro ⟨pre, m, post, h, _⟩
    cases pre <;> cases h
  | cons f fs ih =>
    simp only [fieldLoop]
    have hlast : (fs.isEmpty = true) ↔ fs = [] := by cases fs <;> simp
    have herr := fieldStep_error tok all i before seen fs.isEmpty f hseen hcount
    cases hs : fieldStep tok all i seen fs.isEmpty f with
    | error e =>
      have hd := (herr e).mp hs
      simp only [Except.error.injEq]
      constructor
      · rintro rfl
        refine ⟨[], f, fs, rfl, by simp, ?_, ?_⟩
        · simp only [List.flatMap_nil, List.append_nil, hcount]; split <;> omega
        · simpa using fieldDefect_congr hlast hd
      · rintro ⟨pre, f', post, h1, h2, h3, h4⟩
        cases pre with
        | nil =>
          cases h1
          have h4 : FieldDefect tok before i (fs = []) f r := by simpa using h4
          have h5 := (herr r).mpr (fieldDefect_congr hlast.symm h4)
          rw [hs] at h5
          cases h5; rfl
        | cons a pre =>
          cases h1
          have hne : (pre ++ f' :: post).isEmpty = false := by cases pre <;> rfl
          have := fieldDefect_not_legal hseen hcount hd
            (legalField_mono (fun h => h.elim) (h2 f (by simp)))
          rw [List.flatMap_cons, ← List.append_assoc, List.count_append] at h3
          omega
    | ok x =>
      obtain ⟨seen', pf⟩ := x
      have hx : Verif.fieldStep (lengthTextOk tok) seen fs.isEmpty f = .ok (seen', pf) := by
        rw [← fieldStep_forget tok all i, mapError_ok]; exact hs
      obtain ⟨g1, g2⟩ := (fieldStep_iff (lengthTextOk tok) seen fs.isEmpty f).mp ⟨_, hx⟩
      have hok := (fieldStep_ok hx).1
      have hseen' : seen' = true ↔ .path (some "payload") ∈ before ++ f.attrs := by
        rw [hok, hseen, List.mem_append]
      have hcount' : (before ++ f.attrs).count (.path (some "payload")) = if seen' then 1 else 0 := by
        have hpos : 0 < (before ++ f.attrs).count (.path (some "payload")) ↔
            Meta.path (some "payload") ∈ before ++ f.attrs := List.count_pos_iff
        rw [← hseen'] at hpos
        rw [List.count_append, hcount] at hpos ⊢
        generalize f.attrs.count (.path (some "payload")) = n at hpos g2 ⊢
        cases seen <;> cases seen' <;>
          simp only [Bool.false_eq_true, if_true, if_false, iff_true, iff_false] at hpos g2 ⊢ <;> omega
      have hih := ih (i + 1) (before ++ f.attrs) seen' hseen' hcount'
      have hnot : ∀ r, ¬ FieldDefect tok before i (fs = []) f r := fun r hd => by
        have := (herr r).mpr (fieldDefect_congr hlast.symm hd)
        rw [hs] at this; cases this
      simp only
      refine Iff.trans (b := fieldLoop tok all (i + 1) seen' fs = .error r) ?_ (hih.trans ?_)
      · cases fieldLoop tok all (i + 1) seen' fs <;> simp
      constructor
      · rintro ⟨pre, f', post, h1, h2, h3, h4⟩
        refine ⟨f :: pre, f', post, by rw [h1]; rfl, ?_, ?_, ?_⟩
        · intro g hg
          rcases List.mem_cons.mp hg with rfl | hg
          · refine legalField_mono ?_ g1
            rw [hlast, h1]
            simp
          · exact h2 g hg
        · rw [List.flatMap_cons, ← List.append_assoc]; exact h3
        · rw [List.flatMap_cons, ← List.append_assoc, List.length_cons, Nat.add_comm pre.length 1,
            ← Nat.add_assoc]
          exact h4
      · rintro ⟨pre, f', post, h1, h2, h3, h4⟩
        cases pre with
        | nil =>
          cases h1
          exact absurd (by simpa using h4) (hnot r)
        | cons a pre =>
          cases h1
          rw [List.flatMap_cons, ← List.append_assoc] at h3 h4
          rw [List.length_cons, Nat.add_comm pre.length 1, ← Nat.add_assoc] at h4
          exact ⟨pre, f', post, rfl, fun g hg => h2 g (List.mem_cons_of_mem _ hg), h3, h4⟩

/-! ## The generator -/

theorem genArgs_message {as : List (List Char)} {ts : List PType} (h : TypeTexts as ts) (i bit : Nat)
    (r : Failure) : genArgs i bit ts = .error r ↔
      (r = .message (.field i) "arguments to #[construct_with] must be primitives" ∧ ArgNotInt bit as) ∨
      (r = .panicked ∧ ArgsPanic bit as) := by
  induction h generalizing bit with
  | nil =>
    simp only [genArgs]
    refine ⟨fun h => (by cases h), ?_⟩
    rintro (⟨_, h⟩ | ⟨_, h⟩) <;> cases h
  | @cons a as t ts ht hts ih =>
    have hdet : ∀ {w e b}, IntType a w e b → w < 2 ^ 64 → t = .primitive a w e := by
      intro w e b h1 h2
      have h3 : TypeText false a (.primitive a w e) := .int h1 h2 (fun h => (by cases h))
      rw [← parseType_iff] at h3 ht
      rw [ht] at h3
      cases h3; rfl
    have hnot : (∀ w e, t ≠ .primitive a w e) → ¬ ArgsPanic bit (a :: as) ∧
        ArgNotInt bit (a :: as) := by
      intro hne
      refine ⟨fun hp => ?_, .here ?_⟩
      · cases hp with
        | here g1 g2 _ => exact hne _ _ (hdet g1 g2)
        | later g1 g2 _ _ => exact hne _ _ (hdet g1 g2)
      · rintro ⟨w, e, b, g1, g2⟩
        exact hne _ _ (hdet g1 g2)
    cases t with
    | primitive text w e =>
      obtain ⟨rfl, hw, b, hi⟩ := typeText_int.mp ht
      simp only [genArgs]
      have hf := fits_at bit w e
      cases ho : operations (bit % 8) w e with
      | none =>
        rw [ho] at hf
        have hnf : ¬ FitsAt bit w := fun h => by obtain ⟨_, hc⟩ := hf.mpr h; cases hc
        simp only [Except.error.injEq]
        constructor
        · rintro rfl
          exact .inr ⟨rfl, .here hi hw hnf⟩
        · rintro (⟨_, h⟩ | ⟨rfl, _⟩)
          · cases h with
            | here g => exact absurd ⟨_, _, _, hi, hw⟩ g
            | later g1 g2 g3 g4 => cases hdet g1 g2; exact absurd g3 hnf
          · rfl
      | some ops =>
        have hfit := hf.mp ⟨ops, ho⟩
        have hflip : ∀ r, (match genArgs i (bit + w) ts with
            | .ok ps => Except.ok ((⟨w, e⟩ : Prim) :: ps)
            | .error err => Except.error err) = .error r ↔ genArgs i (bit + w) ts = .error r := by
          intro r
          cases genArgs i (bit + w) ts <;> simp
        simp only
        refine (hflip r).trans ((ih (bit + w)).trans ?_)
        constructor
        · rintro (⟨h1, h2⟩ | ⟨h1, h2⟩)
          · exact .inl ⟨h1, .later hi hw hfit h2⟩
          · exact .inr ⟨h1, .later hi hw hfit h2⟩
        · rintro (⟨h1, h2⟩ | ⟨h1, h2⟩)
          · cases h2 with
            | here g => exact absurd ⟨_, _, _, hi, hw⟩ g
            | later g1 g2 g3 g4 => cases hdet g1 g2; exact .inl ⟨h1, g4⟩
          · cases h2 with
            | here g1 g2 g3 => cases hdet g1 g2; exact absurd hfit g3
            | later g1 g2 g3 g4 => cases hdet g1 g2; exact .inr ⟨h1, g4⟩
    | vector t =>
      obtain ⟨n1, n2⟩ := hnot (fun _ _ hc => by cases hc)
      simp only [genArgs]
      constructor
      · intro h; cases h; exact .inl ⟨rfl, n2⟩
      · rintro (⟨rfl, _⟩ | ⟨_, h⟩)
        · rfl
        · exact absurd h n1
    | misc t =>
      obtain ⟨n1, n2⟩ := hnot (fun _ _ hc => by cases hc)
      simp only [genArgs]
      constructor
      · intro h; cases h; exact .inl ⟨rfl, n2⟩
      · rintro (⟨rfl, _⟩ | ⟨_, h⟩)
        · rfl
        · exact absurd h n1

theorem genKind_error {args : List (List Char)} {f : PField} (h : TypeTexts args f.constructWith)
    (i bit : Nat) (r : Failure) : genKind i bit f = .error r ↔ KindDefect i bit args f.ty r := by
  have hpanic : genKind i bit f = .error .panicked ↔ KindPanics bit args f.ty := by
    rw [← genKind_panics h bit, ← genKind_forget i]
    cases hg : genKind i bit f with
    | ok k => simp [Except.mapError]
    | error e => cases e <;> simp [Except.mapError, Failure.forget]
  by_cases hr : r = .panicked
  · subst hr
    rw [hpanic]
    constructor
    · exact .panics
    · intro hd
      generalize f.ty = ty at hd ⊢
      cases hd with
      | panics h => exact h
  · unfold genKind
    cases ht : f.ty with
    | primitive t w e =>
      simp only
      refine ⟨fun hh => ?_, fun hh => ?_⟩
      · cases ho : operations (bit % 8) w e with
        | none => rw [ho] at hh; cases hh; exact absurd rfl hr
        | some _ => rw [ho] at hh; cases hh
      · cases hh; exact absurd rfl hr
    | misc t =>
      simp only
      have hargs := genArgs_message h i bit r
      refine Iff.trans (b := genArgs i bit f.constructWith = .error r) ?_ (hargs.trans ?_)
      · cases genArgs i bit f.constructWith <;> simp
      constructor
      · rintro (⟨rfl, h2⟩ | ⟨h1, _⟩)
        · exact .argument h2
        · exact absurd h1 hr
      · intro hd
        cases hd with
        | argument h2 => exact .inl ⟨rfl, h2⟩
        | panics => exact absurd rfl hr
    | vector inner =>
      cases inner with
      | primitive t w e =>
        simp only
        by_cases hw : w % 8 ≠ 0
        · rw [if_pos hw]
          constructor
          · intro hh; cases hh; exact .partBytes (by omega)
          · intro hd
            cases hd with
            | partBytes => rfl
            | panics => exact absurd rfl hr
        · rw [if_neg hw]
          refine ⟨fun hh => ?_, fun hd => ?_⟩
          · cases ho : operations 0 w .big with
            | none => rw [ho] at hh; cases hh; exact absurd rfl hr
            | some _ => rw [ho] at hh; cases hh
          · cases hd with
            | partBytes h => omega
            | panics => exact absurd rfl hr
      | vector t =>
        simp only
        constructor
        · intro hh; cases hh; exact .nested
        · intro hd
          cases hd with
          | nested => rfl
          | panics => exact absurd rfl hr
      | misc t =>
        simp only
        by_cases h0 : t = []
        · subst h0
          rw [if_pos rfl]
          constructor
          · intro hh; cases hh; exact .nothing
          · intro hd
            cases hd with
            | nothing => rfl
            | panics => exact absurd rfl hr
        · rw [if_neg h0]
          refine ⟨fun hh => ?_, fun hd => ?_⟩
          · split at hh
            · cases hh
            · cases hh; exact absurd rfl hr
          · cases hd with
            | nothing => exact absurd rfl h0
            | panics => exact absurd rfl hr

theorem genKind_ok_iff (i bit : Nat) (f : PField) (k : Kind) :
    genKind i bit f = .ok k ↔ Verif.genKind bit f = .ok k := by
  rw [← genKind_forget i, mapError_ok]

theorem genFields_error {fields : List RawField} {pfs : List PField}
    (hl : pfs.length = fields.length)
    (hp : ∀ (i : Nat) (f : RawField) (pf : PField), fields[i]? = some f → pfs[i]? = some pf → Parsed f pf)
    (i bit : Nat) (r : Failure) : genFields i bit pfs = .error r ↔
      ∃ pre f post ss ty, fields = pre ++ f :: post ∧ Laid bit pre ss ∧
        TypeText true (tyToString f.ty) ty ∧
        ((RawNamed f ∧ r = .panicked) ∨ (¬ RawNamed f ∧
          KindDefect (i + pre.length) (bit + (ss.map fun s => kindBits s.kind).sum)
            (constructTexts f.attrs) ty r)) := by
  induction fields generalizing pfs bit i with
  | nil =>
    cases pfs with
    | cons => cases hl
    | nil =>
      simp only [genFields]
      refine ⟨fun h => (by cases h), ?_⟩
      rintro ⟨pre, f, post, _, _, h, _⟩
      cases pre <;> cases h
  | cons f fs ih =>
    cases pfs with
    | nil => cases hl
    | cons pf pfs =>
      obtain ⟨h1, h2, h3, h4, h5⟩ := hp 0 f pf rfl rfl
      have hrest := ih (pfs := pfs) (by simpa using hl)
        (fun i f pf hf hpf => hp (i + 1) f pf (by simpa using hf) (by simpa using hpf))
      have hk := genKind_iff h5 bit
      have hkp := genKind_error h5 i bit
      have hlen : pf.packetLength.isSome = true ↔ lengthTexts f.attrs ≠ [] := by
        rw [h4, Option.isSome_iff_ne_none, ne_eq, List.getLast?_eq_none_iff]
      have hdet : ∀ {ty}, TypeText true (tyToString f.ty) ty → ty = pf.ty := by
        intro ty g4
        rw [← parseType_iff] at g4 h2
        rw [h2] at g4; cases g4; rfl
      have hraw := rawName_iff h1
      simp only [genFields]
      constructor
      · intro h
        split at h
        · rename_i hr
          cases h
          exact ⟨[], f, fs, [], pf.ty, rfl, .nil, h2, .inl ⟨hraw.mp hr, rfl⟩⟩
        rename_i hnr
        have hnr' : ¬ RawNamed f := fun hr => hnr (hraw.mpr hr)
        cases hg : genKind i bit pf with
        | error err =>
          rw [hg] at h
          cases h
          exact ⟨[], f, fs, [], pf.ty, rfl, .nil, h2, .inr ⟨hnr', by simpa using (hkp _).mp hg⟩⟩
        | ok k =>
          rw [hg] at h
          simp only at h
          cases hg2 : genFields (i + 1) (bit + k.bits) pfs with
          | ok ss => rw [hg2] at h; cases h
          | error err =>
            rw [hg2] at h
            cases h
            obtain ⟨pre, g, post, ss, ty, e1, e2, e3, e4⟩ := (hrest _ _).mp hg2
            obtain ⟨g1, g2⟩ := (hk k).mp ((genKind_ok_iff _ _ _ _).mp hg)
            refine ⟨f :: pre, g, post,
              ⟨pf.name, k, pf.isPayload, pf.packetLength.isSome⟩ :: ss, ty, by rw [e1]; rfl,
              .cons ⟨h1, h3, hlen, pf.ty, h2, g1⟩ hnr' g2 (by rw [← Kind.bits_eq]; exact e2), e3, ?_⟩
            rw [Kind.bits_eq] at e4
            rw [List.length_cons, Nat.add_comm pre.length 1, ← Nat.add_assoc]
            simpa [Nat.add_assoc] using e4
      · rintro ⟨pre, g, post, ss, ty, e1, e2, e3, e4⟩
        cases e2 with
        | nil =>
          cases e1
          have := hdet e3
          subst this
          rcases e4 with ⟨e4, rfl⟩ | ⟨hnr, e4⟩
          · rw [if_pos (hraw.mpr e4)]
          · rw [if_neg (fun hr => hnr (hraw.mp hr)), (hkp r).mpr (by simpa using e4)]
        | @cons _ f' pre s ss hs hnr hfit hlaid =>
          cases e1
          obtain ⟨g1, g2, g3, ty', g4, g5⟩ := hs
          have := hdet g4
          subst this
          rw [if_neg (fun hr => hnr (hraw.mp hr)), (genKind_ok_iff _ _ _ _).mpr ((hk _).mpr ⟨g5, hfit⟩)]
          simp only
          rw [Kind.bits_eq, (hrest _ _).mpr ⟨pre, g, post, ss, ty, rfl, hlaid, e3, ?_⟩]
          rw [List.length_cons, Nat.add_comm pre.length 1, ← Nat.add_assoc] at e4
          simpa [Nat.add_assoc] using e4

theorem deriveMacro_error (tok : String → Option (List TT)) (fields : List RawField) (r : Failure) :
    deriveMacro tok fields = .error r ↔ Reported tok fields r := by
  have hacc : (∃ pfs, Verif.parsePacket (lengthTextOk tok) fields = .ok pfs) ↔ _ :=
    fieldLoop_iff (lengthTextOk tok) fields false
  simp only [Bool.false_eq_true, if_false, Nat.add_zero] at hacc
  have hloop := fieldLoop_error tok fields 0 [] false fields (by simp) (by simp)
  simp only [List.nil_append, Nat.zero_add] at hloop
  unfold deriveMacro parsePacket
  cases hp : fieldLoop tok fields 0 false fields with
  | error e =>
    simp only [Except.error.injEq]
    constructor
    · rintro rfl
      obtain ⟨pre, f, post, h1, h2, h3, h4⟩ := (hloop e).mp hp
      exact .field h1 h2 h3 h4
    · intro h
      cases h with
      | field h1 h2 h3 h4 =>
        have := (hloop r).mpr ⟨_, _, _, h1, h2, h3, h4⟩
        rw [hp] at this; cases this; rfl
      | kind h1 h2 | rawName h1 h2 =>
        obtain ⟨pfs, hpfs⟩ := hacc.mpr ⟨h1, h2⟩
        unfold Verif.parsePacket at hpfs
        rw [← fieldLoop_forget tok fields 0, mapError_ok, hp] at hpfs
        cases hpfs
  | ok pfs =>
    have hpfs : Verif.parsePacket (lengthTextOk tok) fields = .ok pfs := by
      unfold Verif.parsePacket
      rw [← fieldLoop_forget tok fields 0, mapError_ok]; exact hp
    obtain ⟨g1, g2⟩ := hacc.mp ⟨pfs, hpfs⟩
    obtain ⟨k1, k2⟩ := parsed_of_parsePacket hpfs
    have hgen := genFields_error k1 k2 0 0 r
    simp only [Nat.zero_add] at hgen
    simp only
    rw [hgen]
    constructor
    · rintro ⟨pre, f, post, ss, ty, e1, e2, e3, ⟨e4, rfl⟩ | ⟨hnr, e4⟩⟩
      · exact .rawName g1 g2 e1 e2 e4
      · exact .kind g1 g2 e1 e2 hnr e3 e4
    · intro h
      cases h with
      | field h1 h2 h3 h4 =>
        have := (hloop r).mpr ⟨_, _, _, h1, h2, h3, h4⟩
        rw [hp] at this; cases this
      | kind _ _ e1 e2 hnr e3 e4 => exact ⟨_, _, _, _, _, e1, e2, e3, .inr ⟨hnr, e4⟩⟩
      | @rawName pre f post ss _ _ e1 e2 hr =>
        obtain ⟨_, _, ty, hty, _⟩ := g1 pre.length f (by rw [e1]; simp)
        exact ⟨_, _, _, _, ty, e1, e2, hty, .inl ⟨hr, rfl⟩⟩

end Diag
end Verif
