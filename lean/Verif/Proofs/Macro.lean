import Verif.Spec.Macro
import Verif.Proofs.Parse
import Verif.Props.Fields

/-! # Helper lemmas about the macro as a whole -/

namespace Verif
open Spec

theorem fits_at (bit n : Nat) (e : Endianness) :
    (∃ ops, operations (bit % 8) n e = some ops) ↔ FitsAt bit n := by
  rw [← Option.isSome_iff_exists]
  refine (Props.C05_accepted_partial n (bit % 8) e).trans ?_
  unfold FitsAt
  have : bit % 8 ≤ 7 := by omega
  simp [this]

theorem fits_vec (n : Nat) :
    (n % 8 = 0 ∧ ∃ ops, operations 0 n .big = some ops) ↔ 8 ∣ n ∧ 8 ≤ n ∧ n ≤ 64 := by
  have := fits_at 0 n .big
  rw [show 0 % 8 = 0 from rfl] at this
  rw [this]
  unfold FitsAt
  omega

theorem Kind.bits_eq (k : Kind) : k.bits = kindBits k := by cases k <;> rfl

theorem isIdent_iff (t : List Char) : isIdent t = true ↔ Identifier t := by
  cases t with
  | nil => simp [isIdent, Identifier]
  | cons c cs =>
    simp only [isIdent, Identifier, Bool.and_eq_true, Bool.or_eq_true, beq_iff_eq, List.all_eq_true]
    constructor
    · intro h; exact ⟨c, cs, rfl, h⟩
    · rintro ⟨c', cs', h1, h2⟩; cases h1; exact h2

theorem typeText_int {a : List Char} {t : List Char} {w : Nat} {e : Endianness} :
    TypeText false a (.primitive t w e) ↔ t = a ∧ w < 2 ^ 64 ∧ ∃ b, IntType a w e b := by
  constructor
  · intro h
    cases h with
    | int h1 h2 _ => exact ⟨rfl, h2, _, h1⟩
  · rintro ⟨rfl, h2, b, h1⟩
    exact .int h1 h2 (fun h => (by cases h))

/-- The texts denote these types. -/
inductive TypeTexts : List (List Char) → List PType → Prop
  | nil : TypeTexts [] []
  | cons {a as t ts} : TypeText false a t → TypeTexts as ts → TypeTexts (a :: as) (t :: ts)

theorem typeTexts_of_map {as : List (List Char)} {ts : List PType}
    (h : ts.map Except.ok = as.map (parseType · false)) : TypeTexts as ts := by
  induction as generalizing ts with
  | nil =>
    cases ts with
    | nil => exact .nil
    | cons t ts => cases h
  | cons a as ih =>
    cases ts with
    | nil => cases h
    | cons t ts =>
      simp only [List.map_cons, List.cons.injEq] at h
      exact .cons ((parseType_iff _ _ _).mp h.1.symm) (ih h.2)

theorem genArgs_iff {as : List (List Char)} {ts : List PType} (h : TypeTexts as ts) (bit : Nat)
    (ps : List Prim) : genArgs bit ts = .ok ps ↔ ArgTexts as ps ∧ AllFit bit ps := by
  induction h generalizing bit ps with
  | nil =>
    simp only [genArgs]
    constructor
    · intro h; cases h; exact ⟨.nil, .nil⟩
    · rintro ⟨h, _⟩; cases h; rfl
  | @cons a as t ts ht hts ih =>
    have hdet : ∀ {w e b}, IntType a w e b → w < 2 ^ 64 → t = .primitive a w e := by
      intro w e b h1 h2
      have h3 : TypeText false a (.primitive a w e) := .int h1 h2 (fun h => (by cases h))
      rw [← parseType_iff] at h3 ht
      rw [ht] at h3
      cases h3; rfl
    cases t with
    | primitive text w e =>
      obtain ⟨rfl, hw, b, hi⟩ := typeText_int.mp ht
      simp only [genArgs]
      have hf := fits_at bit w e
      cases ho : operations (bit % 8) w e with
      | none =>
        simp only
        rw [ho] at hf
        constructor
        · intro h; cases h
        · rintro ⟨h1, h2⟩
          cases h1 with
          | @cons _ _ p ps _ g1 g2 g3 =>
            have := hdet g1 g2
            cases this
            cases h2 with
            | cons f1 f2 => obtain ⟨ops, hc⟩ := hf.mpr f1; cases hc
      | some ops =>
        simp only
        have hfit := hf.mp ⟨ops, ho⟩
        constructor
        · intro h
          cases hg : genArgs (bit + w) ts with
          | error err => rw [hg] at h; cases h
          | ok ps' =>
            rw [hg] at h
            cases h
            obtain ⟨g1, g2⟩ := (ih _ _).mp hg
            exact ⟨.cons hi hw g1, .cons hfit g2⟩
        · rintro ⟨h1, h2⟩
          cases h1 with
          | @cons _ _ p ps _ g1 g2 g3 =>
            obtain ⟨pw, pe⟩ := p
            have hh := hdet g1 g2
            cases hh
            cases h2 with
            | cons f1 f2 => rw [(ih _ _).mpr ⟨g3, f2⟩]
    | vector t =>
      simp only [genArgs]
      refine ⟨fun h => (by cases h), ?_⟩
      rintro ⟨h1, _⟩
      cases h1 with
      | cons g1 g2 _ => cases hdet g1 g2
    | misc t =>
      simp only [genArgs]
      refine ⟨fun h => (by cases h), ?_⟩
      rintro ⟨h1, _⟩
      cases h1 with
      | cons g1 g2 _ => cases hdet g1 g2

theorem genKind_iff {args : List (List Char)} {f : PField} (h : TypeTexts args f.constructWith)
    (bit : Nat) (k : Kind) :
    genKind bit f = .ok k ↔ KindOf args f.ty k ∧ KindFits bit k := by
  unfold genKind
  cases ht : f.ty with
  | primitive t w e =>
    simp only
    have hf := fits_at bit w e
    cases ho : operations (bit % 8) w e with
    | none =>
      rw [ho] at hf
      refine ⟨fun h => (by cases h), ?_⟩
      rintro ⟨h1, h2⟩
      cases h1
      obtain ⟨_, hc⟩ := hf.mpr h2; cases hc
    | some ops =>
      constructor
      · intro h; cases h; exact ⟨.prim, hf.mp ⟨_, ho⟩⟩
      · rintro ⟨h1, h2⟩; cases h1; rfl
  | misc t =>
    simp only
    constructor
    · intro hk
      cases hg : genArgs bit f.constructWith with
      | error err => rw [hg] at hk; cases hk
      | ok ps =>
        rw [hg] at hk
        cases hk
        obtain ⟨h1, h2⟩ := (genArgs_iff h bit ps).mp hg
        exact ⟨.misc h1, h2⟩
    · rintro ⟨h1, h2⟩
      cases h1 with
      | misc h3 => rw [(genArgs_iff h bit _).mpr ⟨h3, h2⟩]
  | vector inner =>
    cases inner with
    | primitive t w e =>
      simp only
      have hf := fits_vec w
      split
      · rename_i hw
        refine ⟨fun h => (by cases h), ?_⟩
        rintro ⟨h1, h2⟩
        cases h1
        exact absurd (hf.mpr h2).1 hw
      · rename_i hw
        have hw : w % 8 = 0 := by omega
        cases ho : operations 0 w .big with
        | none =>
          rw [ho] at hf
          refine ⟨fun h => (by cases h), ?_⟩
          rintro ⟨h1, h2⟩
          cases h1
          obtain ⟨_, _, hc⟩ := hf.mpr h2; cases hc
        | some ops =>
          constructor
          · intro h; cases h; exact ⟨.vecPrim, hf.mp ⟨hw, _, ho⟩⟩
          · rintro ⟨h1, h2⟩; cases h1; rfl
    | vector t =>
      simp only
      refine ⟨fun h => (by cases h), ?_⟩
      rintro ⟨h1, _⟩
      cases h1
    | misc t =>
      simp only
      split
      · rename_i h0
        refine ⟨fun h => (by cases h), ?_⟩
        rintro ⟨h1, _⟩
        cases h1 with
        | vecPkt h2 => obtain ⟨c, cs, h3, _⟩ := h2; rw [h0] at h3; cases h3
      · split
        · rename_i hi
          constructor
          · intro h; cases h; exact ⟨.vecPkt ((isIdent_iff t).mp hi), trivial⟩
          · rintro ⟨h1, _⟩; cases h1; rfl
        · rename_i hi
          refine ⟨fun h => (by cases h), ?_⟩
          rintro ⟨h1, _⟩
          cases h1 with
          | vecPkt h2 => exact absurd ((isIdent_iff t).mpr h2) hi

/-- A parsed field is what is written. -/
def Parsed (f : RawField) (pf : PField) : Prop :=
  f.name = some pf.name ∧ TypeText true (tyToString f.ty) pf.ty ∧
  (pf.isPayload = true ↔ .path (some "payload") ∈ f.attrs) ∧
  pf.packetLength = (lengthTexts f.attrs).getLast? ∧
  TypeTexts (constructTexts f.attrs) pf.constructWith

theorem rawName_iff {f : RawField} {pf : PField} (h : f.name = some pf.name) :
    rawName pf.name = true ↔ RawNamed f := by
  unfold rawName RawNamed
  rw [h, List.isPrefixOf_iff_prefix]
  constructor
  · rintro ⟨rest, e⟩
    exact ⟨pf.name, rest, rfl, e.symm⟩
  · rintro ⟨name, rest, e, e2⟩
    cases e
    exact ⟨rest, e2.symm⟩

theorem genFields_iff {fields : List RawField} {pfs : List PField}
    (hl : pfs.length = fields.length)
    (hp : ∀ (i : Nat) (f : RawField) (pf : PField), fields[i]? = some f → pfs[i]? = some pf → Parsed f pf) (bit : Nat)
    (ss : List Shape) : genFields bit pfs = .ok ss ↔ Laid bit fields ss := by
  induction fields generalizing pfs bit ss with
  | nil =>
    cases pfs with
    | cons => cases hl
    | nil =>
      simp only [genFields]
      constructor
      · intro h; cases h; exact .nil
      · intro h; cases h; rfl
  | cons f fs ih =>
    cases pfs with
    | nil => cases hl
    | cons pf pfs =>
      obtain ⟨h1, h2, h3, h4, h5⟩ := hp 0 f pf rfl rfl
      have hrest := ih (pfs := pfs) (by simpa using hl)
        (fun i f pf hf hpf => hp (i + 1) f pf (by simpa using hf) (by simpa using hpf))
      have hk := genKind_iff h5 bit
      have hlen : pf.packetLength.isSome = true ↔ lengthTexts f.attrs ≠ [] := by
        rw [h4, Option.isSome_iff_ne_none, ne_eq, List.getLast?_eq_none_iff]
      have hraw := rawName_iff h1
      simp only [genFields]
      constructor
      · intro h
        split at h
        · cases h
        rename_i hnr
        cases hg : genKind bit pf with
        | error err => rw [hg] at h; cases h
        | ok k =>
          rw [hg] at h
          simp only at h
          cases hg2 : genFields (bit + k.bits) pfs with
          | error err => rw [hg2] at h; cases h
          | ok ss' =>
            rw [hg2] at h
            cases h
            obtain ⟨g1, g2⟩ := (hk k).mp hg
            refine .cons ⟨h1, h3, hlen, pf.ty, h2, g1⟩ (fun hr => hnr (hraw.mpr hr)) g2 ?_
            rw [← Kind.bits_eq]
            exact (hrest _ _).mp hg2
      · intro h
        cases h with
        | @cons _ _ _ s ss hs hnr hfit hlaid =>
          obtain ⟨g1, g2, g3, ty, g4, g5⟩ := hs
          have hty : ty = pf.ty := by
            rw [← parseType_iff] at g4 h2
            rw [h2] at g4; cases g4; rfl
          subst hty
          rw [if_neg (fun hr => hnr (hraw.mp hr)), (hk _).mpr ⟨g5, hfit⟩]
          simp only
          rw [Kind.bits_eq, (hrest _ _).mpr hlaid]
          simp only
          obtain ⟨sn, sk, sp, sl⟩ := s
          simp only at *
          have e1 : pf.name = sn := by rw [h1] at g1; cases g1; rfl
          have e2 : pf.isPayload = sp := by
            rw [Bool.eq_iff_iff, h3, g2]
          have e3 : pf.packetLength.isSome = sl := by
            rw [Bool.eq_iff_iff, hlen, g3]
          rw [e1, e2, e3]

theorem parsed_of_parsePacket {lenOk : String → Bool} {fields : List RawField} {pfs : List PField}
    (h : parsePacket lenOk fields = .ok pfs) : pfs.length = fields.length ∧
    ∀ (i : Nat) (f : RawField) (pf : PField), fields[i]? = some f → pfs[i]? = some pf →
      Parsed f pf := by
  obtain ⟨h1, h2⟩ := fieldLoop_fields lenOk fields false pfs h
  refine ⟨h1, fun i f pf hf hpf => ?_⟩
  obtain ⟨g1, g2, g3, _⟩ := h2 i f pf hf hpf
  obtain ⟨k1, k2, _⟩ := fieldLoop_texts lenOk fields false pfs h i f pf hf hpf
  exact ⟨g1, (parseType_iff _ _ _).mp g2, g3, k1, typeTexts_of_map k2⟩

theorem deriveMacro_iff (lenOk : String → Bool) (fields : List RawField) (ss : List Shape) :
    deriveMacro lenOk fields = .ok ss ↔
      (∀ i f, fields[i]? = some f → LegalField lenOk (i + 1 = fields.length) f) ∧
      (fields.flatMap (·.attrs)).count (.path (some "payload")) ≤ 1 ∧ Laid 0 fields ss := by
  have hacc : (∃ pfs, parsePacket lenOk fields = .ok pfs) ↔ _ := fieldLoop_iff lenOk fields false
  simp only [Bool.false_eq_true, if_false, Nat.add_zero] at hacc
  rw [← and_assoc, ← hacc]
  unfold deriveMacro
  cases hp : parsePacket lenOk fields with
  | error err =>
    simp only
    refine ⟨fun h => (by cases h), ?_⟩
    rintro ⟨⟨_, h⟩, _⟩; cases h
  | ok pfs =>
    simp only
    obtain ⟨h1, h2⟩ := parsed_of_parsePacket hp
    rw [genFields_iff h1 h2]
    simp

/-! ## Panics of the macro -/

theorem genArgs_panics {as : List (List Char)} {ts : List PType} (h : TypeTexts as ts) (bit : Nat) :
    genArgs bit ts = .error .panicked ↔ ArgsPanic bit as := by
  induction h generalizing bit with
  | nil =>
    simp only [genArgs]
    refine ⟨fun h => (by cases h), fun h => (by cases h)⟩
  | @cons a as t ts ht hts ih =>
    have hdet : ∀ {w e b}, IntType a w e b → w < 2 ^ 64 → t = .primitive a w e := by
      intro w e b h1 h2
      have h3 : TypeText false a (.primitive a w e) := .int h1 h2 (fun h => (by cases h))
      rw [← parseType_iff] at h3 ht
      rw [ht] at h3
      cases h3; rfl
    have hnot : (∀ w e, t ≠ .primitive a w e) → ¬ ArgsPanic bit (a :: as) := by
      intro hne hp
      cases hp with
      | here g1 g2 _ => exact hne _ _ (hdet g1 g2)
      | later g1 g2 _ _ => exact hne _ _ (hdet g1 g2)
    cases t with
    | primitive text w e =>
      obtain ⟨rfl, hw, b, hi⟩ := typeText_int.mp ht
      simp only [genArgs]
      have hf := fits_at bit w e
      cases ho : operations (bit % 8) w e with
      | none =>
        rw [ho] at hf
        simp only [true_iff]
        exact .here hi hw (fun h => by obtain ⟨_, hc⟩ := hf.mpr h; cases hc)
      | some ops =>
        have hfit := hf.mp ⟨ops, ho⟩
        simp only
        constructor
        · intro h
          refine .later hi hw hfit ((ih _).mp ?_)
          cases hg : genArgs (bit + w) ts with
          | error err => rw [hg] at h; cases h; rfl
          | ok ps => rw [hg] at h; cases h
        · intro h
          cases h with
          | here g1 g2 g3 => cases hdet g1 g2; exact absurd hfit g3
          | later g1 g2 g3 g4 => cases hdet g1 g2; rw [(ih _).mpr g4]
    | vector t =>
      simp only [genArgs]
      exact ⟨fun h => (by cases h), fun h => absurd h (hnot fun _ _ hc => by cases hc)⟩
    | misc t =>
      simp only [genArgs]
      exact ⟨fun h => (by cases h), fun h => absurd h (hnot fun _ _ hc => by cases hc)⟩

theorem genKind_panics {args : List (List Char)} {f : PField} (h : TypeTexts args f.constructWith)
    (bit : Nat) : genKind bit f = .error .panicked ↔ KindPanics bit args f.ty := by
  unfold genKind
  cases ht : f.ty with
  | primitive t w e =>
    simp only [KindPanics, ← fits_at bit w e]
    cases ho : operations (bit % 8) w e <;> simp
  | misc t =>
    simp only [KindPanics, ← genArgs_panics h]
    cases hg : genArgs bit f.constructWith <;> simp
  | vector inner =>
    cases inner with
    | primitive t w e =>
      have hf := fits_vec w
      simp only [KindPanics]
      split
      · rename_i hw
        refine ⟨fun h => (by cases h), fun h => ?_⟩
        omega
      · rename_i hw
        have hw : w % 8 = 0 := by omega
        cases ho : operations 0 w .big with
        | none =>
          rw [ho] at hf
          simp only [true_iff]
          refine ⟨by omega, fun hc => ?_⟩
          obtain ⟨_, _, h0⟩ := hf.mpr ⟨by omega, hc⟩; cases h0
        | some ops =>
          have := hf.mp ⟨hw, _, ho⟩
          refine ⟨fun h => (by cases h), fun h => absurd this.2 h.2⟩
    | vector t =>
      simp only [KindPanics]
      exact ⟨fun h => (by cases h), fun h => h.elim⟩
    | misc t =>
      simp only [KindPanics, ← isIdent_iff]
      split
      · rename_i h0
        exact ⟨fun h => (by cases h), fun h => absurd h0 h.1⟩
      · rename_i h0
        split
        · rename_i hi
          exact ⟨fun h => (by cases h), fun h => absurd hi h.2⟩
        · rename_i hi
          exact ⟨fun _ => ⟨h0, hi⟩, fun _ => rfl⟩

theorem genFields_panics {fields : List RawField} {pfs : List PField}
    (hl : pfs.length = fields.length)
    (hp : ∀ (i : Nat) (f : RawField) (pf : PField), fields[i]? = some f → pfs[i]? = some pf → Parsed f pf)
    (bit : Nat) : genFields bit pfs = .error .panicked ↔
      ∃ pre f post ss ty, fields = pre ++ f :: post ∧ Laid bit pre ss ∧
        TypeText true (tyToString f.ty) ty ∧
        (RawNamed f ∨
          KindPanics (bit + (ss.map fun s => kindBits s.kind).sum) (constructTexts f.attrs) ty) := by
  induction fields generalizing pfs bit with
  | nil =>
    cases pfs with
    | cons => cases hl
    | nil =>
      simp only [genFields]
      refine ⟨fun h => (by cases h), ?_⟩
      rintro ⟨pre, f, post, _, _, h, _⟩
      cases pre <;> cases h
  | cons f fs ih =>
    cases pfs with
    | nil => cases hl
    | cons pf pfs =>
      obtain ⟨h1, h2, h3, h4, h5⟩ := hp 0 f pf rfl rfl
      have hrest := ih (pfs := pfs) (by simpa using hl)
        (fun i f pf hf hpf => hp (i + 1) f pf (by simpa using hf) (by simpa using hpf))
      have hk := genKind_iff h5 bit
      have hkp := genKind_panics h5 bit
      have hlen : pf.packetLength.isSome = true ↔ lengthTexts f.attrs ≠ [] := by
        rw [h4, Option.isSome_iff_ne_none, ne_eq, List.getLast?_eq_none_iff]
      have hdet : ∀ {ty}, TypeText true (tyToString f.ty) ty → ty = pf.ty := by
        intro ty g4
        rw [← parseType_iff] at g4 h2
        rw [h2] at g4; cases g4; rfl
      have hraw := rawName_iff h1
      simp only [genFields]
      constructor
      · intro h
        split at h
        · rename_i hr
          exact ⟨[], f, fs, [], pf.ty, rfl, .nil, h2, .inl (hraw.mp hr)⟩
        rename_i hnr
        cases hg : genKind bit pf with
        | error err =>
          rw [hg] at h
          cases h
          exact ⟨[], f, fs, [], pf.ty, rfl, .nil, h2, .inr (by simpa using hkp.mp hg)⟩
        | ok k =>
          rw [hg] at h
          simp only at h
          cases hg2 : genFields (bit + k.bits) pfs with
          | ok ss => rw [hg2] at h; cases h
          | error err =>
            rw [hg2] at h
            cases h
            obtain ⟨pre, g, post, ss, ty, e1, e2, e3, e4⟩ := (hrest _).mp hg2
            obtain ⟨g1, g2⟩ := (hk k).mp hg
            refine ⟨f :: pre, g, post,
              ⟨pf.name, k, pf.isPayload, pf.packetLength.isSome⟩ :: ss, ty, by rw [e1]; rfl,
              .cons ⟨h1, h3, hlen, pf.ty, h2, g1⟩ (fun hr => hnr (hraw.mpr hr)) g2 (by rw [← Kind.bits_eq]; exact e2), e3, ?_⟩
            rw [Kind.bits_eq] at e4
            simpa [Nat.add_assoc] using e4
      · rintro ⟨pre, g, post, ss, ty, e1, e2, e3, e4⟩
        cases e2 with
        | nil =>
          cases e1
          have := hdet e3
          subst this
          rcases e4 with e4 | e4
          · rw [if_pos (hraw.mpr e4)]
          · split
            · rfl
            · rw [hkp.mpr (by simpa using e4)]
        | @cons _ f' pre s ss hs hnr hfit hlaid =>
          cases e1
          obtain ⟨g1, g2, g3, ty', g4, g5⟩ := hs
          have := hdet g4
          subst this
          rw [if_neg (fun hr => hnr (hraw.mp hr)), (hk _).mpr ⟨g5, hfit⟩]
          simp only
          rw [Kind.bits_eq, (hrest _).mpr ⟨pre, g, post, ss, ty, rfl, hlaid, e3, ?_⟩]
          simpa [Nat.add_assoc] using e4

/-! ## The modelled declarations and their texts -/

/-- The shape of a modelled field. -/
def fieldShape (f : Field) : Shape := ⟨f.name, kindOfTy f.ty, f.payload, f.len.isSome⟩

theorem shapes_eq (d : Decl) : shapes d = d.fields.map fieldShape := rfl

theorem acceptedArgs_iff (bit : Nat) (ps : List Prim) : acceptedArgs bit ps = true ↔ AllFit bit ps := by
  induction ps generalizing bit with
  | nil => simp only [acceptedArgs, true_iff]; exact .nil
  | cons p ps ih =>
    simp only [acceptedArgs, Bool.and_eq_true, ih, Prim.accepted, Option.isSome_iff_exists, fits_at]
    constructor
    · rintro ⟨h1, h2⟩; exact .cons h1 h2
    · intro h; cases h with | cons h1 h2 => exact ⟨h1, h2⟩

theorem tyAccepted_iff (bit : Nat) (ty : Ty) :
    ty.accepted bit = true ↔ KindFits bit (kindOfTy ty) ∧ ∀ args, ty = .misc args → args ≠ [] := by
  cases ty with
  | prim p =>
    simp only [Ty.accepted, Prim.accepted, Option.isSome_iff_exists, fits_at, kindOfTy, KindFits]
    simp
  | misc args =>
    simp only [Ty.accepted, Bool.and_eq_true, acceptedArgs_iff, kindOfTy, KindFits]
    cases args <;> simp
  | vecPrim p =>
    simp only [Ty.accepted, Bool.and_eq_true, Prim.accepted, Option.isSome_iff_exists, kindOfTy,
      KindFits, beq_iff_eq, fits_vec]
    simp
  | vecPkt c => simp [Ty.accepted, kindOfTy, KindFits]

theorem bits_eq (ty : Ty) : ty.bits = kindBits (kindOfTy ty) := by cases ty <;> rfl

theorem constructTexts_ne_nil {lenOk : String → Bool} {attrs : List Meta} {items : List (Option (List Char))}
    (h : ∀ m ∈ attrs, LegalAttr lenOk m) (hm : .list (some "construct_with") items ∈ attrs) :
    constructTexts attrs ≠ [] := by
  obtain ⟨_, h1, h2⟩ := h _ hm
  cases items with
  | nil => exact absurd rfl h1
  | cons item items =>
    obtain ⟨text, ty, rfl, _⟩ := h2 item List.mem_cons_self
    have : text ∈ constructTexts attrs := by
      unfold constructTexts
      rw [List.mem_flatMap]
      exact ⟨_, hm, by simp⟩
    intro h
    rw [h] at this
    cases this

theorem laid_length {bit : Nat} {raws : List RawField} {ss : List Shape} (h : Laid bit raws ss) :
    raws.length = ss.length := by
  induction h with
  | nil => rfl
  | cons _ _ _ _ ih => simp [ih]

theorem mem_lengthTexts {attrs : List Meta} {s : String}
    (h : .nameValue (some "length") (some s) ∈ attrs) : lengthTexts attrs ≠ [] := by
  have : s ∈ lengthTexts attrs := by
    unfold lengthTexts
    rw [List.mem_filterMap]
    exact ⟨_, h, rfl⟩
  intro h0
  rw [h0] at this
  cases this

theorem vecOk {f : RawField} {raws : List RawField} (g : Field) (fs : List Field) {b : Bool}
    (h3 : (fieldShape g).hasLen = true ↔ lengthTexts f.attrs ≠ [])
    (h : 0 + 1 = (f :: raws).length ∨ ∃ s, .nameValue (some "length") (some s) ∈ f.attrs)
    (hl : raws.length = (fs.map fieldShape).length) :
    (!b || g.len.isSome || fs.isEmpty) = true := by
  rcases h with h | ⟨s, h⟩
  · have : fs = [] := by
      rw [← List.length_eq_zero_iff]
      simp at h hl
      rw [← hl, h]; rfl
    subst this
    simp
  · have := h3.mpr (mem_lengthTexts h)
    simp only [fieldShape] at this
    simp [this]

theorem accepted_of_laid {lenOk : String → Bool} {raws : List RawField} {fs : List Field} {bit : Nat}
    (hl : Laid bit raws (fs.map fieldShape))
    (hlegal : ∀ i f, raws[i]? = some f → LegalField lenOk (i + 1 = raws.length) f) :
    acceptedFields bit fs = true := by
  induction fs generalizing raws bit with
  | nil => rfl
  | cons g fs ih =>
    cases hl with
    | @cons _ f raws _ _ hs _ hfit hrest =>
      obtain ⟨_, ha, ty, hty, hvec, hmisc⟩ := hlegal 0 f rfl
      obtain ⟨_, _, h3, ty', hty', hk⟩ := hs
      have : ty' = ty := by
        rw [← parseType_iff] at hty hty'
        rw [hty] at hty'; cases hty'; rfl
      subst this
      simp only [acceptedFields, Bool.and_eq_true, tyAccepted_iff]
      refine ⟨⟨⟨hfit, ?_⟩, ?_⟩, ?_⟩
      · intro args hargs
        have hkk : kindOfTy g.ty = .misc args := by rw [hargs]; rfl
        simp only [fieldShape, hkk] at hk
        cases hk with
        | misc hat =>
          obtain ⟨items, hi⟩ := hmisc ⟨_, rfl⟩
          have := constructTexts_ne_nil ha hi
          rintro rfl
          generalize constructTexts f.attrs = ts at hat this
          cases hat
          exact this rfl
      · cases hg : g.ty with
        | prim p => simp [Ty.isVec]
        | misc args => simp [Ty.isVec]
        | vecPrim p =>
          simp only [fieldShape, hg, kindOfTy] at hk
          cases hk with
          | vecPrim => exact vecOk g fs h3 (hvec ⟨_, rfl⟩) (laid_length hrest)
        | vecPkt c =>
          simp only [fieldShape, hg, kindOfTy] at hk
          cases hk with
          | vecPkt => exact vecOk g fs h3 (hvec ⟨_, rfl⟩) (laid_length hrest)
      · rw [bits_eq]
        refine ih hrest fun i f' hf' => ?_
        have := hlegal (i + 1) f' (by simpa using hf')
        simpa using this

theorem payload_count {bit : Nat} {raws : List RawField} {fs : List Field}
    (hl : Laid bit raws (fs.map fieldShape)) :
    (fs.filter (·.payload)).length ≤ (raws.flatMap (·.attrs)).count (.path (some "payload")) := by
  induction fs generalizing raws bit with
  | nil => simp
  | cons g fs ih =>
    cases hl with
    | @cons _ f raws _ _ hs _ hfit hrest =>
      have := ih hrest
      obtain ⟨_, h2, _⟩ := hs
      simp only [List.flatMap_cons, List.count_append, List.filter_cons]
      split
      · rename_i hp
        have hp' := List.count_pos_iff.mpr (h2.mp hp)
        simp only [List.length_cons]
        omega
      · omega

/-! ### A text for every accepted declaration -/

/-- A decimal digit. -/
def digitChar (d : Nat) : Char := (decDigits[d]?.getD ('0', 0)).1

theorem digitChar_mem {d : Nat} (h : d < 10) : (digitChar d, d) ∈ decDigits := by
  have : ∀ d < 10, (digitChar d, d) ∈ decDigits := by decide
  exact this d h

/-- The text of an integer type of at most 99 bits. -/
def primText (p : Prim) : List Char :=
  'u' :: ([digitChar (p.size / 10), digitChar (p.size % 10)] ++
    match p.endian with | .big => ['b', 'e'] | .little => ['l', 'e'] | .host => ['h', 'e'])

theorem primText_int (p : Prim) (h : p.size < 100) : IntType (primText p) p.size p.endian true := by
  refine ⟨[digitChar (p.size / 10), digitChar (p.size % 10)], _, rfl, by simp, ?_, ?_⟩
  · have h1 : DecNum [digitChar (p.size / 10)] (10 * 0 + p.size / 10) :=
      .snoc .nil (digitChar_mem (by omega))
    have h2 := DecNum.snoc h1 (digitChar_mem (d := p.size % 10) (by omega))
    rw [show 10 * (10 * 0 + p.size / 10) + p.size % 10 = p.size by omega] at h2
    exact h2
  · cases p.endian <;> decide

theorem primText_spaces (p : Prim) (h : p.size < 100) : ' ' ∉ primText p := by
  obtain ⟨n, e⟩ := p
  simp only at h
  have key : ∀ n < 100, ∀ e, ' ' ∉ primText ⟨n, e⟩ := by
    intro n hn e
    have : ∀ n < 100, ' ' ∉ primText ⟨n, .big⟩ ∧ ' ' ∉ primText ⟨n, .little⟩ ∧ ' ' ∉ primText ⟨n, .host⟩ := by
      decide +kernel
    cases e
    · exact (this n hn).1
    · exact (this n hn).2.1
    · exact (this n hn).2.2
  exact key n h e

theorem primText_type (p : Prim) (h : p.size < 100) (imp : Bool) :
    TypeText imp (primText p) (.primitive (primText p) p.size p.endian) :=
  .int (primText_int p h) (by omega) (fun _ => .inr rfl)

/-- A declaration text for a modelled field. -/
def rawOf (f : Field) : RawField where
  name := some f.name
  attrs := (if f.payload then [.path (some "payload")] else []) ++
    (if f.len.isSome then [.nameValue (some "length") (some "0")] else []) ++
    match f.ty with
    | .misc args => [.list (some "construct_with") (args.map fun p => some (primText p))]
    | _ => []
  ty := match f.ty with
    | .prim p => primText p
    | .misc _ => ['A']
    | .vecPrim p => ['V', 'e', 'c', '<'] ++ primText p ++ ['>']
    | .vecPkt _ => ['V', 'e', 'c', '<', 'A', '>']

theorem rawOf_payload (f : Field) :
    (rawOf f).attrs.count (.path (some "payload")) = if f.payload then 1 else 0 := by
  cases h1 : f.payload <;> cases h2 : f.len.isSome <;> cases h3 : f.ty <;>
    simp [rawOf, h1, h2, h3]

theorem rawOf_lengths (f : Field) :
    lengthTexts (rawOf f).attrs = if f.len.isSome then ["0"] else [] := by
  cases h1 : f.payload <;> cases h2 : f.len.isSome <;> cases h3 : f.ty <;>
    simp [rawOf, h1, h2, h3, lengthTexts]

theorem rawOf_constructs (f : Field) : constructTexts (rawOf f).attrs =
    match f.ty with | .misc args => args.map primText | _ => [] := by
  cases h1 : f.payload <;> cases h2 : f.len.isSome <;> cases h3 : f.ty <;>
    simp [rawOf, h1, h2, h3, constructTexts, List.filterMap_map]

theorem argTexts_primText {bit : Nat} {ps : List Prim} (h : AllFit bit ps) :
    ArgTexts (ps.map primText) ps := by
  induction h with
  | nil => exact .nil
  | cons h1 _ ih =>
    have := h1.2.1
    exact .cons (primText_int _ (by omega)) (by omega) ih

theorem rawOf_kind (f : Field) {bit : Nat} (h : KindFits bit (kindOfTy f.ty)) :
    ∃ ty, TypeText true (tyToString (rawOf f).ty) ty ∧
      KindOf (constructTexts (rawOf f).attrs) ty (kindOfTy f.ty) ∧
      ((∃ inner, ty = .vector inner) → f.ty.isVec = true) ∧
      ((∃ text, ty = .misc text) → ∃ args, f.ty = .misc args) := by
  rw [rawOf_constructs]
  cases h3 : f.ty with
  | prim p =>
    rw [h3] at h
    have hp : p.size < 100 := by have := h.2.1; omega
    refine ⟨.primitive (primText p) p.size p.endian, ?_, .prim, ?_, ?_⟩
    · simp only [rawOf, h3]
      rw [tyToString_compact _ (primText_spaces p hp)]
      exact primText_type p hp true
    · rintro ⟨_, h⟩; cases h
    · rintro ⟨_, h⟩; cases h
  | misc args =>
    rw [h3] at h
    refine ⟨.misc ['A'], ?_, .misc (argTexts_primText h), ?_, fun _ => ⟨_, rfl⟩⟩
    · simp only [rawOf, h3]
      rw [tyToString_compact _ (by decide), ← parseType_iff]
      decide
    · rintro ⟨_, h⟩; cases h
  | vecPrim p =>
    rw [h3] at h
    have hp : p.size < 100 := by have := h.2.2; omega
    refine ⟨.vector (.primitive (primText p) p.size p.endian), ?_, .vecPrim, fun _ => rfl, ?_⟩
    · simp only [rawOf, h3]
      rw [tyToString_compact]
      · exact .vec (by decide) (primText_type p hp true)
      · have := primText_spaces p hp
        simp [this]
    · rintro ⟨_, h⟩; cases h
  | vecPkt c =>
    refine ⟨.vector (.misc ['A']), ?_, .vecPkt ⟨'A', [], rfl, .inl (by decide), by simp⟩, fun _ => rfl, ?_⟩
    · simp only [rawOf, h3]
      rw [tyToString_compact _ (by decide), ← parseType_iff]
      decide
    · rintro ⟨_, h⟩; cases h

theorem rawOf_legal (f : Field) {bit : Nat} {last : Prop} (h : f.ty.accepted bit = true)
    (hv : f.ty.isVec = true → f.len.isSome = true ∨ last) :
    LegalField (fun _ => true) last (rawOf f) := by
  obtain ⟨h1, h2⟩ := (tyAccepted_iff bit f.ty).mp h
  obtain ⟨ty, k1, k2, k3, k4⟩ := rawOf_kind f h1
  refine ⟨by simp [rawOf], ?_, ty, k1, ?_, ?_⟩
  · intro m hm
    simp only [rawOf, List.mem_append] at hm
    rcases hm with (hm | hm) | hm
    · split at hm
      · simp only [List.mem_singleton] at hm; subst hm; trivial
      · cases hm
    · split at hm
      · simp only [List.mem_singleton] at hm; subst hm; exact .inr ⟨rfl, _, rfl, rfl⟩
      · cases hm
    · split at hm
      · rename_i args hargs
        simp only [List.mem_singleton] at hm
        subst hm
        refine ⟨rfl, ?_, ?_⟩
        · simp only [ne_eq, List.map_eq_nil_iff]; exact h2 args hargs
        · intro item hi
          obtain ⟨p, hp, rfl⟩ := List.mem_map.mp hi
          rw [hargs] at h1
          have : p.size < 100 := by
            have key : ∀ {bit ps}, AllFit bit ps → ∀ p ∈ ps, p.size < 100 := by
              intro bit ps h
              induction h with
              | nil => intro p hp; cases hp
              | cons f1 _ ih =>
                intro p hp
                cases hp with
                | head => have := f1.2.1; omega
                | tail _ hp => exact ih p hp
            exact key h1 p hp
          exact ⟨_, _, rfl, primText_type p this false⟩
      · cases hm
  · intro hv'
    rcases hv (k3 hv') with hl | hl
    · right
      exact ⟨"0", by simp [rawOf, hl]⟩
    · exact .inl hl
  · intro hm
    obtain ⟨args, ha⟩ := k4 hm
    exact ⟨_, by simp only [rawOf, ha]; exact List.mem_append_right _ (List.mem_singleton.mpr rfl)⟩

theorem laid_rawOf {bit : Nat} {fs : List Field} (h : acceptedFields bit fs = true)
    (hraw : ∀ f ∈ fs, ∀ rest, f.name.toList ≠ 'r' :: '#' :: rest) :
    Laid bit (fs.map rawOf) (fs.map fieldShape) ∧
    (∀ i f, (fs.map rawOf)[i]? = some f → LegalField (fun _ => true) (i + 1 = (fs.map rawOf).length) f) ∧
    ((fs.map rawOf).flatMap (·.attrs)).count (.path (some "payload")) = (fs.filter (·.payload)).length := by
  induction fs generalizing bit with
  | nil => exact ⟨.nil, by simp, rfl⟩
  | cons f fs ih =>
    simp only [acceptedFields, Bool.and_eq_true] at h
    obtain ⟨⟨h1, h2⟩, h3⟩ := h
    rw [bits_eq] at h3
    obtain ⟨i1, i2, i3⟩ := ih h3 fun f hf => hraw f (List.mem_cons_of_mem _ hf)
    obtain ⟨k1, _⟩ := (tyAccepted_iff bit f.ty).mp h1
    obtain ⟨ty, t1, t2, _⟩ := rawOf_kind f k1
    have hnr : ¬ RawNamed (rawOf f) := by
      rintro ⟨name, rest, e1, e2⟩
      cases e1
      exact hraw f (List.mem_cons_self ..) rest e2
    refine ⟨.cons ⟨rfl, ?_, ?_, ty, t1, t2⟩ hnr k1 i1, ?_, ?_⟩
    · rw [← List.count_pos_iff, rawOf_payload]
      simp only [fieldShape]
      cases f.payload <;> simp
    · rw [rawOf_lengths]
      simp only [fieldShape]
      cases f.len.isSome <;> simp
    · intro i g hg
      cases i with
      | zero =>
        cases hg
        refine rawOf_legal f h1 fun hv => ?_
        rw [hv] at h2
        cases hl : f.len.isSome
        · right
          rw [hl] at h2
          cases fs with
          | nil => rfl
          | cons => simp at h2
        · exact .inl rfl
      | succ i =>
        have := i2 i g (by simpa using hg)
        simpa using this
    · simp only [List.map_cons, List.flatMap_cons, List.count_append, rawOf_payload, i3,
        List.filter_cons]
      cases f.payload
      · simp
      · simp; omega

theorem accepted_of_text {lenOk : String → Bool} {fields : List RawField} {d : Decl}
    (h : deriveMacro lenOk fields = .ok (shapes d)) : d.accepted = true := by
  rw [shapes_eq] at h
  obtain ⟨h1, h2, h3⟩ := (deriveMacro_iff _ _ _).mp h
  have := payload_count h3
  unfold Decl.accepted
  simp only [Bool.and_eq_true, decide_eq_true_eq]
  exact ⟨accepted_of_laid h3 h1, by omega⟩

theorem laid_names {bit : Nat} {raws : List RawField} {ss : List Shape} (h : Laid bit raws ss) :
    ∀ s ∈ ss, ∀ rest, s.name.toList ≠ 'r' :: '#' :: rest := by
  induction h with
  | nil => intro s hs; cases hs
  | cons h1 h2 _ _ ih =>
    intro s hs
    cases hs with
    | head => exact fun rest e => h2 ⟨_, rest, h1.1, e⟩
    | tail _ hs => exact ih s hs

theorem accepted_iff_text (d : Decl) :
    (d.accepted = true ∧ ∀ f ∈ d.fields, ∀ rest, f.name.toList ≠ 'r' :: '#' :: rest) ↔
      ∃ fields, deriveMacro (fun _ => true) fields = .ok (shapes d) := by
  rw [shapes_eq]
  unfold Decl.accepted
  simp only [Bool.and_eq_true, decide_eq_true_eq]
  constructor
  · rintro ⟨⟨h1, h2⟩, hraw⟩
    obtain ⟨g1, g2, g3⟩ := laid_rawOf h1 hraw
    exact ⟨_, (deriveMacro_iff _ _ _).mpr ⟨g2, by omega, g1⟩⟩
  · rintro ⟨fields, h⟩
    have hacc := accepted_of_text (d := d) h
    unfold Decl.accepted at hacc
    refine ⟨by simpa only [Bool.and_eq_true, decide_eq_true_eq] using hacc, fun f hf rest => ?_⟩
    exact laid_names ((deriveMacro_iff _ _ _).mp h).2.2 (fieldShape f) (List.mem_map_of_mem hf) rest

end Verif
