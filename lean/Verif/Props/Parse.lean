import Verif.Proofs.Parse

/-! # C52, C59, C60, C61: what the derive macro accepts -/

namespace Verif

open Spec

/-- C52: `parse_ty` recognises exactly the integer type texts whose width fits a `usize`, and returns
the decimal width, the endianness of the suffix (big without one) and whether there was a suffix. -/
theorem C52_parse_ty (s : List Char) (w : Nat) (e : Endianness) (spec : EndiannessSpecified) :
    parseTy s = some (w, e, spec) ↔ IntType s w e spec.toBool ∧ w < 2 ^ 64 :=
  parseTy_iff s w e spec

example : parseTy "u21he".toList = some (21, .host, .yes) ∧ parseTy "u007".toList = some (7, .big, .no) ∧
    parseTy "u21re".toList = none ∧ parseTy "u".toList = none ∧
    parseTy "u18446744073709551616".toList = none := by decide +kernel

/-- C52: a type text determines its width and endianness. -/
theorem C52_unique (s : List Char) (w w' : Nat) (e e' : Endianness) (b b' : Bool)
    (h : IntType s w e b) (h' : IntType s w' e' b') : w = w' ∧ e = e' ∧ b = b' := by
  obtain ⟨ds, suf, hs, hne, hd, hsuf⟩ := h
  obtain ⟨ds', suf', hs', hne', hd', hsuf'⟩ := h'
  have head : ∀ x ∈ intSuffixes, ∀ c ∈ x.1.head?, isDec c = false := by decide +kernel
  have hdig := ((decFrom_iff _ _).mpr hd).digits
  have hdig' := ((decFrom_iff _ _).mpr hd').digits
  have e1 := takeWhile_append_stop hdig (head _ hsuf)
  have e2 := takeWhile_append_stop hdig' (head _ hsuf')
  have heq : ds ++ suf = ds' ++ suf' := by
    rw [hs] at hs'
    exact (List.cons.inj hs').2
  simp only at e1 e2
  rw [heq] at e1
  have hds : ds = ds' := e1.1.symm.trans e2.1
  have hsf : suf = suf' := e1.2.symm.trans e2.2
  subst hds hsf
  have inj : ∀ x ∈ intSuffixes, ∀ y ∈ intSuffixes, x.1 = y.1 → x = y := by decide +kernel
  have hxy := inj _ hsuf _ hsuf' rfl
  simp only [Prod.mk.injEq, true_and] at hxy
  refine ⟨?_, hxy.1, hxy.2⟩
  have uniq : ∀ (r : Nat) (cs : List Char) (v v' : Nat), DecFrom r cs v → DecFrom r cs v' → v = v' := by
    intro r cs v v' h
    induction h with
    | nil => intro h'; cases h'; rfl
    | cons hc _ ih =>
      intro h'
      cases h' with
      | cons hc' h'' =>
        have := (dec_value hc).symm.trans (dec_value hc')
        subst this
        exact ih h''
  exact uniq 0 ds w w' ((decFrom_iff _ _).mpr hd) ((decFrom_iff _ _).mpr hd')

example : IntType "u16le".toList 16 .little true :=
  ((C52_parse_ty "u16le".toList 16 .little .yes).mp (by decide +kernel)).1

/-- C52: the type of a field is an integer field exactly for these texts; a width above 8 needs a
suffix (except inside `construct_with`, where the endianness does not matter). -/
theorem C52_integer_field (s t : List Char) (imp : Bool) (w : Nat) (e : Endianness) :
    parseType s imp = .ok (.primitive t w e) ↔
      t = s ∧ w < 2 ^ 64 ∧ ∃ b, IntType s w e b ∧ (imp = true → w ≤ 8 ∨ b = true) := by
  rw [parseType_unfold]
  constructor
  · intro h
    split at h
    · rename_i size e' spec hp
      split at h
      · rename_i hcond
        cases h
        obtain ⟨h1, h2⟩ := (C52_parse_ty _ _ _ _).mp hp
        refine ⟨rfl, h2, _, h1, ?_⟩
        rintro rfl
        cases spec <;> simp_all [EndiannessSpecified.toBool]
      · cases h
    · split at h
      · split at h
        · cases h
        · split at h <;> cases h
      · split at h <;> cases h
  · rintro ⟨rfl, hw, b, hty, hi⟩
    have hp : parseTy t = some (w, e, if b then .yes else .no) :=
      (C52_parse_ty _ _ _ _).mpr ⟨by cases b <;> exact hty, hw⟩
    rw [hp]
    cases b <;> cases imp <;> simp_all

example : parseType "u12be".toList true = .ok (.primitive "u12be".toList 12 .big) := by decide +kernel

/-- C52: an integer type wider than 8 bits without a suffix is a compile error. -/
theorem C52_endianness_required (s : List Char) (w : Nat) (e : Endianness)
    (h : IntType s w e false) (hw : w < 2 ^ 64) (h8 : 8 < w) :
    parseType s true = .error .rejected := by
  have hp : parseTy s = some (w, e, .no) := (C52_parse_ty _ _ _ _).mpr ⟨h, hw⟩
  rw [parseType_unfold, hp]
  have : ¬ w ≤ 8 := by omega
  simp [this]

example : parseType "u16".toList true = .error .rejected ∧
    parseType "u16".toList false = .ok (.primitive "u16".toList 16 .big) := by decide +kernel

/-- C61: `parse_type` gives a text exactly the type it denotes: an integer, a vector of what stands
between `Vec<` and the last character, or a user-defined name; references and integers wider than
8 bits without endianness (where that matters) have none. -/
theorem C61_types (s : List Char) (imp : Bool) (ty : PType) :
    parseType s imp = .ok ty ↔ TypeText imp s ty :=
  parseType_iff s imp ty

example : parseType "MacAddr".toList true = .ok (.misc "MacAddr".toList) ∧
    parseType "&str".toList true = .error .rejected := by decide +kernel

/-- C61: a `Vec` of a type without angle brackets, nested to any depth, is recognised as that many
vector levels around the inner type, both with the spaces the token printer inserts
(`Vec < Vec < u8 > >`) and without. -/
theorem C61_vec_nesting (n : Nat) (t : List Char) (h1 : '<' ∉ t) (h2 : ' ' ∉ t) (ty : PType)
    (ht : parseType t true = .ok ty) :
    parseType (tyToString (times n "Vec < ".toList ++ t ++ times n " >".toList)) true =
      .ok (Nat.repeat PType.vector n ty) ∧
    parseType (tyToString (times n "Vec<".toList ++ t ++ times n ">".toList)) true =
      .ok (Nat.repeat PType.vector n ty) := by
  have e := parseType_vecs n t true
  simp only [ht] at e
  refine ⟨?_, ?_⟩
  · rw [show "Vec < ".toList = ['V', 'e', 'c', ' ', '<', ' '] by decide +kernel,
      show " >".toList = [' ', '>'] by decide +kernel, tyToString_spaced n t h1 h2, e]
  · rw [show "Vec<".toList = ['V', 'e', 'c', '<'] by decide +kernel,
      show ">".toList = ['>'] by decide +kernel, tyToString_compact _ ?_, e]
    intro hm
    rcases List.mem_append.mp hm with hm | hm
    · rcases List.mem_append.mp hm with hm | hm
      · exact absurd (mem_times hm) (by decide)
      · exact h2 hm
    · exact absurd (mem_times hm) (by decide)

example : parseType (tyToString "Vec < Vec < u16be > >".toList) true =
    .ok (.vector (.vector (.primitive "u16be".toList 16 .big))) := by decide +kernel

/-- C61: the text `Vec<` by itself is not a type, but if it reached `parse_type` the macro would
panic instead of reporting an error; every other text is answered. -/
theorem C61_parse_type_total (s : List Char) (imp : Bool) : parseType s imp ≠ .error .hang := by
  have key : ∀ n (s : List Char), s.length < n → parseType s imp ≠ .error .hang := by
    intro n
    induction n with
    | zero => intro s h; omega
    | succ n ih =>
      intro s hs
      rw [parseType_unfold]
      split
      · split <;> simp
      · split
        · cases hv : vecInner s with
          | error e =>
            simp only [vecInner] at hv
            split at hv
            · cases hv; simp
            · split at hv
              · cases hv
              · cases hv; simp
          | ok t =>
            have := ih t (by have := vecInner_length hv; omega)
            simp only
            cases hp : parseType t imp with
            | ok ty => simp
            | error e => rw [hp] at this; simpa using this
        · split <;> simp
  exact key (s.length + 1) s (Nat.lt_succ_self _)

example : parseType "Vec<".toList true = .error .panicked := by decide +kernel

/-! ## Whole declarations -/

/-- C60: a declaration is accepted exactly when every field is named, carries only legal attributes
(`#[payload]` and other bare words, `#[length = "..."]` with a legal expression, a non-empty
`#[construct_with(...)]`), has a legal type, specifies `#[construct_with]` if its type is neither an
integer nor a vector, specifies `#[length]` if it is a vector and not the last field, and no more
than one `#[payload]` occurs. -/
theorem C60_accepted_iff (lenOk : String → Bool) (fields : List RawField) :
    (∃ pfs, parsePacket lenOk fields = .ok pfs) ↔
      (∀ i f, fields[i]? = some f → LegalField lenOk (i + 1 = fields.length) f) ∧
      (fields.flatMap (·.attrs)).count (.path (some "payload")) ≤ 1 := by
  rw [show (∃ pfs, parsePacket lenOk fields = .ok pfs) ↔ _ from fieldLoop_iff lenOk fields false]
  simp

/-- The right-hand side for a documented-in-the-manual shape: a byte, then a payload. -/
example : (∀ (i : Nat) (f : RawField), ([⟨some "kind", [], "u8".toList⟩,
      ⟨some "rest", [.path (some "payload")], "Vec<u8>".toList⟩] : List RawField)[i]? = some f →
      LegalField (fun _ => false) (i + 1 = 2) f) :=
  ((C60_accepted_iff (fun _ => false) _).mp ⟨[⟨"kind", .primitive "u8".toList 8 .big, none, false, false, []⟩,
    ⟨"rest", .vector (.primitive "u8".toList 8 .big), none, true, true, []⟩], by decide +kernel⟩).1

/-- C60: the fields of an accepted declaration come out in order, with the names, types, payload
marks and lengths written. -/
theorem C60_fields (lenOk : String → Bool) (fields : List RawField) (pfs : List PField)
    (h : parsePacket lenOk fields = .ok pfs) :
    pfs.length = fields.length ∧
    ∀ (i : Nat) (f : RawField) (pf : PField), fields[i]? = some f → pfs[i]? = some pf →
      f.name = some pf.name ∧ TypeText true (tyToString f.ty) pf.ty ∧
      (pf.isPayload = true ↔ .path (some "payload") ∈ f.attrs) ∧
      (∀ s, pf.packetLength = some s → .nameValue (some "length") (some s) ∈ f.attrs) ∧
      (pf.packetLength = none → ∀ s, .nameValue (some "length") (some s) ∉ f.attrs) :=
  by simpa only [← parseType_iff] using fieldLoop_fields lenOk fields false pfs h

example := C60_fields (fun _ => false) [⟨some "kind", [], "u8".toList⟩,
  ⟨some "rest", [.path (some "payload")], "Vec<u8>".toList⟩]
  [⟨"kind", .primitive "u8".toList 8 .big, none, false, false, []⟩,
    ⟨"rest", .vector (.primitive "u8".toList 8 .big), none, true, true, []⟩] (by decide +kernel)

/-- C60: the length of a field is the text of its last `#[length]`, its constructor arguments are the
types listed in `#[construct_with]`, in order, and exactly the vectors have a struct length. -/
theorem C60_lengths_and_arguments (lenOk : String → Bool) (fields : List RawField)
    (pfs : List PField) (h : parsePacket lenOk fields = .ok pfs) (i : Nat) (f : RawField) (pf : PField)
    (hf : fields[i]? = some f) (hpf : pfs[i]? = some pf) :
    pf.packetLength = (lengthTexts f.attrs).getLast? ∧
    pf.constructWith.map Except.ok = (constructTexts f.attrs).map (parseType · false) ∧
    (pf.structLength = true ↔ ∃ inner, pf.ty = .vector inner) :=
  fieldLoop_texts lenOk fields false pfs h i f pf hf hpf

example : parsePacket (fun _ => true)
    [⟨some "banana", [], "u8".toList⟩,
     ⟨some "addr", [.list (some "construct_with") [some "u8".toList, some "u16".toList]], "Addr".toList⟩,
     ⟨some "data", [.nameValue (some "length") (some "banana + 7")], "Vec < u8 >".toList⟩,
     ⟨some "payload", [.path (some "payload")], "Vec < u8 >".toList⟩] =
    .ok [⟨"banana", .primitive "u8".toList 8 .big, none, false, false, []⟩,
      ⟨"addr", .misc "Addr".toList, none, false, false,
        [.primitive "u8".toList 8 .big, .primitive "u16".toList 16 .big]⟩,
      ⟨"data", .vector (.primitive "u8".toList 8 .big), some "banana + 7", true, false, []⟩,
      ⟨"payload", .vector (.primitive "u8".toList 8 .big), none, true, true, []⟩] := by
  decide +kernel

/-- C59 as one would expect it: documenting a field does not change whether the declaration is
accepted (`/// text` is the attribute `#[doc = "text"]`). -/
def C59_statement : Prop := ∀ (lenOk : String → Bool) (pre post : List RawField) (f : RawField)
  (text : String), (∃ pfs, parsePacket lenOk (pre ++ f :: post) = .ok pfs) →
    ∃ pfs, parsePacket lenOk
      (pre ++ { f with attrs := .nameValue (some "doc") (some text) :: f.attrs } :: post) = .ok pfs

/-- C59 is false: a documented one-byte field is rejected. -/
theorem C59_false : ¬ C59_statement := by
  intro h
  have := h (fun _ => true) [] [] ⟨some "x", [], ['u', '8']⟩ "a byte"
    ⟨[⟨"x", .primitive ['u', '8'] 8 .big, none, false, false, []⟩], by decide +kernel⟩
  obtain ⟨pfs, hp⟩ := this
  have he : parsePacket (fun _ => true)
      ([] ++ { (⟨some "x", [], ['u', '8']⟩ : RawField) with
        attrs := [.nameValue (some "doc") (some "a byte")] } :: []) = .error .rejected := by
    decide +kernel
  rw [he] at hp
  cases hp

/-- C59: no declaration with a documented field is accepted. -/
theorem C59_documented_rejected (lenOk : String → Bool) (fields : List RawField) (f : RawField)
    (text : Option String) (hf : f ∈ fields) (hd : .nameValue (some "doc") text ∈ f.attrs) :
    ¬ ∃ pfs, parsePacket lenOk fields = .ok pfs := by
  rw [C60_accepted_iff]
  rintro ⟨h, -⟩
  obtain ⟨i, hi⟩ := List.mem_iff_getElem?.mp hf
  have := (h i f hi).2.1 _ hd
  exact absurd this (by simp [LegalAttr])

example := C59_documented_rejected (fun _ => true)
  [⟨some "a", [], "u8".toList⟩, ⟨some "b", [.nameValue (some "doc") (some "text")], "u8".toList⟩]
  ⟨some "b", [.nameValue (some "doc") (some "text")], "u8".toList⟩ (some "text") (by simp) (by simp)

/-- C59, the part that holds: adding a bare-word attribute other than `#[payload]` (such as
`#[deprecated]`) to a field does not change whether a declaration is accepted. -/
theorem C59_path_attr_partial (lenOk : String → Bool) (pre post : List RawField) (f : RawField)
    (word : Option String) (hw : word ≠ some "payload") :
    (∃ pfs, parsePacket lenOk (pre ++ { f with attrs := .path word :: f.attrs } :: post) = .ok pfs) ↔
    (∃ pfs, parsePacket lenOk (pre ++ f :: post) = .ok pfs) := by
  rw [C60_accepted_iff, C60_accepted_iff]
  have hne : (Meta.path word == Meta.path (some "payload")) = false := by simpa using hw
  refine and_congr ?_ ?_
  · have key : ∀ last, LegalField lenOk last { f with attrs := .path word :: f.attrs } ↔
        LegalField lenOk last f := by
      intro last
      simp [LegalField, LegalAttr]
    constructor <;> intro h i g hg
    · by_cases hi : i = pre.length
      · subst hi
        have := h pre.length { f with attrs := .path word :: f.attrs } (by simp)
        simp only [List.getElem?_append_right (Nat.le_refl _), Nat.sub_self, List.getElem?_cons_zero,
          Option.some.injEq] at hg
        subst hg
        rw [key] at this
        simpa using this
      · have := h i g (by
          rw [← hg, List.getElem?_append, List.getElem?_append]
          split
          · rfl
          · have : i - pre.length ≠ 0 := by omega
            obtain ⟨k, hk⟩ := Nat.exists_eq_succ_of_ne_zero this
            rw [hk]; rfl)
        simpa using this
    · by_cases hi : i = pre.length
      · subst hi
        have := h pre.length f (by simp)
        simp only [List.getElem?_append_right (Nat.le_refl _), Nat.sub_self, List.getElem?_cons_zero,
          Option.some.injEq] at hg
        subst hg
        rw [key]
        simpa using this
      · have := h i g (by
          rw [← hg, List.getElem?_append, List.getElem?_append]
          split
          · rfl
          · have : i - pre.length ≠ 0 := by omega
            obtain ⟨k, hk⟩ := Nat.exists_eq_succ_of_ne_zero this
            rw [hk]; rfl)
        simpa using this
  · simp [List.count_cons, hne]

example : (some "deprecated" : Option String) ≠ some "payload" := by decide +kernel

end Verif
