import Verif.Model.Debug
import Verif.Proofs.Codec
import Verif.Spec.Debug

/-! # Formatting packets -/

namespace Verif

theorem Plain.tail {c : Char} {cs : List Char} (h : Plain (c :: cs)) : Plain cs :=
  ⟨fun hm => h.1 (List.mem_cons_of_mem _ hm), fun hm => h.2 (List.mem_cons_of_mem _ hm)⟩

theorem Plain.append {a b : List Char} (ha : Plain a) (hb : Plain b) : Plain (a ++ b) :=
  ⟨fun hm => (List.mem_append.mp hm).elim ha.1 hb.1, fun hm => (List.mem_append.mp hm).elim ha.2 hb.2⟩

theorem formatArgs_char {c : Char} {cs : List Char} {args : List (List Char)} (h1 : c ≠ '{') (h2 : c ≠ '}') :
    formatArgs (c :: cs) args = (formatArgs cs args).map (c :: ·) := by
  rw [formatArgs.eq_def]
  split
  · rename_i h'; cases h'
  · rename_i h'; cases h'
  · rename_i h'; exact absurd (List.cons.inj h').1 h1
  · rename_i h'; exact absurd (List.cons.inj h').1 h2
  · rename_i h'; exact absurd (List.cons.inj h').1 h1
  · rename_i h' _
    obtain ⟨e1, e2⟩ := List.cons.inj h'
    rw [← e1, ← e2, if_neg (fun hh => hh.elim h1 h2)]

theorem formatArgs_plain (args : List (List Char)) : ∀ (s t : List Char), Plain s →
    formatArgs (s ++ t) args = (formatArgs t args).map (s ++ ·)
  | [], t, _ => by simp
  | c :: s, t, h => by
    have h1 : c ≠ '{' := fun e => h.1 (e ▸ List.mem_cons_self ..)
    have h2 : c ≠ '}' := fun e => h.2 (e ▸ List.mem_cons_self ..)
    have ih := formatArgs_plain args s t h.tail
    rw [List.cons_append, formatArgs_char h1 h2, ih, Option.map_map]
    rfl

theorem foldl_pieces (g : Field → List Char) (fields : List Field) : ∀ acc : List Char,
    fields.foldl (fun acc f => if f.payload then acc else acc ++ f.name.toList ++ g f) acc =
      acc ++ fields.flatMap (fun f => if f.payload then [] else f.name.toList ++ g f) := by
  induction fields with
  | nil => intro acc; simp
  | cons f fs ih =>
    intro acc
    rw [List.foldl_cons, ih, List.flatMap_cons]
    split
    · simp
    · simp only [List.append_assoc]

theorem fieldFmt_eq (fields : List Field) : fieldFmt fields =
    fields.flatMap (fun f => if f.payload then [] else f.name.toList ++ " : {:?}, ".toList) := by
  rw [fieldFmt, foldl_pieces, List.nil_append]

theorem piece_eq : " : {:?}, ".toList = " : ".toList ++ ('{' :: ':' :: '?' :: '}' :: ", ".toList) := by decide

theorem plain_sep : Plain " : ".toList := ⟨by decide, by decide⟩

theorem plain_comma : Plain ", ".toList := ⟨by decide, by decide⟩

theorem formatArgs_arg (cs arg : List Char) (args : List (List Char)) :
    formatArgs ('{' :: ':' :: '?' :: '}' :: cs) (arg :: args) = (formatArgs cs args).map (arg ++ ·) := by
  rw [formatArgs]

theorem formatArgs_piece (name t arg : List Char) (args : List (List Char)) (h : Plain name) :
    formatArgs ((name ++ " : {:?}, ".toList) ++ t) (arg :: args) =
      (formatArgs t args).map (fun s => name ++ (" : ".toList ++ (arg ++ (", ".toList ++ s)))) := by
  rw [piece_eq]
  generalize hs : " : ".toList = sep
  generalize hc : ", ".toList = comma
  have h1 := plain_sep
  have h2 := plain_comma
  rw [hs] at h1
  rw [hc] at h2
  rw [List.append_assoc, List.append_assoc, formatArgs_plain _ _ _ h, formatArgs_plain _ _ _ h1]
  simp only [List.cons_append]
  rw [formatArgs_arg, formatArgs_plain _ _ _ h2]
  simp only [Option.map_map]
  rfl

/-- The arguments exist exactly when every getter returns, and then the text is the expected one. -/
theorem formatArgs_fields (fmt : Field → Val → List Char) (t : List Char) (s : List Char)
    (ht : formatArgs t [] = some s) : ∀ (l : List (Field × Res Val)) (args : List (List Char)),
    (∀ x ∈ l, Plain x.1.name.toList) → debugArgs fmt l = .ok args →
    ∃ pieces : List Char, fieldTexts fmt l = .ok pieces ∧
      formatArgs (fieldFmt (l.map (·.1)) ++ t) args = some (pieces ++ s)
  | [], args, _, h => by
    cases h
    exact ⟨[], rfl, ht⟩
  | (f, v) :: l, args, hp, h => by
    have hpl := fun x hx => hp x (List.mem_cons_of_mem _ hx)
    rw [fieldFmt_eq, List.map_cons, List.flatMap_cons, ← fieldFmt_eq]
    rw [debugArgs] at h
    rw [fieldTexts]
    by_cases hf : f.payload = true
    · rw [if_pos hf] at h
      rw [if_pos hf, if_pos hf]
      obtain ⟨pieces, h1, h2⟩ := formatArgs_fields fmt t s ht l args hpl h
      exact ⟨pieces, h1, by rw [List.nil_append]; exact h2⟩
    · rw [if_neg hf] at h
      rw [if_neg hf, if_neg hf]
      cases v with
      | error e => cases h
      | ok x =>
        cases hr : debugArgs fmt l with
        | error e => rw [hr] at h; cases h
        | ok xs =>
          rw [hr] at h
          cases h
          obtain ⟨pieces, h1, h2⟩ := formatArgs_fields fmt t s ht l xs hpl hr
          refine ⟨f.name.toList ++ (" : ".toList ++ (fmt f x ++ (", ".toList ++ pieces))), ?_, ?_⟩
          · rw [h1]; rfl
          · rw [List.append_assoc, formatArgs_piece _ _ _ _ (hp (f, .ok x) (List.mem_cons_self ..)), h2,
              Option.map_some]
            simp only [List.append_assoc]

theorem debugArgs_error {fmt : Field → Val → List Char} {e : Fail} : ∀ {l : List (Field × Res Val)},
    debugArgs fmt l = .error e ↔ fieldTexts fmt l = .error e
  | [] => by simp [debugArgs, fieldTexts]
  | (f, v) :: l => by
    have ih := @debugArgs_error fmt e l
    rw [debugArgs, fieldTexts]
    by_cases hf : f.payload = true
    · rw [if_pos hf, if_pos hf]; exact ih
    · rw [if_neg hf, if_neg hf]
      cases v with
      | error e' => exact ⟨fun h => (by cases h; rfl), fun h => (by cases h; rfl)⟩
      | ok x =>
        cases h1 : debugArgs fmt l with
        | error e1 =>
          have := (@debugArgs_error fmt e1 l).mp h1
          rw [this]
          exact ⟨fun h => (by cases h; rfl), fun h => (by cases h; rfl)⟩
        | ok xs =>
          cases h2 : fieldTexts fmt l with
          | error e2 => rw [(@debugArgs_error fmt e2 l).mpr h2] at h1; cases h1
          | ok ys => exact ⟨fun h => (by cases h), fun h => (by cases h)⟩

theorem zip_map_fst {α β : Type} (l : List α) (l' : List β) (h : l'.length = l.length) :
    (l.zip l').map (·.1) = l := by
  exact List.map_fst_zip (Nat.le_of_eq h.symm)

theorem formatArgs_open (t : List Char) (args : List (List Char)) :
    formatArgs (" {{ ".toList ++ t) args = (formatArgs t args).map (" { ".toList ++ ·) := by
  have e1 : " {{ ".toList = ' ' :: '{' :: '{' :: [' '] := by decide
  have e2 : " { ".toList = ' ' :: '{' :: [' '] := by decide
  rw [e1, e2]
  simp only [List.cons_append, List.nil_append]
  rw [formatArgs_char (by decide) (by decide), formatArgs, formatArgs_char (by decide) (by decide)]
  simp only [Option.map_map]
  rfl

theorem formatArgs_close : formatArgs " }}".toList [] = some " }".toList := by
  have e1 : " }}".toList = ' ' :: '}' :: '}' :: [] := by decide
  rw [e1, formatArgs_char (by decide) (by decide), formatArgs]
  rfl

theorem packetName_eq (base : String) (mutable : Bool) : packetName base mutable =
    (if mutable then "Mutable".toList else []) ++ (base.toList ++ "Packet".toList) := by
  cases mutable
  · rfl
  · exact List.append_assoc ..

theorem packetName_plain {base : String} {mutable : Bool} (hb : Plain base.toList) :
    Plain (packetName base mutable) := by
  rw [packetName_eq]
  refine Plain.append ?_ (hb.append ⟨by decide, by decide⟩)
  cases mutable
  · exact ⟨fun h => (by cases h), fun h => (by cases h)⟩
  · exact ⟨by decide, by decide⟩

theorem debugText_eq (d : Decl) (base : String) (mutable : Bool) (fmt : Field → Val → List Char) (m : Mode)
    (buf : Buf) (hb : Plain base.toList) (hn : ∀ f ∈ d.fields, Plain f.name.toList) :
    d.debugText base mutable fmt m buf =
      (fieldTexts fmt (d.fields.zip ((List.range d.fields.length).map (d.get m buf)))).map fun t =>
        (if mutable then "Mutable".toList else []) ++ (base.toList ++ ("Packet".toList ++
          (" { ".toList ++ (t ++ " }".toList)))) := by
  rw [Decl.debugText, final_vals]
  have hz := zip_map_fst d.fields ((List.range d.fields.length).map (d.get m buf)) (by simp)
  have hpl : ∀ x ∈ d.fields.zip ((List.range d.fields.length).map (d.get m buf)), Plain x.1.name.toList :=
    fun x hx => hn x.1 (List.of_mem_zip (a := x.1) (b := x.2) hx).1
  revert hz hpl
  generalize d.fields.zip ((List.range d.fields.length).map (d.get m buf)) = l
  intro hz hpl
  cases ha : debugArgs fmt l with
  | error e => rw [debugArgs_error.mp ha]; rfl
  | ok args =>
    obtain ⟨pieces, h1, h2⟩ := formatArgs_fields fmt _ _ formatArgs_close l args hpl ha
    rw [hz] at h2
    have hf : formatArgs (debugFormat (packetName base mutable) d.fields) args =
        some (packetName base mutable ++ (" { ".toList ++ (pieces ++ " }".toList))) := by
      rw [debugFormat, List.append_assoc, List.append_assoc,
        formatArgs_plain _ _ _ (packetName_plain hb), formatArgs_open, h2]
      rfl
    rw [h1, ok_bind]
    simp only [hf]
    rw [packetName_eq, List.append_assoc, List.append_assoc]
    rfl

theorem fieldTexts_ok_iff {fmt : Field → Val → List Char} : ∀ {l : List (Field × Res Val)},
    (∃ t, fieldTexts fmt l = .ok t) ↔ ∀ x ∈ l, x.1.payload = false → ∃ v, x.2 = .ok v
  | [] => ⟨fun _ x hx => (by cases hx), fun _ => ⟨[], rfl⟩⟩
  | (f, v) :: l => by
    have ih := @fieldTexts_ok_iff fmt l
    rw [fieldTexts]
    cases hf : f.payload with
    | true =>
      rw [if_pos rfl, ih]
      constructor
      · intro h x hx hp
        rcases List.mem_cons.mp hx with rfl | hx
        · rw [hf] at hp; cases hp
        · exact h x hx hp
      · exact fun h x hx => h x (List.mem_cons_of_mem _ hx)
    | false =>
      rw [if_neg (by decide)]
      cases v with
      | error e =>
        constructor
        · rintro ⟨t, ht⟩; cases ht
        · intro h
          obtain ⟨v, hv⟩ := h (f, .error e) (List.mem_cons_self ..) hf
          cases hv
      | ok x =>
        constructor
        · rintro ⟨t, ht⟩ y hy hp
          rcases List.mem_cons.mp hy with rfl | hy
          · exact ⟨x, rfl⟩
          · refine ih.mp ?_ y hy hp
            cases hr : fieldTexts fmt l with
            | error e => rw [hr] at ht; cases ht
            | ok t' => exact ⟨t', rfl⟩
        · intro h
          obtain ⟨t, ht⟩ := ih.mpr fun y hy => h y (List.mem_cons_of_mem _ hy)
          rw [ht]
          exact ⟨_, rfl⟩

theorem zip_get {d : Decl} {m : Mode} {buf : Buf} {x : Field × Res Val} :
    x ∈ d.fields.zip ((List.range d.fields.length).map (d.get m buf)) ↔
      ∃ k : Nat, d.fields[k]? = some x.1 ∧ x.2 = d.get m buf k := by
  rw [List.mem_iff_getElem?]
  constructor
  · rintro ⟨k, hk⟩
    rw [List.getElem?_zip_eq_some] at hk
    refine ⟨k, hk.1, ?_⟩
    have h2 := hk.2
    have hlt : k < d.fields.length := (List.getElem?_eq_some_iff.mp hk.1).1
    rw [List.getElem?_map, List.getElem?_range hlt] at h2
    exact (Option.some.inj h2).symm
  · rintro ⟨k, h1, h2⟩
    refine ⟨k, List.getElem?_zip_eq_some.mpr ⟨h1, ?_⟩⟩
    have hlt : k < d.fields.length := (List.getElem?_eq_some_iff.mp h1).1
    rw [List.getElem?_map, List.getElem?_range hlt, h2]
    rfl

theorem debugText_ok_iff (d : Decl) (base : String) (mutable : Bool) (fmt : Field → Val → List Char)
    (m : Mode) (buf : Buf) (hb : Plain base.toList) (hn : ∀ f ∈ d.fields, Plain f.name.toList) :
    (∃ t, d.debugText base mutable fmt m buf = .ok t) ↔
      ∀ (k : Nat) (f : Field), d.fields[k]? = some f → f.payload = false → ∃ v, d.get m buf k = .ok v := by
  rw [debugText_eq d base mutable fmt m buf hb hn]
  have h1 := @fieldTexts_ok_iff fmt (d.fields.zip ((List.range d.fields.length).map (d.get m buf)))
  constructor
  · rintro ⟨t, ht⟩ k f hf hp
    refine h1.mp ?_ (f, d.get m buf k) (zip_get.mpr ⟨k, hf, rfl⟩) hp
    revert ht
    cases fieldTexts fmt (d.fields.zip ((List.range d.fields.length).map (d.get m buf))) with
    | error e => intro ht; cases ht
    | ok t' => exact fun _ => ⟨t', rfl⟩
  · intro h
    obtain ⟨t, ht⟩ := h1.mpr fun x hx hp => by
      obtain ⟨k, hk, hv⟩ := zip_get.mp hx
      rw [hv]
      exact h k x.1 hk hp
    rw [ht]
    exact ⟨_, rfl⟩

theorem fieldTexts_congr {fmt : Field → Val → List Char} : ∀ {fields : List Field} {vs vs' : List (Res Val)},
    vs.length = fields.length → vs'.length = fields.length →
    (∀ (k : Nat) (f : Field), fields[k]? = some f → f.payload = false → vs[k]? = vs'[k]?) →
    fieldTexts fmt (fields.zip vs) = fieldTexts fmt (fields.zip vs')
  | [], _, _, _, _, _ => rfl
  | f :: fs, v :: vs, v' :: vs', h1, h2, h => by
    have ih := @fieldTexts_congr fmt fs vs vs' (Nat.succ.inj h1) (Nat.succ.inj h2)
      (fun k g hg hp => h (k + 1) g hg hp)
    rw [List.zip_cons_cons, List.zip_cons_cons, fieldTexts, fieldTexts, ih]
    cases hf : f.payload with
    | true => rfl
    | false =>
      have := Option.some.inj (h 0 f rfl hf)
      rw [this]

theorem debugText_congr (d : Decl) (base : String) (mutable : Bool) (fmt : Field → Val → List Char)
    (m : Mode) (buf buf' : Buf) (hb : Plain base.toList) (hn : ∀ f ∈ d.fields, Plain f.name.toList)
    (h : ∀ (k : Nat) (f : Field), d.fields[k]? = some f → f.payload = false →
      d.get m buf k = d.get m buf' k) :
    d.debugText base mutable fmt m buf = d.debugText base mutable fmt m buf' := by
  rw [debugText_eq d base mutable fmt m buf hb hn, debugText_eq d base mutable fmt m buf' hb hn]
  rw [fieldTexts_congr (vs' := (List.range d.fields.length).map (d.get m buf')) (by simp) (by simp)]
  intro k f hf hp
  have hlt : k < d.fields.length := (List.getElem?_eq_some_iff.mp hf).1
  rw [List.getElem?_map, List.getElem?_map, List.getElem?_range hlt, Option.map_some, Option.map_some,
    h k f hf hp]

end Verif
