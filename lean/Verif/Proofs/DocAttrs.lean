import Verif.Proofs.Macro
import Verif.Spec.DocAttrs

/-! Helper lemmas: attributes added to and removed from fields. -/

namespace Verif
open Spec

/-- What the macro needs to know of a field and its shape is kept by `φ` and `ψ`. -/
structure Keeps (φ : RawField → RawField) (ψ : Shape → Shape) : Prop where
  name : ∀ f, (φ f).name = f.name
  shape : ∀ f s, ShapeOf f s → ShapeOf (φ f) (ψ s)
  kind : ∀ s, (ψ s).kind = s.kind

theorem Keeps.raw {φ : RawField → RawField} {ψ : Shape → Shape} (h : Keeps φ ψ) {f : RawField} (hf : ¬ RawNamed f) :
    ¬ RawNamed (φ f) := by
  unfold RawNamed at *
  rwa [h.name]

theorem Keeps.map {φ : RawField → RawField} {ψ : Shape → Shape} (h : Keeps φ ψ) {bit : Nat} {fs : List RawField}
    {ss : List Shape} (hl : Laid bit fs ss) : Laid bit (fs.map φ) (ss.map ψ) := by
  induction hl with
  | nil => exact .nil
  | cons h1 h2 h3 _ ih => exact .cons (h.shape _ _ h1) (h.raw h2) (by rwa [h.kind]) (by rwa [h.kind])

theorem Keeps.modify {φ : RawField → RawField} {ψ : Shape → Shape} (h : Keeps φ ψ) {bit : Nat} {fs : List RawField}
    {ss : List Shape} (hl : Laid bit fs ss) (i : Nat) : Laid bit (fs.modify i φ) (ss.modify i ψ) := by
  induction hl generalizing i with
  | nil => rw [List.modify_nil, List.modify_nil]; exact .nil
  | cons h1 h2 h3 h4 ih =>
    cases i with
    | zero =>
      rw [List.modify_zero_cons, List.modify_zero_cons]
      exact .cons (h.shape _ _ h1) (h.raw h2) (by rwa [h.kind]) (by rwa [h.kind])
    | succ i =>
      rw [List.modify_succ_cons, List.modify_succ_cons]
      exact .cons h1 h2 h3 (ih i)

theorem lengthTexts_noPayload (attrs : List Meta) :
    lengthTexts (attrs.filter (· ≠ Source.payload)) = lengthTexts attrs := by
  induction attrs with
  | nil => rfl
  | cons a as ih =>
    by_cases h : a = Source.payload
    · subst h
      simpa [lengthTexts, Source.payload] using ih
    · rw [List.filter_cons_of_pos (by simpa using h)]
      simp only [lengthTexts, List.filterMap_cons] at *
      split
      · exact ih
      · rw [ih]

theorem constructTexts_noPayload (attrs : List Meta) :
    constructTexts (attrs.filter (· ≠ Source.payload)) = constructTexts attrs := by
  induction attrs with
  | nil => rfl
  | cons a as ih =>
    by_cases h : a = Source.payload
    · subst h
      simpa [constructTexts, Source.payload] using ih
    · rw [List.filter_cons_of_pos (by simpa using h)]
      simp only [constructTexts, List.flatMap_cons] at *
      rw [ih]

theorem keeps_noPayload : Keeps noPayload (fun s => { s with payload := false }) where
  name _ := rfl
  kind _ := rfl
  shape f s h := by
    obtain ⟨h1, -, h3, h4⟩ := h
    refine ⟨h1, by simp [noPayload, Source.payload], ?_, ?_⟩
    · simpa only [noPayload, lengthTexts_noPayload] using h3
    · simpa only [noPayload, constructTexts_noPayload] using h4

theorem keeps_payload : Keeps (withAttr Source.payload) (fun s => { s with payload := true }) where
  name _ := rfl
  kind _ := rfl
  shape f s h := by
    obtain ⟨h1, -, h3, h4⟩ := h
    exact ⟨h1, by simp [withAttr, Source.payload], h3, h4⟩

theorem keeps_length (text : String) : Keeps (withAttr (Source.length text)) (fun s => { s with hasLen := true }) where
  name _ := rfl
  kind _ := rfl
  shape f s h := by
    obtain ⟨h1, h2, -, h4⟩ := h
    refine ⟨h1, ?_, by simp [withAttr, Source.length, lengthTexts], h4⟩
    simpa [withAttr, Source.length] using h2

theorem legal_modify {lenOk : String → Bool} {fields : List RawField} {a : Meta} (ha : LegalAttr lenOk a)
    (h : ∀ i f, fields[i]? = some f → LegalField lenOk (i + 1 = fields.length) f) (j i : Nat) (f : RawField)
    (hf : (fields.modify j (withAttr a))[i]? = some f) :
    LegalField lenOk (i + 1 = (fields.modify j (withAttr a)).length) f := by
  rw [List.length_modify]
  rw [List.getElem?_modify, Option.map_eq_map, Option.map_eq_some_iff] at hf
  obtain ⟨g, hg, hf⟩ := hf
  have hl := h i g hg
  by_cases hij : j = i
  · rw [if_pos hij] at hf
    subst hf
    obtain ⟨a1, a2, ty, a3, a4, a5⟩ := hl
    refine ⟨a1, fun m hm => ?_, ty, a3, ?_, ?_⟩
    · rcases List.mem_cons.mp hm with rfl | hm
      · exact ha
      · exact a2 m hm
    · intro hv
      rcases a4 hv with h | ⟨s, h⟩
      · exact .inl h
      · exact .inr ⟨s, List.mem_cons_of_mem _ h⟩
    · intro hv
      obtain ⟨items, h⟩ := a5 hv
      exact ⟨items, List.mem_cons_of_mem _ h⟩
  · rw [if_neg hij] at hf
    cases hf
    exact hl

theorem count_modify (p a : Meta) (fields : List RawField) (j : Nat) :
    ((fields.modify j (withAttr a)).flatMap (·.attrs)).count p ≤
      (if a = p then 1 else 0) + (fields.flatMap (·.attrs)).count p := by
  induction fields generalizing j with
  | nil => simp
  | cons f fs ih =>
    cases j with
    | zero =>
      rw [List.modify_zero_cons]
      simp only [List.flatMap_cons, List.count_append, withAttr, List.count_cons, beq_iff_eq]
      omega
    | succ j =>
      rw [List.modify_succ_cons]
      simp only [List.flatMap_cons, List.count_append]
      have := ih j
      omega

theorem laid_at {bit : Nat} {fs : List RawField} {ss : List Shape} (h : Laid bit fs ss) {i : Nat} {s : Shape}
    (hs : ss[i]? = some s) : ∃ f, fs[i]? = some f ∧ ShapeOf f s := by
  induction h generalizing i with
  | nil => simp at hs
  | cons h1 _ _ _ ih =>
    cases i with
    | zero => simp only [List.getElem?_cons_zero, Option.some.injEq] at hs; subst hs; exact ⟨_, rfl, h1⟩
    | succ i => exact ih (by simpa using hs)

theorem shape_payloads {bit : Nat} {fs : List RawField} {ss : List Shape} (h : Laid bit fs ss) :
    (ss.filter (·.payload)).length ≤ (fs.flatMap (·.attrs)).count (.path (some "payload")) := by
  induction h with
  | nil => simp
  | cons hs _ _ _ ih =>
    obtain ⟨_, h2, _⟩ := hs
    simp only [List.flatMap_cons, List.count_append, List.filter_cons]
    split
    · rename_i hp
      have hp' := List.count_pos_iff.mpr (h2.mp hp)
      simp only [List.length_cons]
      omega
    · omega

end Verif
