import Verif.Proofs.DocAttrs
import Verif.Props.Macro
import Verif.Props.Generated
import Verif.Model.ApiNames

/-! # The attributes described in the documentation of the macro (`derive/src/lib.rs:82-143`) -/

namespace Verif
open Spec

/-- The claims of the documentation: a field may have a `#[length_fn]` where it may have a `#[length]`; a
packet has a payload, which is a `Vec<u8>`; only vectors have a length. -/
def C104_statement : Prop := ∀ (lenOk : String → Bool) (fields : List RawField) (ss : List Shape),
  deriveMacro lenOk fields = .ok ss →
    (∀ i f text fn, fields[i]? = some f → Source.length text ∈ f.attrs →
      ∃ ss', deriveMacro lenOk (fields.set i { f with attrs := [.nameValue (some "length_fn") (some fn)] }) = .ok ss') ∧
    (∃ s ∈ ss, s.payload = true) ∧
    (∀ s ∈ ss, s.payload = true → s.kind = .vecPrim ⟨8, .big⟩) ∧
    (∀ s ∈ ss, s.hasLen = true → s.kind.isVec = true)

/-- No declaration with a `#[length_fn]` is accepted. -/
theorem C104_length_fn (lenOk : String → Bool) (fields : List RawField) (f : RawField) (hf : f ∈ fields)
    (lit : Option String) (h : .nameValue (some "length_fn") lit ∈ f.attrs) (ss : List Shape) :
    deriveMacro lenOk fields ≠ .ok ss := by
  intro hd
  obtain ⟨h1, -, -⟩ := (C65_macro_accepts lenOk fields ss).mp hd
  obtain ⟨i, hi⟩ := List.getElem?_of_mem hf
  have := (h1 i f hi).2.1 _ h
  simp [LegalAttr] at this

example := C104_length_fn (fun _ => true)
  [Source.field "n" [] "u8", Source.field "v" [.nameValue (some "length_fn") (some "f")] "Vec < u8 >"]
  (Source.field "v" [.nameValue (some "length_fn") (some "f")] "Vec < u8 >") (by simp) (some "f") (by decide)

/-- A packet without payload, a payload that is an integer, a length on an integer. -/
theorem C104_more : deriveMacro (fun _ => true) [Source.field "a" [] "u8"] =
      .ok [⟨"a", .prim ⟨8, .big⟩, false, false⟩] ∧
    deriveMacro (fun _ => true) [Source.field "a" [Source.payload] "u8"] =
      .ok [⟨"a", .prim ⟨8, .big⟩, true, false⟩] ∧
    deriveMacro (fun _ => true) [Source.field "a" [Source.length "2"] "u8"] =
      .ok [⟨"a", .prim ⟨8, .big⟩, false, true⟩] := by
  decide +kernel

theorem C104_false : ¬ C104_statement := by
  intro h
  obtain ⟨s, hs, hp⟩ := (h (fun _ => true) _ _ C104_more.1).2.1
  simp only [List.mem_singleton] at hs
  subst hs
  exact absurd hp (by decide)

/-- Leaving out the `#[payload]` never makes a declaration wrong. -/
theorem C104_payload_optional (lenOk : String → Bool) (fields : List RawField) (ss : List Shape)
    (h : deriveMacro lenOk fields = .ok ss) :
    deriveMacro lenOk (fields.map noPayload) = .ok (ss.map fun s => { s with payload := false }) := by
  obtain ⟨h1, h2, h3⟩ := (C65_macro_accepts lenOk fields ss).mp h
  refine (C65_macro_accepts _ _ _).mpr ⟨?_, ?_, keeps_noPayload.map h3⟩
  · intro i f hf
    rw [List.getElem?_map, Option.map_eq_some_iff] at hf
    obtain ⟨g, hg, rfl⟩ := hf
    obtain ⟨a1, a2, ty, a3, a4, a5⟩ := h1 i g hg
    refine ⟨a1, fun m hm => a2 m (List.mem_filter.mp hm).1, ty, a3, ?_, ?_⟩
    · intro hv
      rcases a4 hv with h | ⟨s, h⟩
      · exact .inl (by rwa [List.length_map])
      · exact .inr ⟨s, List.mem_filter.mpr ⟨h, by simp [Source.payload]⟩⟩
    · intro hv
      obtain ⟨items, h⟩ := a5 hv
      exact ⟨items, List.mem_filter.mpr ⟨h, by simp [Source.payload]⟩⟩
  · rw [List.count_eq_zero.mpr]
    · omega
    · simp [noPayload, Source.payload]

example := C104_payload_optional (fun _ => true)
  [Source.field "a" [] "u4", Source.field "b" [] "u12be", Source.field "v" [Source.payload] "Vec < u16be >"]
  [⟨"a", .prim ⟨4, .big⟩, false, false⟩, ⟨"b", .prim ⟨12, .big⟩, false, false⟩,
    ⟨"v", .vecPrim ⟨16, .big⟩, true, false⟩]
  (by decide +kernel)

/-- Any field can be the payload, whatever its type and wherever it stands. -/
theorem C104_payload_anywhere (lenOk : String → Bool) (fields : List RawField) (ss : List Shape)
    (h : deriveMacro lenOk fields = .ok ss) (hno : ∀ f ∈ fields, Source.payload ∉ f.attrs) (i : Nat) :
    deriveMacro lenOk (fields.modify i (withAttr Source.payload)) =
      .ok (ss.modify i fun s => { s with payload := true }) := by
  obtain ⟨h1, -, h3⟩ := (C65_macro_accepts lenOk fields ss).mp h
  refine (C65_macro_accepts _ _ _).mpr ⟨legal_modify (by simp [LegalAttr, Source.payload]) h1 i, ?_, keeps_payload.modify h3 i⟩
  have := count_modify (.path (some "payload")) Source.payload fields i
  have h0 : (fields.flatMap (·.attrs)).count (.path (some "payload")) = 0 :=
    List.count_eq_zero.mpr (by simpa [Source.payload] using hno)
  rw [if_pos (by rfl)] at this
  omega

example := C104_payload_anywhere (fun _ => true) [Source.field "a" [] "u4", Source.field "b" [] "u12be"]
  [⟨"a", .prim ⟨4, .big⟩, false, false⟩, ⟨"b", .prim ⟨12, .big⟩, false, false⟩]
  (by decide +kernel)
  (by decide) 1

/-- Any field can have a `#[length]`, whatever its type. -/
theorem C104_length_anywhere (lenOk : String → Bool) (fields : List RawField) (ss : List Shape)
    (h : deriveMacro lenOk fields = .ok ss) (text : String) (hok : lenOk text = true) (i : Nat) :
    deriveMacro lenOk (fields.modify i (withAttr (Source.length text))) =
      .ok (ss.modify i fun s => { s with hasLen := true }) := by
  obtain ⟨h1, h2, h3⟩ := (C65_macro_accepts lenOk fields ss).mp h
  refine (C65_macro_accepts _ _ _).mpr ⟨legal_modify (by simp [LegalAttr, Source.length, hok]) h1 i, ?_,
    (keeps_length text).modify h3 i⟩
  have := count_modify (.path (some "payload")) (Source.length text) fields i
  rw [if_neg (by simp [Source.length])] at this
  omega

example := C104_length_anywhere (fun _ => true) [Source.field "a" [] "u4", Source.field "b" [] "u12be"]
  [⟨"a", .prim ⟨4, .big⟩, false, false⟩, ⟨"b", .prim ⟨12, .big⟩, false, false⟩]
  (by decide +kernel)
  "2" rfl 0

/-- What holds of the claims: at most one payload, and a vector, payload or not, has a length unless it is
the last field. -/
theorem C104_documented_partial (lenOk : String → Bool) (fields : List RawField) (ss : List Shape)
    (h : deriveMacro lenOk fields = .ok ss) :
    (ss.filter (·.payload)).length ≤ 1 ∧
      ∀ i s, ss[i]? = some s → s.kind.isVec = true → i + 1 = ss.length ∨ s.hasLen = true := by
  obtain ⟨h1, h2, h3⟩ := (C65_macro_accepts lenOk fields ss).mp h
  refine ⟨Nat.le_trans (shape_payloads h3) h2, fun i s hs hv => ?_⟩
  obtain ⟨f, hf, hfs⟩ := laid_at h3 hs
  obtain ⟨-, -, ty, hty, hvec, -⟩ := h1 i f hf
  obtain ⟨-, -, h4, ty', hty', hk⟩ := hfs
  have : ty' = ty := by
    rw [← parseType_iff] at hty hty'
    rw [hty] at hty'; cases hty'; rfl
  subst this
  have : ∃ inner, ty' = .vector inner := by
    generalize s.kind = k at hk hv
    cases hk with
    | prim => simp [Kind.isVec] at hv
    | misc => simp [Kind.isVec] at hv
    | vecPrim => exact ⟨_, rfl⟩
    | vecPkt => exact ⟨_, rfl⟩
  rcases hvec this with h | ⟨t, h⟩
  · exact .inl (by rw [← laid_length h3]; exact h)
  · exact .inr (h4.mpr (mem_lengthTexts h))

example := C104_documented_partial (fun _ => true)
  [Source.field "n" [] "u8", Source.field "v" [Source.payload, Source.length "n"] "Vec < u8 >", Source.field "b" [] "u8"]
  [⟨"n", .prim ⟨8, .big⟩, false, false⟩, ⟨"v", .vecPrim ⟨8, .big⟩, true, true⟩, ⟨"b", .prim ⟨8, .big⟩, false, false⟩]
  (by decide +kernel)

/-- The payload of a packet whose payload is a fixed-size field begins with that field: the bytes of the
field, and of all fields behind it, are payload. -/
theorem C104_payload_overlaps (d : Decl) (m : Mode) (buf : Buf) (k : Nat) (f : Field)
    (hk : d.payloadIdx = some k) (hf : d.fields[k]? = some f) (hfix : (d.fields.take (k + 1)).all Props.isFixed = true)
    (hsl : SliceLen buf.length) (hnew : d.minSize ≤ buf.length) :
    d.payload m buf = .ok (buf.drop (fixedBits (d.fields.take k) / 8)) := by
  have hnone : ∀ j g, j ≤ k → d.fields[j]? = some g → g.len = none := by
    intro j g hj hg
    have := List.all_eq_true.mp hfix g (List.mem_of_getElem? (i := j) (by rw [List.getElem?_take_of_lt (by omega), hg]))
    simp only [Props.isFixed, Bool.and_eq_true, Option.isNone_iff_eq_none] at this
    exact this.2
  have hkl : k < d.fields.length := (List.getElem?_eq_some_iff.mp hf).1
  have hsizes : ∀ j, j ≤ k → Sizes d m buf j [] := by
    intro j
    induction j with
    | zero => exact fun _ => .nil
    | succ j ih =>
      intro hj
      have hg : d.fields[j]? = some d.fields[j] := List.getElem?_eq_getElem (by omega)
      exact .plain (ih (by omega)) hg (hnone j _ (by omega) hg)
  have hle : fixedBits (d.fields.take k) / 8 ≤ d.minSize := by
    have h1 := minSize_bits d
    have h2 : bitsSum (d.fields.take k) ≤ d.bits := bitsSum_take_le _ _
    have h3 := startOf_eq d k []
    unfold startOf at h3
    simp only [List.sum_nil, Nat.add_zero] at h3
    omega
  have := Props.C08_payload_total d m buf k f hk hf [] buf.length (hsizes k (Nat.le_refl _))
    (by unfold HasLength; rw [hnone k f (Nat.le_refl _) hf]) (by
      unfold startOf SliceLen at *
      simp only [List.sum_nil]
      omega)
  rw [this, startOf, List.sum_nil, Nat.add_zero, List.take_of_length_le (by rw [List.length_drop]; omega)]

example := C104_payload_overlaps ⟨[fprim "a" 8, ⟨"b", .prim ⟨8, .big⟩, true, none⟩]⟩ .debug [1, 2, 3] 1 _ rfl rfl
  rfl (by unfold SliceLen; decide) (by decide)

/-- A field of fixed size that has a length moves the fields behind it: their getters panic though `new`
accepted the packet. -/
theorem C104_length_moves : ∃ d : Decl, d.accepted = true ∧ (∀ f ∈ d.fields, f.ty.isVec = false) ∧
    d.minSize = 2 ∧ ∀ m, d.get m [1, 2] 1 = panic ∧ d.get m [1, 2, 3, 4] 1 = .ok (.num 4) :=
  ⟨⟨[⟨"a", .prim ⟨8, .big⟩, false, some (lenConst 2)⟩, fprim "b" 8]⟩, by decide, by decide, by decide,
    by intro m; cases m <;> decide⟩

end Verif
