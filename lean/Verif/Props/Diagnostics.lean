import Verif.Proofs.Diagnostics
import Verif.Props.Parse
import Verif.Model.Sources

/-! # C88: the error messages of the derive macro -/

namespace Verif
open Spec

/-- C88: for a public struct, the macro reports exactly the first defect found when reading the
fields in order, each field first by its attributes in order, then by its type; if all fields are
legal, the first field for which no code can be made. Text and place of the message are those of that
defect. -/
theorem C88_report (tok : String → Option (List TT)) (fields : List RawField) (r : Failure) :
    Diag.derivePacket tok true (.struct fields) = .error r ↔ Reported tok fields r :=
  Diag.deriveMacro_error tok fields r

example : Diag.derivePacket (fun _ => none) true (.struct [Source.field "a" [] "u8",
      Source.field "b" [.list (some "construct_with") [some "u8".toList, none]] "Toto",
      Source.field "c" [] "u16"]) =
    .error (.message (.attribute 1 0)
      "#[construct_with] should be of the form #[construct_with(<types>)]") := by decide +kernel

example : Diag.derivePacket (fun _ => none) true (.struct [Source.field "a" [] "u4",
      Source.field "v" [] "Vec < u12be >"]) =
    .error (.message (.field 1) "unimplemented variable length field") := by decide +kernel

/-- C88: a struct that is not public is reported as such, whatever else is wrong with it; a public
enum or union makes the macro panic. -/
theorem C88_other_items (tok : String → Option (List TT)) (item : DeriveItem) :
    Diag.derivePacket tok false item = .error (.message .structName "#[packet] structs must be public") ∧
    Diag.derivePacket tok true .enumOrUnion = .error .panicked :=
  ⟨rfl, rfl⟩

example : Diag.derivePacket (fun _ => none) false (.struct [Source.field "a" [] "u4"]) =
    .error (.message .structName "#[packet] structs must be public") :=
  (C88_other_items (fun _ => none) _).1

/-- C88: apart from the messages these are the results of the macro (C65, C66). -/
theorem C88_same_results (tok : String → Option (List TT)) (isPub : Bool) (item : DeriveItem) :
    (Diag.derivePacket tok isPub item).mapError Failure.forget =
      derivePacket (lengthTextOk tok) isPub item :=
  Diag.derivePacket_forget tok isPub item

example : (Diag.derivePacket (fun _ => none) true (.struct [Source.field "a" [] "&u4"])).mapError Failure.forget =
    .error .rejected := by decide +kernel

/-- C88: a declaration has at most one first defect. -/
theorem C88_unique (tok : String → Option (List TT)) (fields : List RawField) (r r' : Failure)
    (h : Reported tok fields r) (h' : Reported tok fields r') : r = r' := by
  rw [← C88_report] at h h'
  rw [h] at h'
  cases h'
  rfl

/-- Two defects, of which the first is reported. -/
example : Reported (fun _ => none) [Source.field "a" [] "u8", Source.field "b" [] "u16", Source.field "c" [] "u17"]
    (.message (.fieldType 1) "endianness must be specified for types of size >= 8") :=
  (C88_report _ _ _).mp (by decide +kernel)

/-- A raw identifier is not reported but makes the macro panic. -/
example : Reported (fun _ => none) [Source.field "a" [] "u8", Source.field "r#type" [] "u8"] .panicked :=
  (C88_report _ _ _).mp (by decide +kernel)

/-- C88: a public struct without defects is accepted. -/
theorem C88_otherwise_accepted (tok : String → Option (List TT)) (fields : List RawField)
    (h : ∀ r, ¬ Reported tok fields r) :
    ∃ ss, derivePacket (lengthTextOk tok) true (.struct fields) = .ok ss := by
  rw [← C88_same_results]
  cases hd : Diag.derivePacket tok true (.struct fields) with
  | ok ss => exact ⟨ss, rfl⟩
  | error r => exact absurd ((C88_report tok fields r).mp hd) (h r)

example : ∀ r, ¬ Reported (fun _ => none) [Source.field "a" [] "u8"] r := by
  intro r h
  rw [← C88_report] at h
  have : Diag.derivePacket (fun _ => none) true (.struct [Source.field "a" [] "u8"]) =
      .ok [⟨"a", .prim ⟨8, .big⟩, false, false⟩] := by decide +kernel
  rw [this] at h
  cases h

/-- C88: the place of a message is a field of the declaration, or an attribute of such a field. -/
theorem C88_place (tok : String → Option (List TT)) (fields : List RawField) (p : Place) (text : String)
    (h : Diag.derivePacket tok true (.struct fields) = .error (.message p text)) :
    (∃ i f, fields[i]? = some f ∧ (p = .field i ∨ p = .fieldType i)) ∨
    ∃ i f k m, fields[i]? = some f ∧ f.attrs[k]? = some m ∧ p = .attribute i k := by
  rw [C88_report] at h
  generalize hr : Failure.message p text = r at h
  have hty : ∀ i x, .message p text = onType i x → p = .fieldType i := by
    intro i x hx
    cases x <;> cases hx; rfl
  cases h with
  | @field pre f post _ hf _ _ hd =>
    have hi : fields[pre.length]? = some f := by rw [hf]; simp
    cases hd with
    | unnamed => cases hr; exact .inl ⟨_, f, hi, .inr rfl⟩
    | @attr as m bs _ _ ha _ _ hd =>
      have hk : f.attrs[as.length]? = some m := by rw [ha]; simp
      have hat : p = .attribute pre.length as.length ∨ p = .fieldType pre.length := by
        cases hd with
        | constructType _ _ => exact .inr (hty _ _ hr)
        | _ => cases hr <;> exact .inl rfl
      rcases hat with h | h
      · exact .inr ⟨_, f, _, m, hi, hk, h⟩
      · exact .inl ⟨_, f, hi, .inr h⟩
    | type _ _ _ _ => exact .inl ⟨_, f, hi, .inr (hty _ _ hr)⟩
    | noLength => cases hr; exact .inl ⟨_, f, hi, .inr rfl⟩
    | noConstruct => cases hr; exact .inl ⟨_, f, hi, .inr rfl⟩
  | rawName => cases hr
  | @kind pre f post _ _ _ _ _ hf _ _ _ hd =>
    have hi : fields[pre.length]? = some f := by rw [hf]; simp
    cases hd with
    | panics => cases hr
    | nothing => cases hr
    | _ => cases hr; exact .inl ⟨_, f, hi, .inl rfl⟩

example : Diag.derivePacket (fun _ => none) true (.struct [Source.field "a" [] "u8", Source.field "b" [] "u16"]) =
    .error (.message (.fieldType 1) "endianness must be specified for types of size >= 8") := by decide +kernel

/-- C88: a wrong type among the arguments of `#[construct_with]` is reported at the type of the field,
not at the attribute. -/
theorem C88_argument_place (tok : String → Option (List TT)) (name : String) (ty t : List Char)
    (items : List (Option (List Char))) (fs : List RawField) :
    Diag.derivePacket tok true (.struct
      (⟨some name, [.list (some "construct_with") (some ('&' :: t) :: items)], ty⟩ :: fs)) =
      .error (.message (.fieldType 0) ("invalid type: " ++ String.ofList ('&' :: t))) := by
  rw [C88_report]
  exact .field (pre := []) rfl (by simp) (by simp) (.attr (pre := []) (by simp) rfl (by simp) (by simp)
    (.constructType (pre := []) (x := .text _) (by simp) .reference))

example := C88_argument_place (fun _ => none) "kind" "Kind".toList "u8".toList [some "u8".toList] []

/-- What the message "endianness must be specified for types of size >= 8" says. -/
def C88_endianness_statement : Prop :=
  ∀ (s : List Char) (w : Nat) (e : Endianness), IntType s w e false → 8 ≤ w → w < 2 ^ 64 →
    ∃ text, Diag.parseType s true = .error (.text text)

/-- C88: that message overstates the rule: `u8` has size 8 and needs no endianness. -/
theorem C88_endianness_overstated : ¬ C88_endianness_statement := by
  intro h
  obtain ⟨text, ht⟩ := h "u8".toList 8 .big
    ((C52_parse_ty "u8".toList 8 .big .no).mp (by decide +kernel)).1 (by decide) (by decide)
  have : Diag.parseType "u8".toList true = .ok (.primitive "u8".toList 8 .big) := by decide +kernel
  rw [this] at ht
  cases ht

/-- C88: the rule is: without a suffix, exactly the sizes above 8 are rejected with this
message. -/
theorem C88_endianness_rule (s : List Char) (w : Nat) (e : Endianness) (h : IntType s w e false)
    (hw : w < 2 ^ 64) :
    Diag.parseType s true =
      (if 8 < w then .error (.text "endianness must be specified for types of size >= 8")
       else .ok (.primitive s w e)) := by
  split
  · rename_i h8
    exact (Diag.parseType_error _ _ _).mpr (.endianness rfl h h8 hw)
  · rename_i h8
    exact (Diag.parseType_ok _ _ _).mpr (.int h hw (fun _ => .inl (by omega)))

example : IntType "u16".toList 16 .big false :=
  ((C52_parse_ty "u16".toList 16 .big .no).mp (by decide +kernel)).1

/-! ## C66 for all structs -/

/-- C66, exact panics for all public structs, legal or not: the first defect is one of the panics of
`Reported` (an incomplete `Vec<` in a type text, or a field without code). Missing: the panics
themselves. -/
theorem C66_all_panics_partial (tok : String → Option (List TT)) (fields : List RawField) :
    derivePacket (lengthTextOk tok) true (.struct fields) = .error .panicked ↔
      Reported tok fields .panicked := by
  rw [← C88_report, ← C88_same_results]
  cases hd : Diag.derivePacket tok true (.struct fields) with
  | ok ss => simp [Except.mapError]
  | error r => cases r <;> simp [Except.mapError, Failure.forget]

example : Reported (fun _ => none) [Source.field "a" [] "u5", Source.field "b" [] "u4"] .panicked := by
  rw [← C88_report]; decide +kernel

end Verif
