import Verif.Model.Macro
import Verif.Spec.Decls

/-! # Which declarations the macro turns into which fields -/

namespace Verif.Spec

/-- A field of `n` bits can start at bit `bit`: on a byte boundary, or if the bits left over after its
whole bytes fit into the first byte. -/
def FitsAt (bit n : Nat) : Prop := 1 ≤ n ∧ n ≤ 64 ∧ (bit % 8 = 0 ∨ bit % 8 + n % 8 ≤ 8)

/-- Consecutive integers starting at `bit` all fit. -/
inductive AllFit : Nat → List Prim → Prop
  | nil {bit} : AllFit bit []
  | cons {bit p ps} : FitsAt bit p.size → AllFit (bit + p.size) ps → AllFit bit (p :: ps)

/-- The integers of a field fit; the elements of a vector are whole bytes. -/
def KindFits (bit : Nat) : Kind → Prop
  | .prim p => FitsAt bit p.size
  | .misc args => AllFit bit args
  | .vecPrim p => 8 ∣ p.size ∧ 8 ≤ p.size ∧ p.size ≤ 64
  | .vecPkt => True

/-- Number of bits of the fixed-size part of a field. -/
def kindBits : Kind → Nat
  | .prim p => p.size
  | .misc args => (args.map Prim.size).sum
  | _ => 0

/-- The texts denote these integer types. -/
inductive ArgTexts : List (List Char) → List Prim → Prop
  | nil : ArgTexts [] []
  | cons {a as p ps b} : IntType a p.size p.endian b → p.size < 2 ^ 64 → ArgTexts as ps →
      ArgTexts (a :: as) (p :: ps)

/-- An ASCII identifier. -/
def Identifier (t : List Char) : Prop :=
  ∃ c cs, t = c :: cs ∧ (c.isAlpha ∨ c = '_') ∧ ∀ x ∈ cs, x.isAlphanum ∨ x = '_'

/-- The kind of field a type stands for, given the texts of `#[construct_with]`. -/
inductive KindOf (args : List (List Char)) : PType → Kind → Prop
  | prim {t w e} : KindOf args (.primitive t w e) (.prim ⟨w, e⟩)
  | misc {t ps} : ArgTexts args ps → KindOf args (.misc t) (.misc ps)
  | vecPrim {t w e} : KindOf args (.vector (.primitive t w e)) (.vecPrim ⟨w, e⟩)
  | vecPkt {t} : Identifier t → KindOf args (.vector (.misc t)) .vecPkt

/-- What is written is this field. -/
def ShapeOf (f : RawField) (s : Shape) : Prop :=
  f.name = some s.name ∧ (s.payload = true ↔ .path (some "payload") ∈ f.attrs) ∧
  (s.hasLen = true ↔ lengthTexts f.attrs ≠ []) ∧
  ∃ ty, TypeText true (tyToString f.ty) ty ∧ KindOf (constructTexts f.attrs) ty s.kind

/-- The field is named by a raw identifier, `r#` and a keyword. -/
def RawNamed (f : RawField) : Prop := ∃ name rest, f.name = some name ∧ name.toList = 'r' :: '#' :: rest

/-- What is written are these fields, starting at `bit`, each where it fits, none of them named by a
raw identifier. -/
inductive Laid : Nat → List RawField → List Shape → Prop
  | nil {bit} : Laid bit [] []
  | cons {bit f fs s ss} : ShapeOf f s → ¬ RawNamed f → KindFits bit s.kind → Laid (bit + kindBits s.kind) fs ss →
      Laid bit (f :: fs) (s :: ss)

/-- One of the integers in the argument list, the first that does not fit, starts at a bit where the
macro has no code for it. -/
inductive ArgsPanic : Nat → List (List Char) → Prop
  | here {bit a as w e b} : IntType a w e b → w < 2 ^ 64 → ¬ FitsAt bit w → ArgsPanic bit (a :: as)
  | later {bit a as w e b} : IntType a w e b → w < 2 ^ 64 → FitsAt bit w → ArgsPanic (bit + w) as →
      ArgsPanic bit (a :: as)

/-- The field types on which the macro panics. -/
def KindPanics (bit : Nat) (args : List (List Char)) : PType → Prop
  | .primitive _ w _ => ¬ FitsAt bit w
  | .vector (.primitive _ w _) => 8 ∣ w ∧ ¬ (8 ≤ w ∧ w ≤ 64)
  | .vector (.misc t) => t ≠ [] ∧ ¬ Identifier t
  | .vector (.vector _) => False
  | .misc _ => ArgsPanic bit args

/-- The kind of a modelled field type. -/
def kindOfTy : Ty → Kind
  | .prim p => .prim p
  | .misc args => .misc args
  | .vecPrim p => .vecPrim p
  | .vecPkt _ => .vecPkt

/-- The fields of a modelled declaration, without their length expressions. -/
def shapes (d : Decl) : List Shape :=
  d.fields.map fun f => ⟨f.name, kindOfTy f.ty, f.payload, f.len.isSome⟩

end Verif.Spec
