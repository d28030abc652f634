import Verif.Model.Parse
import Verif.Spec.Text

/-! # Legal packet declarations, as documented for the derive macro -/

namespace Verif.Spec

/-- The type a text denotes: an integer type `u<width><endianness>` (whose endianness must be spelled
out above 8 bits if `imp`), a vector `Vec<...>` (its last character is dropped unseen), or any other
name; references are not types. -/
inductive TypeText (imp : Bool) : List Char → PType → Prop
  | int {s : List Char} {w : Nat} {e : Endianness} {spelled : Bool} :
      IntType s w e spelled → w < 2 ^ 64 → (imp = true → w ≤ 8 ∨ spelled = true) →
      TypeText imp s (.primitive s w e)
  | vec {t : List Char} {ty : PType} {c : Char} : c.utf8Size = 1 → TypeText imp t ty →
      TypeText imp (['V', 'e', 'c', '<'] ++ t ++ [c]) (.vector ty)
  | misc {s : List Char} : (¬ ∃ w e spelled, IntType s w e spelled ∧ w < 2 ^ 64) →
      ¬ ['V', 'e', 'c', '<'] <+: s → ¬ ['&'] <+: s → TypeText imp s (.misc s)

/-- The attributes a field may carry. -/
def LegalAttr (lenOk : String → Bool) : Meta → Prop
  | .invalid => False
  | .path _ => True
  | .nameValue ident lit => ident = none ∨ (ident = some "length" ∧ ∃ s, lit = some s ∧ lenOk s = true)
  | .list ident items => ident = some "construct_with" ∧ items ≠ [] ∧
      ∀ item ∈ items, ∃ text ty, item = some text ∧ TypeText false text ty

/-- A legal field: named, legal attributes, a type; a vector needs a length unless it is the last
field; a user-defined type needs `#[construct_with]`. -/
def LegalField (lenOk : String → Bool) (last : Prop) (f : RawField) : Prop :=
  f.name ≠ none ∧ (∀ m ∈ f.attrs, LegalAttr lenOk m) ∧
  ∃ ty, TypeText true (tyToString f.ty) ty ∧
    ((∃ inner, ty = .vector inner) → last ∨ ∃ s, .nameValue (some "length") (some s) ∈ f.attrs) ∧
    ((∃ text, ty = .misc text) → ∃ items, .list (some "construct_with") items ∈ f.attrs)

/-- The texts of the `#[length = "..."]` attributes, in order. -/
def lengthTexts (attrs : List Meta) : List String :=
  attrs.filterMap fun
    | .nameValue (some "length") lit => lit
    | _ => none

/-- The texts listed in the `#[construct_with(...)]` attributes, in order. -/
def constructTexts (attrs : List Meta) : List (List Char) :=
  attrs.flatMap fun
    | .list (some "construct_with") items => items.filterMap id
    | _ => []

end Verif.Spec
