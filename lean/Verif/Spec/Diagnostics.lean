import Verif.Model.Diagnostics
import Verif.Spec.Macro
import Verif.Spec.LengthExpr

/-! # What is wrong with a declaration, and what the macro says about it -/

namespace Verif.Spec

/-- What is wrong with a type text: an integer wider than 8 bits without endianness where that
matters, a reference, or such a text inside `Vec<...>`. The macro panics on an incomplete `Vec<` and on
one that ends in a character longer than one byte. -/
inductive TypeDefect (imp : Bool) : List Char → TypeFailure → Prop
  | endianness {s w e} : imp = true → IntType s w e false → 8 < w → w < 2 ^ 64 →
      TypeDefect imp s (.text "endianness must be specified for types of size >= 8")
  | reference {t} :
      TypeDefect imp ('&' :: t) (.text ("invalid type: " ++ String.ofList ('&' :: t)))
  | vec {t c x} : Char.utf8Size c = 1 → TypeDefect imp t x →
      TypeDefect imp (['V', 'e', 'c', '<'] ++ t ++ [c]) x
  | incomplete : TypeDefect imp ['V', 'e', 'c', '<'] .panicked
  | wide {t c} : Char.utf8Size c ≠ 1 → TypeDefect imp (['V', 'e', 'c', '<'] ++ t ++ [c]) .panicked

/-- A defect of a type is reported at the type of the field. -/
def onType (i : Nat) : TypeFailure → Failure
  | .text s => .message (.fieldType i) s
  | .panicked => .panicked
  | .hang => .hang

/-- What is wrong with attribute `k` of field `i`; `seen` says that there was a `#[payload]`
before. -/
inductive AttrDefect (tok : String → Option (List TT)) (seen : Prop) (i k : Nat) :
    Meta → Failure → Prop
  | unreadable : AttrDefect tok seen i k .invalid .bySyn
  | secondPayload : seen → AttrDefect tok seen i k (.path (some "payload"))
      (.message (.attribute i k) "packet may not have multiple payloads")
  | lengthNotText : AttrDefect tok seen i k (.nameValue (some "length") none)
      (.message (.attribute i k)
        "#[length] should be used as #[length = \"field_name and/or arithmetic expression\"]")
  | lengthUnreadable {s} : tok s = none →
      AttrDefect tok seen i k (.nameValue (some "length") (some s)) .bySyn
  | lengthLiteral {s tts text} : tok s = some tts → .literal text false ∈ flatten tts →
      AttrDefect tok seen i k (.nameValue (some "length") (some s)) (.message (.attribute i k)
        "Only field names, constants, integers, basic arithmetic expressions (+ - * / %) and parentheses are allowed in the \"length\" attribute")
  | otherNameValue {name lit} : name ≠ "length" →
      AttrDefect tok seen i k (.nameValue (some name) lit)
        (.message (.attribute i k) ("Unknown meta/namevalue option '" ++ name ++ "'"))
  | listPath {items} : AttrDefect tok seen i k (.list none items)
      (.message (.attribute i k) "meta-list attribute has unexpected type (not an ident)")
  | otherList {name items} : name ≠ "construct_with" → AttrDefect tok seen i k (.list (some name) items)
      (.message (.attribute i k) ("unknown attribute: " ++ name))
  | constructEmpty : AttrDefect tok seen i k (.list (some "construct_with") [])
      (.message (.attribute i k) "#[construct_with] must have at least one argument")
  | constructLiteral {pre post} : (∀ x ∈ pre, ∃ text ty, x = some text ∧ TypeText false text ty) →
      AttrDefect tok seen i k (.list (some "construct_with") (pre ++ none :: post))
        (.message (.attribute i k) "#[construct_with] should be of the form #[construct_with(<types>)]")
  | constructType {pre text post x} :
      (∀ x ∈ pre, ∃ text ty, x = some text ∧ TypeText false text ty) → TypeDefect false text x →
      AttrDefect tok seen i k (.list (some "construct_with") (pre ++ some text :: post)) (onType i x)

/-- What is wrong with field `i`, given the attributes `before` of the fields before it. -/
inductive FieldDefect (tok : String → Option (List TT)) (before : List Meta) (i : Nat) (last : Prop)
    (f : RawField) : Failure → Prop
  | unnamed : f.name = none →
      FieldDefect tok before i last f (.message (.fieldType i) "all fields in a packet must be named")
  | attr {pre m post r} : f.name ≠ none → f.attrs = pre ++ m :: post →
      (∀ a ∈ pre, LegalAttr (lengthTextOk tok) a) →
      (before ++ pre).count (.path (some "payload")) ≤ 1 →
      AttrDefect tok (.path (some "payload") ∈ before ++ pre) i pre.length m r →
      FieldDefect tok before i last f r
  | type {x} : f.name ≠ none → (∀ a ∈ f.attrs, LegalAttr (lengthTextOk tok) a) →
      (before ++ f.attrs).count (.path (some "payload")) ≤ 1 →
      TypeDefect true (tyToString f.ty) x → FieldDefect tok before i last f (onType i x)
  | noLength {inner} : f.name ≠ none → (∀ a ∈ f.attrs, LegalAttr (lengthTextOk tok) a) →
      (before ++ f.attrs).count (.path (some "payload")) ≤ 1 →
      TypeText true (tyToString f.ty) (.vector inner) → ¬ last →
      (∀ s, .nameValue (some "length") (some s) ∉ f.attrs) →
      FieldDefect tok before i last f (.message (.fieldType i)
        "variable length field must specify #[length], unless it is the last field of a packet")
  | noConstruct {t} : f.name ≠ none → (∀ a ∈ f.attrs, LegalAttr (lengthTextOk tok) a) →
      (before ++ f.attrs).count (.path (some "payload")) ≤ 1 →
      TypeText true (tyToString f.ty) (.misc t) →
      (∀ items, .list (some "construct_with") items ∉ f.attrs) →
      FieldDefect tok before i last f (.message (.fieldType i)
        "non-primitive field types must specify #[construct_with]")

/-- The constructor arguments contain something that is not an integer, after integers that fit. -/
inductive ArgNotInt : Nat → List (List Char) → Prop
  | here {bit a as} : (¬ ∃ w e b, IntType a w e b ∧ w < 2 ^ 64) → ArgNotInt bit (a :: as)
  | later {bit a as w e b} : IntType a w e b → w < 2 ^ 64 → FitsAt bit w → ArgNotInt (bit + w) as →
      ArgNotInt bit (a :: as)

/-- What is wrong with the type of a legal field `i` that starts at `bit`. -/
inductive KindDefect (i bit : Nat) (args : List (List Char)) : PType → Failure → Prop
  | partBytes {t w e} : ¬ 8 ∣ w → KindDefect i bit args (.vector (.primitive t w e))
      (.message (.field i) "unimplemented variable length field")
  | nested {ty} : KindDefect i bit args (.vector (.vector ty))
      (.message (.field i) "variable length fields may not contain vectors")
  | nothing : KindDefect i bit args (.vector (.misc [])) .bySyn
  | argument {t} : ArgNotInt bit args → KindDefect i bit args (.misc t)
      (.message (.field i) "arguments to #[construct_with] must be primitives")
  | panics {ty} : KindPanics bit args ty → KindDefect i bit args ty .panicked

/-- What the macro says about a public struct: the first defect found when reading the fields in
order; if there is none, the first field for which no code can be made. -/
inductive Reported (tok : String → Option (List TT)) (fields : List RawField) : Failure → Prop
  | field {pre f post r} : fields = pre ++ f :: post →
      (∀ g ∈ pre, LegalField (lengthTextOk tok) False g) →
      (pre.flatMap (·.attrs)).count (.path (some "payload")) ≤ 1 →
      FieldDefect tok (pre.flatMap (·.attrs)) pre.length (post = []) f r → Reported tok fields r
  | kind {pre f post ss ty r} :
      (∀ i f, fields[i]? = some f → LegalField (lengthTextOk tok) (i + 1 = fields.length) f) →
      (fields.flatMap (·.attrs)).count (.path (some "payload")) ≤ 1 →
      fields = pre ++ f :: post → Laid 0 pre ss → ¬ RawNamed f → TypeText true (tyToString f.ty) ty →
      KindDefect pre.length (ss.map fun s => kindBits s.kind).sum (constructTexts f.attrs) ty r →
      Reported tok fields r
  | rawName {pre f post ss} :
      (∀ i f, fields[i]? = some f → LegalField (lengthTextOk tok) (i + 1 = fields.length) f) →
      (fields.flatMap (·.attrs)).count (.path (some "payload")) ≤ 1 →
      fields = pre ++ f :: post → Laid 0 pre ss → RawNamed f → Reported tok fields .panicked

end Verif.Spec
