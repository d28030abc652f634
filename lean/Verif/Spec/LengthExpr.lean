import Verif.Model.LengthExpr

/-! # Length expressions as flat token sequences -/

namespace Verif.Spec

/-- A token; groups are written out with their delimiters. -/
inductive Leaf
  | ident (name : String)
  | punct (c : Char)
  | literal (text : String) (isInt : Bool)
  | opening (d : Delim)
  | closing (d : Delim)
deriving DecidableEq

mutual
/-- The tokens of a token tree, in reading order. -/
def leaves : TT → List Leaf
  | .ident name => [.ident name]
  | .punct c => [.punct c]
  | .literal text isInt => [.literal text isInt]
  | .group d inner => .opening d :: (flatten inner ++ [.closing d])

/-- The tokens of a list of token trees. -/
def flatten : List TT → List Leaf
  | [] => []
  | t :: ts => leaves t ++ flatten ts
end

/-- `self.get_<name>()` for a field name, anything else unchanged. -/
def withGetters (names : List String) : Leaf → List Leaf
  | .ident name =>
    if name ∈ names then
      [.ident "self", .punct '.', .ident ("get_" ++ name), .opening .paren, .closing .paren]
    else [.ident name]
  | t => [t]

/-- The tokens that, according to the macro's error message, may occur in a length expression: field
names, constants (any other upper-case name), integers, `+ - * / %` and parentheses. -/
def Documented (names : List String) : Leaf → Prop
  | .ident name => name ∈ names ∨ ∀ c ∈ name.toList, c.isUpper ∨ c.isDigit ∨ c = '_'
  | .punct c => c ∈ ['+', '-', '*', '/', '%']
  | .literal _ isInt => isInt = true
  | .opening d => d = .paren
  | .closing d => d = .paren

/-- `s` is the text of the last `#[length = "..."]` of a field. -/
def LastLength (f : RawField) (s : String) : Prop :=
  ∃ before after, f.attrs = before ++ .nameValue (some "length") (some s) :: after ∧
    ∀ t, .nameValue (some "length") (some t) ∉ after

/-- `n` is the name of a field other than `f`. -/
def OtherField (fields : List RawField) (f : RawField) (n : String) : Prop :=
  (∃ g ∈ fields, g.name = some n) ∧ f.name ≠ some n

/-- The length expression of `f` evaluates `get_n()`: it names another field `n`, or spells the getter
out (and `get_n` is not itself the name of another field). -/
def LengthUses (tok : String → Option (List TT)) (fields : List RawField) (f : RawField) (n : String) :
    Prop :=
  ∃ s tts, LastLength f s ∧ tok s = some tts ∧ (∀ text, .literal text false ∉ flatten tts) ∧
    ((.ident n ∈ flatten tts ∧ OtherField fields f n) ∨
     (.ident ("get_" ++ n) ∈ flatten tts ∧ ¬ OtherField fields f ("get_" ++ n)))

/-- Evaluating `get_<field k>()` evaluates `get_<field j>()`. -/
def Calls (tok : String → Option (List TT)) (fields : List RawField) (k j : Nat) : Prop :=
  ∃ f n, fields[j]? = some f ∧ f.name = some n ∧ "get_" ++ n ∈ getterRefs tok fields k

/-- Length expressions mention earlier fields only, by name or by getter. -/
def LengthsLookBack (tok : String → Option (List TT)) (fields : List RawField) : Prop :=
  ∀ (i j : Nat) (f g : RawField) (s n : String) (tts : List TT),
    fields[i]? = some f → .nameValue (some "length") (some s) ∈ f.attrs → tok s = some tts →
    fields[j]? = some g → g.name = some n → i ≤ j →
    .ident n ∉ flatten tts ∧ .ident ("get_" ++ n) ∉ flatten tts

end Verif.Spec
