import Verif.Spec.Offsets

/-!
# The size of generated code
-/

namespace Verif

mutual
/-- The number of tokens; a pair of brackets is one. -/
def TT.count : TT → Nat
  | .group _ inner => 1 + TT.countAll inner
  | _ => 1

/-- The same for a list. -/
def TT.countAll : List TT → Nat
  | [] => 0
  | t :: ts => t.count + TT.countAll ts
end

mutual
/-- How often `...` occurs in a token. -/
def TT.dotsCount : TT → Nat
  | .ident n => if n = Spec.dots then 1 else 0
  | .group _ inner => TT.dotsAll inner
  | _ => 0

/-- The same for a list. -/
def TT.dotsAll : List TT → Nat
  | [] => 0
  | t :: ts => t.dotsCount + TT.dotsAll ts
end

namespace Spec

/-- The tokens of the length of a field, as the macro writes them (field names replaced by getters). -/
def lengthSize (tok : String → Option (List TT)) (fields : List RawField) (f : RawField) : Nat :=
  match lengthTokens tok fields f with
  | some ts => TT.countAll ts
  | none => 0

/-- The size of a struct: its fields and the tokens of their lengths. -/
def structSize (tok : String → Option (List TT)) (fields : List RawField) : Nat :=
  fields.length + (fields.map (lengthSize tok fields)).sum

/-- Whether the length of a field uses `...`. -/
def usesDots (tok : String → Option (List TT)) (fields : List RawField) (f : RawField) : Bool :=
  match lengthTokens tok fields f with
  | some ts => 0 < TT.dotsAll ts
  | none => false

end Verif.Spec
