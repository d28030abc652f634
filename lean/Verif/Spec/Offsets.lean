import Verif.Spec.LengthGrammar
import Verif.Spec.LengthExpr

/-!
# What `...`, a length and a position are
-/

namespace Verif.Spec

/-- What `...` becomes before the expression is read (`parse.rs:105`). -/
def dots : String := "r#field_offset"

/-- Whether a token is `...`. -/
def _root_.Verif.TT.isDots : TT → Bool
  | .ident n => n == dots
  | _ => false

/-- Whether a token is a comma. -/
def _root_.Verif.TT.isComma : TT → Bool
  | .punct c => c == ','
  | _ => false

/-- Whether an argument ends before these tokens; `stop`: after them it does. -/
def argumentEnds (stop : Bool) : List TT → Bool
  | [] => stop
  | t :: _ => t.isComma

mutual
/-- Every `...` in a group is all that is in the group, or a whole argument. -/
def _root_.Verif.TT.dotsWhole : TT → Bool
  | .group _ inner => dotsWhole true true inner
  | _ => true

/-- The same of a list of tokens; `start`, `stop`: whether an argument starts before the list and ends after it. -/
def dotsWhole (start stop : Bool) : List TT → Bool
  | [] => true
  | t :: ts => t.dotsWhole && (!t.isDots || start && argumentEnds stop ts) && dotsWhole t.isComma stop ts
end

/-- The same meaning, but `...` is the bytes from position `pos` on. -/
def Meaning.withDots {α : Type} (I : Meaning α) (pos : α) : Meaning α :=
  { I with name := fun n => if n = dots then I.ref (I.rest pos) else I.name n }

/-- The length of `f` is declared by a text that is the expression `e`, in which no function, method or
type has the name of another field, and `...` is the whole length, a whole argument, a whole branch or alone in
parentheses; `none`: no length is declared. -/
def LengthIs (tok : String → Option (List TT)) (fields : List RawField) (f : RawField) :
    Option RExpr → Prop
  | some e => ∃ s ts, LastLength f s ∧ tok s = some ts ∧ Reads 1 ts e ∧
      e.NoClash (fieldNames fields f.name) ∧ dotsWhole true true ts = true
  | none => ∀ s, .nameValue (some "length") (some s) ∉ f.attrs

/-- The value of a length for a field at position `pos`: that of its expression, fields being read by their
getters and `...` being the bytes from `pos` on, made a `usize`. -/
def lengthValue {α : Type} (I : Meaning α) (fields : List RawField) (f : RawField) (pos : α) (e : RExpr) : α :=
  I.cast (e.value ((I.withDots pos).withFields (fieldNames fields f.name))) "usize"

/-- The position after `bits` bits of fixed size and fields of some lengths: the number of whole bytes plus
the lengths, from left to right. -/
def position {α : Type} (I : Meaning α) (bits : Nat) (lengths : List α) : α :=
  lengths.foldl (I.op '+') (I.int (toString (bits / 8) ++ "usize"))

/-- The lengths of the fields `fs`, after `bits` bits and fields of lengths `lengths`. -/
def lengthsFrom {α : Type} (I : Meaning α) (fields : List RawField) (width : RawField → Nat)
    (len : RawField → Option RExpr) : (bits : Nat) → (lengths : List α) → (fs : List RawField) → List α
  | _, lengths, [] => lengths
  | bits, lengths, f :: fs =>
    lengthsFrom I fields width len (bits + width f)
      (lengths ++ ((len f).map (lengthValue I fields f (position I bits lengths))).toList) fs

/-- The position of field `k`. -/
def positionOf {α : Type} (I : Meaning α) (fields : List RawField) (width : RawField → Nat)
    (len : RawField → Option RExpr) (k : Nat) : α :=
  position I ((fields.take k).map width).sum (lengthsFrom I fields width len 0 [] (fields.take k))

end Verif.Spec
