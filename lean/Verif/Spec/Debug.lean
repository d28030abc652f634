import Verif.Model.Derive

/-! # What `{:?}` on a packet should write -/

namespace Verif

/-- `name : value, ` for every field but the payload, in order; the first getter that fails fails. -/
def fieldTexts (fmt : Field → Val → List Char) : List (Field × Res Val) → Res (List Char)
  | [] => .ok []
  | (f, v) :: rest =>
    if f.payload then fieldTexts fmt rest
    else do
      let x ← v
      let t ← fieldTexts fmt rest
      .ok (f.name.toList ++ (" : ".toList ++ (fmt f x ++ (", ".toList ++ t))))

/-- No braces. -/
def Plain (cs : List Char) : Prop := '{' ∉ cs ∧ '}' ∉ cs

instance (cs : List Char) : Decidable (Plain cs) := inferInstanceAs (Decidable (_ ∧ _))

end Verif
