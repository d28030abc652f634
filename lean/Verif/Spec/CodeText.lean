import Verif.Model.CodeText

/-! # Specification: names and literals in the generated accessor texts -/

namespace Verif
open CodeText

/-- How the generated code names the buffer (`derive/src/gen.rs:174,212,488,499,536,547`). -/
def bufferNames : List String := ["packet", "self.packet", "_self.packet"]

/-- The type names of the crate, with the width of the Rust integer behind each. -/
def typeNames : List (String × Nat) := builtinTypes ++ typeAliases

/-- The literals that the argument of a setter is masked with. -/
def valueMasks : Expr → List Nat
  | .bin .and .value (.int n) => [n]
  | .bin _ a b => valueMasks a ++ valueMasks b
  | .cast e _ => valueMasks e
  | .byte i => valueMasks i
  | _ => []

/-- The masks of the argument in a block. -/
def blockMasks (b : Block) : List Nat :=
  b.stmts.flatMap fun st => match st with
    | .assign _ e => valueMasks e
    | .bind _ e => valueMasks e

/-- Some mask does not fit the type of the argument. -/
def TooWide (w : Nat) (text : List Char) : Prop :=
  ∃ b, parseBlock text = some b ∧ ∃ n ∈ blockMasks b, 2 ^ w ≤ n

end Verif
