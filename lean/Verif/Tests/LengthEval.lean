import Verif.Model.LengthEval

/-!
# The reader of `#[length]` texts on small inputs

`Model/LengthEval` reads and evaluates the texts as `rustc` would. These are checks of that reader against
the Rust reference: how operators group, what literals are worth, and what overflows. They are tests, not
proofs.
-/

namespace Verif.LengthText

/-- The expression of a text. -/
def readText (s : String) : Option Expr := (tokenise s).bind parse

/-! `*` binds tighter than `+` and `-`, these than `&`, this than `|`, this than the comparisons; operators of
equal strength group to the left. -/

example : readText "1 - 2 + 3" = some (.bin .add (.bin .sub (.int 1) (.int 2)) (.int 3)) := by decide +kernel
example : readText "1 + 2 - 3" = some (.bin .sub (.bin .add (.int 1) (.int 2)) (.int 3)) := by decide +kernel
example : readText "1 - 2 - 3" = some (.bin .sub (.bin .sub (.int 1) (.int 2)) (.int 3)) := by decide +kernel
example : readText "1 - (2 - 3)" = some (.bin .sub (.int 1) (.bin .sub (.int 2) (.int 3))) := by decide +kernel
example : readText "1 + 2 * 3" = some (.bin .add (.int 1) (.bin .mul (.int 2) (.int 3))) := by decide +kernel
example : readText "1 * 2 + 3" = some (.bin .add (.bin .mul (.int 1) (.int 2)) (.int 3)) := by decide +kernel
example : readText "1 * 2 - 3" = some (.bin .sub (.bin .mul (.int 1) (.int 2)) (.int 3)) := by decide +kernel
example : readText "1 & 2 + 3" = some (.bin .and (.int 1) (.bin .add (.int 2) (.int 3))) := by decide +kernel
example : readText "1 - 2 & 3" = some (.bin .and (.bin .sub (.int 1) (.int 2)) (.int 3)) := by decide +kernel
example : readText "1 | 2 & 3" = some (.bin .or (.int 1) (.bin .and (.int 2) (.int 3))) := by decide +kernel
example : readText "1 & 2 | 3" = some (.bin .or (.bin .and (.int 1) (.int 2)) (.int 3)) := by decide +kernel
example : readText "1 & 2 == 3" = some (.bin .eq (.bin .and (.int 1) (.int 2)) (.int 3)) := by decide +kernel
example : readText "1 == 2 | 3" = some (.bin .eq (.int 1) (.bin .or (.int 2) (.int 3))) := by decide +kernel
example : readText "1 > 2 | 3" = some (.bin .gt (.int 1) (.bin .or (.int 2) (.int 3))) := by decide +kernel

/-! Postfix operators bind tighter than `&`, and `...` is the rest of the packet. -/

example : readText "&(1).0" = some (.ref (.first (.int 1))) := by decide +kernel
example : readText "f(...) - 2" = some (.bin .sub (.call1 "f" .rest) (.int 2)) := by decide +kernel
example : readText "f(1, &2)" = some (.call2 "f" (.int 1) (.ref (.int 2))) := by decide +kernel

/-! Literals. -/

example : literal "0" = 0 ∧ literal "7" = 7 ∧ literal "120" = 120 ∧ literal "0x0f" = 15 ∧ literal "0x1F" = 31 ∧
    literal "0xc0" = 192 := by decide +kernel

/-! Texts that are no expressions of the fragment. -/

example : readText "1 2" = none ∧ readText "1 +" = none ∧ readText "(1" = none ∧ readText "1)" = none ∧
    readText "(1}" = none ∧ readText "f(1, 2, 3)" = none ∧ readText "" = none := by decide +kernel

/-- Whether the result is this integer of this width. -/
def isInt (r : Res RVal) (w n : Nat) : Bool :=
  match r with
  | .ok (.int (some w') n') => w' == w && n' == n
  | _ => false

/-- Whether the result is a panic. -/
def isPanic (r : Res RVal) : Bool :=
  match r with
  | .error .panic => true
  | _ => false

/-! Arithmetic that does not fit panics in debug builds and wraps in release builds. -/

example : isInt (arith .release 8 .add 250 10) 8 4 ∧ isPanic (arith .debug 8 .add 250 10) ∧
    isInt (arith .debug 8 .add 250 5) 8 255 ∧ isPanic (arith .debug 8 .add 250 6) := by decide
example : isInt (arith .release 8 .sub 3 4) 8 255 ∧ isPanic (arith .debug 8 .sub 3 4) ∧
    isInt (arith .debug 8 .sub 4 4) 8 0 ∧ isInt (arith .release 8 .sub 9 4) 8 5 := by decide
example : isInt (arith .release 8 .mul 64 5) 8 64 ∧ isPanic (arith .debug 8 .mul 64 4) ∧
    isInt (arith .debug 8 .mul 63 4) 8 252 := by decide
example : isInt (arith .debug 8 .and 12 10) 8 8 ∧ isInt (arith .debug 8 .or 12 10) 8 14 := by decide

end Verif.LengthText
