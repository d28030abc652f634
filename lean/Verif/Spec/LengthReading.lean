import Verif.Model.LengthEval
import Verif.Spec.LengthGrammar

/-!
# Readings as expressions with values

The expression of `Model/LengthEval`, which has a value, that a reading of `Spec/LengthGrammar` stands for.
-/

namespace Verif.Spec
open LengthText

/-- The operators that have values. -/
def opOf : Char → Option BinOp
  | '*' => some .mul
  | '+' => some .add
  | '-' => some .sub
  | '&' => some .and
  | '|' => some .or
  | '=' => some .eq
  | '>' => some .gt
  | _ => none

/-- What a reading stands for: `self.get_x()` is the getter of `x`, `r#field_offset` is the rest of the packet,
commas separate two arguments, and everything else stands for itself. -/
def RExpr.meant : RExpr → Option Expr
  | .name n => if n = "r#field_offset" then some .rest else none
  | .int t => some (.int (literal t))
  | .call f (.bin ',' a b) => do some (.call2 f (← a.meant) (← b.meant))
  | .call f x => do some (.call1 f (← x.meant))
  | .mac f => if f = "unimplemented" then some .unimplemented else none
  | .method (.name "self") g => (getterName g).map .getter
  | .method x f => do some (.method0 (← x.meant) f)
  | .methodArg x f y => do some (.method1 (← x.meant) f (← y.meant))
  | .field x t => if t = "0" then do some (.first (← x.meant)) else none
  | .bin op a b => do some (.bin (← opOf op) (← a.meant) (← b.meant))
  | .ref x => do some (.ref (← x.meant))
  | .ite c a b => do some (.ite (← c.meant) (← a.meant) (← b.meant))
  | _ => none

end Verif.Spec
