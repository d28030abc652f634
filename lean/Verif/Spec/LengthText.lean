import Verif.Model.LengthEval

/-! # Specification: a length function is what its text says -/

namespace Verif.Spec
open LengthText

/-- The value has the field's type, integers within their widths. -/
def HasType : Ty → Val → Prop
  | .prim p, .num n => n < 2 ^ p.size
  | .misc args, .nums ns => ns.length = args.length ∧ ∀ q ∈ args.zip ns, q.2 < 2 ^ q.1.size
  | .vecPrim p, .nums ns => ∀ n ∈ ns, n < 2 ^ p.size
  | .vecPkt _, .list _ => True
  | _, _ => False

/-- The getters of the first `k` fields return values of the fields' types, if they return. -/
def TypedGetters (d : Decl) (k : Nat) (get : Nat → Res Val) : Prop :=
  ∀ (i : Nat) (f : Field) (v : Val), i < k → d.fields[i]? = some f → get i = .ok v → HasType f.ty v

/-- The length function `len` of field `k` computes the Rust expression `e`, panics included, in both
build modes. -/
def Denotes (d : Decl) (k : Nat) (len : LenExpr) (e : Expr) : Prop :=
  ∀ (m : Mode) (get : Nat → Res Val) (rest : Res Buf), TypedGetters d k get →
    len m get rest = evalUsize m d get rest e

end Verif.Spec
