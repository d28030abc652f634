import Verif.Spec.Running
import Verif.Spec.Offsets
import Verif.Model.Template

/-!
# How many getters are called

The expressions for positions and lengths call getters, which evaluate the expressions for their own
positions and lengths. Independent of the macro.
-/

namespace Verif.Spec
open LengthText

/-- A value, and how many getters were called for it, directly and by other getters. -/
structure Counted where
  val : RunVal
  calls : Nat

/-- The evaluation ends here with a failure. -/
def RunVal.failed : RunVal → Bool
  | .val (.error _) => true
  | .args (.error _) _ => true
  | .args _ (.error _) => true
  | _ => false

/-- Evaluates `y` after `x`. -/
def Counted.also (x y : Counted) : Nat := if x.val.failed then x.calls else x.calls + y.calls

/-- Evaluates an expression as `I` does and counts; `inside n` is the number of getters that are called while
`get_<n>` runs. Only the chosen branch of an `if` is evaluated, and nothing after a failure. -/
def countMeaning (I : Meaning RunVal) (inside : String → Nat) : Meaning Counted where
  name n := ⟨I.name n, 0⟩
  int t := ⟨I.int t, 0⟩
  call f x := ⟨I.call f x.val, x.calls⟩
  call0 f := ⟨I.call0 f, 0⟩
  mac f := ⟨I.mac f, 0⟩
  method x f :=
    ⟨I.method x.val f, x.calls +
      match x.val, getterName f with
      | .self, some n => 1 + inside n
      | _, _ => 0⟩
  methodArg x f y := ⟨I.methodArg x.val f y.val, x.also y⟩
  field x t := ⟨I.field x.val t, x.calls⟩
  cast x t := ⟨I.cast x.val t, x.calls⟩
  op c x y := ⟨I.op c x.val y.val, x.also y⟩
  rest x := ⟨I.rest x.val, x.calls⟩
  ref x := ⟨I.ref x.val, x.calls⟩
  ite c x y :=
    ⟨I.ite c.val x.val y.val,
      match c.val with
      | .val (.ok (.bool true)) => c.calls + x.calls
      | .val (.ok (.bool false)) => c.calls + y.calls
      | _ => c.calls⟩

/-- The number of getters that an expression calls if nothing fails, with the larger number for an `if`. -/
def callMeaning (inside : String → Nat) : Meaning Nat where
  name _ := 0
  int _ := 0
  call _ x := x
  call0 _ := 0
  mac _ := 0
  method x f :=
    x + match getterName f with
      | some n => 1 + inside n
      | none => 0
  methodArg x _ y := x + y
  field x _ := x
  cast x _ := x
  op _ x y := x + y
  rest x := x
  ref x := x
  ite c x y := c + max x y

/-- Whether an expression has no `if`. -/
def noIf : Meaning Bool where
  name _ := true
  int _ := true
  call _ x := x
  call0 _ := true
  mac _ := true
  method x _ := x
  methodArg x _ y := x && y
  field x _ := x
  cast x _ := x
  op _ x y := x && y
  rest x := x
  ref x := x
  ite _ _ _ := false

/-- Getters called by the expression for the position of field `k`. -/
def positionCalls (inside : String → Nat) (fields : List RawField) (len : RawField → Option RExpr) (k : Nat) : Nat :=
  positionOf (callMeaning inside) fields (fun _ => 0) len k

/-- Getters called by the expression for the length of field `k`, `f`. -/
def lengthCalls (inside : String → Nat) (fields : List RawField) (len : RawField → Option RExpr) (k : Nat)
    (f : RawField) : Nat :=
  match len f with
  | some e => lengthValue (callMeaning inside) fields f (positionCalls inside fields len k) e
  | none => 0

/-- How often an expression is `#co`, and how often `#packet_length`. -/
def RustExp.uses : RustExp → Nat × Nat
  | .co => (1, 0)
  | .packetLength => (0, 1)
  | .add a b => (a.uses.1 + b.uses.1, a.uses.2 + b.uses.2)
  | .min a b => (a.uses.1 + b.uses.1, a.uses.2 + b.uses.2)
  | _ => (0, 0)

mutual
/-- The same for a statement; the body of a loop is counted once. -/
def RustStmt.uses : RustStmt → Nat × Nat
  | .bind _ e => e.uses
  | .bindVec _ e => e.uses
  | .addAssign _ e => e.uses
  | .bindPacket _ e => e.uses
  | .advance e => e.uses
  | .bindSlice _ a b => (RustExp.add a b).uses
  | .assertLe a b => (RustExp.add a b).uses
  | .copyFrom a b _ => (RustExp.add a b).uses
  | .retSlice a b => (RustExp.add a b).uses
  | .forRange _ e body => (e.uses.1 + (usesAll body).1, e.uses.2 + (usesAll body).2)
  | .forEach _ _ body => usesAll body
  | .ifLe a b body => ((RustExp.add a b).uses.1 + (usesAll body).1, (RustExp.add a b).uses.2 + (usesAll body).2)
  | .ifNew _ body => usesAll body
  | _ => (0, 0)

/-- The same for a block. -/
def usesAll : List RustStmt → Nat × Nat
  | [] => (0, 0)
  | s :: ss => (s.uses.1 + (usesAll ss).1, s.uses.2 + (usesAll ss).2)
end

/-- How often a getter of a field of this type evaluates its position and its length. -/
def getterUses : Ty → Nat × Nat
  | .prim _ => (1, 0)
  | .misc args => (args.length, 0)
  | .vecPrim _ => (1, 1)
  | .vecPkt _ => (1, 1)

/-- `inside n` is the number of getters called while `get_<n>` runs: those called by the expressions for its
position and its length. -/
def CallsInside (fields : List RawField) (tys : List Ty) (len : RawField → Option RExpr)
    (inside : String → Nat) : Prop :=
  ∀ (k : Nat) (f : RawField) (n : String) (ty : Ty), fields[k]? = some f → f.name = some n → tys[k]? = some ty →
    inside n = (getterUses ty).1 * positionCalls inside fields len k +
      (getterUses ty).2 * lengthCalls inside fields len k f

/-- The names of getters that an expression may call; `names` are those of the fields. -/
def mentions (names : List String) : RExpr → List String
  | .name n => if n ∈ names then [n] else []
  | .int _ => []
  | .call _ x => mentions names x
  | .call0 _ => []
  | .mac _ => []
  | .method x f => (getterName f).toList ++ mentions names x
  | .methodArg x _ y => mentions names x ++ mentions names y
  | .field x _ => mentions names x
  | .cast x _ => mentions names x
  | .bin _ x y => mentions names x ++ mentions names y
  | .rest x => mentions names x
  | .ref x => mentions names x
  | .ite c x y => mentions names c ++ (mentions names x ++ mentions names y)

/-- Every field in a length comes before the field that has the length. -/
def LooksBack (fields : List RawField) (len : RawField → Option RExpr) : Prop :=
  ∀ (k : Nat) (f : RawField) (e : RExpr), fields[k]? = some f → len f = some e →
    ∀ n ∈ mentions (fieldNames fields f.name) e, ∃ j g, j < k ∧ fields[j]? = some g ∧ g.name = some n

end Verif.Spec
