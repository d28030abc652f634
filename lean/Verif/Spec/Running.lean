import Verif.Spec.LengthGrammar
import Verif.Model.LengthEval
import Verif.Model.Derive

/-!
# What the expressions of the generated code evaluate to in a packet

The meaning of the expressions for positions and lengths in a method of a packet: `self.get_<field>()` is
the getter of that field, `self.packet[(x)..]` the bytes from `x` on, and the functions are those of
`Model/LengthEval`.
-/

namespace Verif.Spec
open LengthText

/-- Values while a method of a packet runs. -/
inductive RunVal
  | self
  /-- a value, or the failure of its computation -/
  | val (r : Res RVal)
  /-- two arguments -/
  | args (a b : Res RVal)
  /-- something that does not compile -/
  | bad

/-- A `usize`. -/
def RunVal.usize (r : Res Nat) : RunVal := .val (r.map (.int (some 64)))

/-- The number in a literal with the suffix `usize`. -/
def usizeLiteral (text : String) : Option Nat :=
  match text.toList.reverse with
  | 'e' :: 'z' :: 'i' :: 's' :: 'u' :: digits => some (literal (String.ofList digits.reverse))
  | _ => none

/-- The operator that a token is. -/
def binOp : Char → Option BinOp
  | '*' => some .mul
  | '+' => some .add
  | '-' => some .sub
  | '&' => some .and
  | '|' => some .or
  | '=' => some .eq
  | '>' => some .gt
  | _ => none

/-- `get_<name>()`. -/
def runGetter (d : Decl) (get : Nat → Res Val) (name : String) : Res RVal :=
  match position d name with
  | none => panic
  | some i =>
    match d.fields[i]? with
    | none => panic
    | some f => do ofVal f.ty (← get i)

/-- The meaning in a packet of the struct `d` in the buffer `buf`, in a debug or release build. -/
def packetMeaning (m : Mode) (d : Decl) (buf : Buf) : Meaning RunVal where
  name n := if n = "self" then .self else .bad
  int t :=
    match usizeLiteral t with
    | some n => .usize (.ok n)
    | none => .val (.ok (.int none (literal t)))
  call f x :=
    match x with
    | .val r => .val (do apply1 f (← r))
    | .args a b => .val (do let a ← a; let b ← b; apply2 f a b)
    | _ => .bad
  call0 _ := .bad
  mac f := if f = "unimplemented" then .val panic else .bad
  method x f :=
    match x with
    | .self =>
      match getterName f with
      | some name => .val (runGetter d (d.get m buf) name)
      | none => .bad
    | .val r => .val (do applyMethod0 f (← r))
    | _ => .bad
  methodArg x f y :=
    match x, y with
    | .val r, .val s => .val (do let r ← r; let s ← s; applyMethod1 f r s)
    | _, _ => .bad
  field x t :=
    match x with
    | .val r => if t = "0" then .val (do match ← r with | .tuple w n => .ok (.int (some w) n) | _ => panic) else .bad
    | _ => .bad
  cast x ty :=
    match x with
    | .val r => if ty = "usize" then .usize (do match ← r with | .int _ n => .ok n | _ => panic) else .bad
    | _ => .bad
  op c x y :=
    match x, y with
    | .val r, .val s =>
      if c = ',' then .args r s
      else match binOp c with
        | some o => .val (do
          let a ← r
          let b ← s
          match a, b with
          | .int w n, .int w' n' => do arith m (← joinWidth w w') o n n'
          | _, _ => panic)
        | none => .bad
    | _, _ => .bad
  rest x :=
    match x with
    | .val r => .val (do match ← r with | .int _ n => do .ok (.slice (← sliceFrom buf n)) | _ => panic)
    | _ => .bad
  ref x := x
  ite c x y :=
    match c, x, y with
    | .val c, .val x, .val y => .val (do match ← c with | .bool true => x | .bool false => y | _ => panic)
    | _, _, _ => .bad

end Verif.Spec
