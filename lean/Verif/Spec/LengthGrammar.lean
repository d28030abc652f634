import Verif.Model.LengthExpr

/-!
# Reading length expressions as Rust

The part of the Rust expression grammar that length expressions are made of: names, integers,
parentheses, calls `f(x, y)`, `f()` and `f!()`, method calls `x.f()` and `x.f(y)`, fields `x.0`, casts `x as T`, the
arithmetic and bit operators that are one character and the comparisons `==`, `<`, `>`, with the precedences
of the Rust reference, `self.packet[(x)..]`, and, as a whole argument, branch or content of parentheses, `&x`
and `if c { x } else { y }`. Independent of the macro.
-/

namespace Verif.Spec

/-- Expressions. Parentheses leave no trace. -/
inductive RExpr
  | name (n : String)
  | int (text : String)
  /-- `f(x)` -/
  | call (f : String) (x : RExpr)
  /-- `f()` -/
  | call0 (f : String)
  /-- `f!()` -/
  | mac (f : String)
  /-- `x.f()` -/
  | method (x : RExpr) (f : String)
  /-- `x.f(y)` -/
  | methodArg (x : RExpr) (f : String) (y : RExpr)
  /-- `x.0` -/
  | field (x : RExpr) (text : String)
  /-- `x as T` -/
  | cast (x : RExpr) (ty : String)
  /-- A binary operator; `,` between arguments, and `=` for `==`. -/
  | bin (op : Char) (a b : RExpr)
  /-- `self.packet[(x)..]` -/
  | rest (x : RExpr)
  /-- `&x` -/
  | ref (x : RExpr)
  /-- `if c { a } else { b }` -/
  | ite (c a b : RExpr)
deriving DecidableEq

/-- How strongly a binary operator that associates to the left binds; the comma between arguments is
treated as one. -/
def opLevel : Char → Option Nat
  | ',' => some 0
  | '|' => some 3
  | '^' => some 4
  | '&' => some 5
  | '+' => some 6
  | '-' => some 6
  | '*' => some 7
  | '/' => some 7
  | '%' => some 7
  | _ => none

/-- Words that are no names. -/
def keywords : List String := ["as", "if", "else"]

/-- `Reads l ts e`: the tokens `ts` are the expression `e`, in which only what binds at least as strongly
as `l` stands outside parentheses. Level 0 is that of arguments, 1 that of whole expressions, 2 that of
comparisons (which do not associate), 3 to 7 are those of the other binary operators, 8 is that of casts, 9
that of calls. -/
inductive Reads : Nat → List TT → RExpr → Prop
  | name (n : String) (h : n ∉ keywords) : Reads 9 [.ident n] (.name n)
  | int (text : String) : Reads 9 [.literal text true] (.int text)
  | paren {inner : List TT} {e : RExpr} (h : Reads 1 inner e) : Reads 9 [.group .paren inner] e
  | call {f : String} {inner : List TT} {e : RExpr} (hf : f ∉ keywords) (h : Reads 0 inner e) :
      Reads 9 [.ident f, .group .paren inner] (.call f e)
  | call0 {f : String} (hf : f ∉ keywords) : Reads 9 [.ident f, .group .paren []] (.call0 f)
  | mac {f : String} (hf : f ∉ keywords) : Reads 9 [.ident f, .punct '!', .group .paren []] (.mac f)
  | method {f : String} {ts : List TT} {e : RExpr} (h : Reads 9 ts e) :
      Reads 9 (ts ++ [.punct '.', .ident f, .group .paren []]) (.method e f)
  | methodArg {f : String} {ts inner : List TT} {e x : RExpr} (h : Reads 9 ts e) (hx : Reads 0 inner x) :
      Reads 9 (ts ++ [.punct '.', .ident f, .group .paren inner]) (.methodArg e f x)
  | field {text : String} {ts : List TT} {e : RExpr} (h : Reads 9 ts e) :
      Reads 9 (ts ++ [.punct '.', .literal text true]) (.field e text)
  | cast {ty : String} {ts : List TT} {e : RExpr} (h : Reads 8 ts e) :
      Reads 8 (ts ++ [.ident "as", .ident ty]) (.cast e ty)
  | bin {l : Nat} {op : Char} {ts us : List TT} {a b : RExpr} (hop : opLevel op = some l)
      (ha : Reads l ts a) (hb : Reads (l + 1) us b) : Reads l (ts ++ .punct op :: us) (.bin op a b)
  | less {op : Char} {ts us : List TT} {a b : RExpr} (hop : op = '<' ∨ op = '>')
      (ha : Reads 3 ts a) (hb : Reads 3 us b) : Reads 2 (ts ++ .punct op :: us) (.bin op a b)
  | equal {ts us : List TT} {a b : RExpr} (ha : Reads 3 ts a) (hb : Reads 3 us b) :
      Reads 2 (ts ++ .punct '=' :: .punct '=' :: us) (.bin '=' a b)
  | rest {inner : List TT} {e : RExpr} (h : Reads 9 [.group .paren inner] e) :
      Reads 9 [.ident "self", .punct '.', .ident "packet",
        .group .bracket [.group .paren inner, .punct '.', .punct '.']] (.rest e)
  | ref {ts : List TT} {e : RExpr} (h : Reads 9 ts e) : Reads 1 (.punct '&' :: ts) (.ref e)
  | ite {cs ts us : List TT} {c a b : RExpr} (hc : Reads 2 cs c) (ha : Reads 1 ts a) (hb : Reads 1 us b) :
      Reads 1 (.ident "if" :: (cs ++ [.group .brace ts, .ident "else", .group .brace us])) (.ite c a b)
  | up {l : Nat} {ts : List TT} {e : RExpr} (hl : l < 9) (h : Reads (l + 1) ts e) : Reads l ts e

/-- The value of an expression, for any meaning of its parts. -/
structure Meaning (α : Type) where
  name : String → α
  int : String → α
  call : String → α → α
  call0 : String → α
  mac : String → α
  method : α → String → α
  methodArg : α → String → α → α
  field : α → String → α
  cast : α → String → α
  op : Char → α → α → α
  rest : α → α
  ref : α → α
  ite : α → α → α → α

/-- The value of an expression under a meaning. -/
def RExpr.value {α : Type} (I : Meaning α) : RExpr → α
  | .name n => I.name n
  | .int t => I.int t
  | .call f x => I.call f (x.value I)
  | .call0 f => I.call0 f
  | .mac f => I.mac f
  | .method x f => I.method (x.value I) f
  | .methodArg x f y => I.methodArg (x.value I) f (y.value I)
  | .field x t => I.field (x.value I) t
  | .cast x t => I.cast (x.value I) t
  | .bin op a b => I.op op (a.value I) (b.value I)
  | .rest x => I.rest (x.value I)
  | .ref x => I.ref (x.value I)
  | .ite c a b => I.ite (c.value I) (a.value I) (b.value I)

/-- The same meaning, but the names of fields are the values of their getters. -/
def Meaning.withFields {α : Type} (I : Meaning α) (names : List String) : Meaning α :=
  { I with name := fun n => if n ∈ names then I.method (I.name "self") ("get_" ++ n) else I.name n }

/-- No function, method or type in the expression has the name of a field. -/
def RExpr.NoClash (names : List String) : RExpr → Prop
  | .name _ => True
  | .int _ => True
  | .call f x => f ∉ names ∧ x.NoClash names
  | .call0 f => f ∉ names
  | .mac f => f ∉ names
  | .method x f => f ∉ names ∧ x.NoClash names
  | .methodArg x f y => f ∉ names ∧ x.NoClash names ∧ y.NoClash names
  | .field x _ => x.NoClash names
  | .cast x t => t ∉ names ∧ x.NoClash names
  | .bin _ a b => a.NoClash names ∧ b.NoClash names
  | .rest x => "self" ∉ names ∧ "packet" ∉ names ∧ x.NoClash names
  | .ref x => x.NoClash names
  | .ite c a b => c.NoClash names ∧ a.NoClash names ∧ b.NoClash names

/-- The documented expressions: names, integers, `+ - * / %` and parentheses. -/
def RExpr.Documented : RExpr → Prop
  | .name _ => True
  | .int _ => True
  | .bin op a b => op ∈ ['+', '-', '*', '/', '%'] ∧ a.Documented ∧ b.Documented
  | _ => False

end Verif.Spec
