import Verif.Model.Sources
import Verif.Model.Quic

/-!
# The Rust meaning of the `#[length]` texts

The compiler's part, for the fragment of Rust that the `#[length]` texts of the crate use: characters
to token trees, token trees to an expression, and the value of the expression. Together with
`lengthTokens` (what the macro does with the token trees) this evaluates the texts as written, so that
they can be compared with the length functions of the declarations in `Verif/Model/Protocols.lean`
and `Verif/Model/Quic.lean`. Not a model of code in `/repo`; precedences are those of the Rust
reference.
-/

namespace Verif.LengthText

/-! ## Characters to tokens -/

/-- Characters of identifiers and literals. -/
def isWord (c : Char) : Bool := c.isAlphanum || c == '_' || c == '#'

/-- A flat token: a word, a punctuation character or a bracket. -/
inductive Tok
  | word (cs : List Char)
  | punct (c : Char)
  | opening (d : Delim)
  | closing (d : Delim)

/-- Adds a character to the word at the front. -/
def pushWord (c : Char) : List Tok → List Tok
  | .word cs :: ts => .word (c :: cs) :: ts
  | ts => .word [c] :: ts

/-- Splits the text into tokens; `glue` tells whether the previous character belongs to a word (the
result is built from the end). `...` is replaced by `r#field_offset` first (`parse.rs:106`). -/
def scan : List Char → List Tok
  | [] => []
  | '.' :: '.' :: '.' :: cs => .word "r#field_offset".toList :: scan cs
  | ' ' :: cs => scan cs
  | '(' :: cs => .opening .paren :: scan cs
  | ')' :: cs => .closing .paren :: scan cs
  | '{' :: cs => .opening .brace :: scan cs
  | '}' :: cs => .closing .brace :: scan cs
  | c :: cs =>
    if isWord c then
      match cs with
      | d :: _ => if isWord d then pushWord c (scan cs) else .word [c] :: scan cs
      | [] => [.word [c]]
    else .punct c :: scan cs

/-- A word that starts with a digit is an integer literal, any other an identifier. -/
def wordTree (cs : List Char) : TT :=
  match cs with
  | c :: _ => if c.isDigit then .literal (String.ofList cs) true else .ident (String.ofList cs)
  | [] => .ident ""

/-- Token trees from flat tokens; `stack` holds the open groups, innermost first, with what they
contain so far. -/
def trees : List Tok → List (Delim × List TT) → List TT → Option (List TT)
  | [], [], acc => some acc
  | [], _ :: _, _ => none
  | .word cs :: ts, stack, acc => trees ts stack (acc ++ [wordTree cs])
  | .punct c :: ts, stack, acc => trees ts stack (acc ++ [.punct c])
  | .opening d :: ts, stack, acc => trees ts ((d, acc) :: stack) []
  | .closing d :: ts, (d', outer) :: stack, acc =>
    if d = d' then trees ts stack (outer ++ [.group d acc]) else none
  | .closing _ :: _, [], _ => none

/-- The token trees of a text. -/
def tokenise (s : String) : Option (List TT) := trees (scan s.toList) [] []

/-! ## Tokens to expressions -/

/-- Binary operators. -/
inductive BinOp
  | mul
  | add
  | sub
  | and
  | or
  | eq
  | gt
deriving DecidableEq

/-- Binding strength of the operators. -/
def BinOp.prec : BinOp → Nat
  | .mul => 10
  | .add => 9
  | .sub => 9
  | .and => 7
  | .or => 5
  | .eq => 4
  | .gt => 4

/-- Expressions. -/
inductive Expr
  | int (n : Nat)
  /-- `self.get_<name>()` -/
  | getter (name : String)
  /-- `r#field_offset`, that is `&self.packet[current_offset..]` (`gen.rs:104-108`) -/
  | rest
  | ref (e : Expr)
  /-- `e.0` -/
  | first (e : Expr)
  | call1 (f : String) (a : Expr)
  | call2 (f : String) (a b : Expr)
  | method0 (e : Expr) (f : String)
  | method1 (e : Expr) (f : String) (a : Expr)
  | bin (op : BinOp) (a b : Expr)
  | ite (c t e : Expr)
  | unimplemented
deriving DecidableEq

/-- Value of a digit. -/
def digit (c : Char) : Nat :=
  if c.isDigit then c.toNat - '0'.toNat
  else if c.isUpper then c.toNat - 'A'.toNat + 10
  else c.toNat - 'a'.toNat + 10

/-- Integer literals: decimal, or hexadecimal with `0x`. -/
def literal (text : String) : Nat :=
  match text.toList with
  | '0' :: 'x' :: cs => cs.foldl (fun n c => 16 * n + digit c) 0
  | cs => cs.foldl (fun n c => 10 * n + digit c) 0

/-- The operator at the front, and what follows it. -/
def operator : List TT → Option (BinOp × List TT)
  | .punct '=' :: .punct '=' :: ts => some (.eq, ts)
  | .punct '*' :: ts => some (.mul, ts)
  | .punct '+' :: ts => some (.add, ts)
  | .punct '-' :: ts => some (.sub, ts)
  | .punct '&' :: ts => some (.and, ts)
  | .punct '|' :: ts => some (.or, ts)
  | .punct '>' :: ts => some (.gt, ts)
  | _ => none

/-- The field read by a getter of this name. -/
def getterName (s : String) : Option String :=
  match s.toList with
  | 'g' :: 'e' :: 't' :: '_' :: cs => some (String.ofList cs)
  | _ => none

mutual
/-- An operand with what is attached to it (`.0`, `.f()`, `.f(x)`). `fuel` bounds the depth. -/
def operand : (fuel : Nat) → List TT → Option (Expr × List TT)
  | 0, _ => none
  | fuel + 1, ts =>
    match ts with
    | .literal text _ :: ts => some (.int (literal text), ts)
    | .punct '&' :: ts => (operand fuel ts).map fun (e, ts) => (.ref e, ts)
    | .ident "self" :: .punct '.' :: .ident g :: .group .paren [] :: ts =>
      match getterName g with
      | some name => attached fuel (.getter name) ts
      | none => none
    | .ident "r#field_offset" :: ts => some (.rest, ts)
    | .ident "unimplemented" :: .punct '!' :: .group .paren [] :: ts => some (.unimplemented, ts)
    | .ident "if" :: ts =>
      match expression fuel 0 ts with
      | some (c, .group .brace t :: .ident "else" :: .group .brace e :: ts) =>
        match expression fuel 0 t, expression fuel 0 e with
        | some (t, []), some (e, []) => some (.ite c t e, ts)
        | _, _ => none
      | _ => none
    | .ident f :: .group .paren args :: ts =>
      match expression fuel 0 args with
      | some (a, []) => attached fuel (.call1 f a) ts
      | some (a, .punct ',' :: args) =>
        match expression fuel 0 args with
        | some (b, []) => attached fuel (.call2 f a b) ts
        | _ => none
      | _ => none
    | .group .paren inner :: ts =>
      match expression fuel 0 inner with
      | some (e, []) => attached fuel e ts
      | _ => none
    | _ => none

/-- What is attached to the operand `e`. -/
def attached : (fuel : Nat) → Expr → List TT → Option (Expr × List TT)
  | 0, _, _ => none
  | fuel + 1, e, ts =>
    match ts with
    | .punct '.' :: .literal "0" _ :: ts => attached fuel (.first e) ts
    | .punct '.' :: .ident f :: .group .paren [] :: ts => attached fuel (.method0 e f) ts
    | .punct '.' :: .ident f :: .group .paren args :: ts =>
      match expression fuel 0 args with
      | some (a, []) => attached fuel (.method1 e f a) ts
      | _ => none
    | ts => some (e, ts)

/-- An expression whose operators bind stronger than `level`. -/
def expression : (fuel level : Nat) → List TT → Option (Expr × List TT)
  | 0, _, _ => none
  | fuel + 1, level, ts =>
    match operand fuel ts with
    | some (e, ts) => operators fuel level e ts
    | none => none

/-- The operators after `e` that bind stronger than `level` (left associative). -/
def operators : (fuel level : Nat) → Expr → List TT → Option (Expr × List TT)
  | 0, _, _, _ => none
  | fuel + 1, level, e, ts =>
    match operator ts with
    | some (op, ts') =>
      if level < op.prec then
        match expression fuel op.prec ts' with
        | some (b, ts) => operators fuel level (.bin op e b) ts
        | none => none
      else some (e, ts)
    | none => some (e, ts)
end

/-- The expression made of these tokens. -/
def parse (ts : List TT) : Option Expr :=
  match expression 20 0 ts with
  | some (e, []) => some e
  | _ => none

/-- The `#[length]` of field `k` of a struct as written: its text, processed by the macro, as an
expression. -/
def exprOf (fields : List RawField) (k : Nat) : Option Expr := do
  parse (← lengthTokens tokenise fields (← fields[k]?))

/-! ## Values -/

/-- Values of expressions. Integers carry their width in bits, literals none. -/
inductive RVal
  | int (width : Option Nat) (n : Nat)
  /-- a struct with one integer -/
  | tuple (width n : Nat)
  /-- `Vec<u8>` -/
  | bytes (ns : List Nat)
  /-- `&[u8]`, the packet from the field on -/
  | slice (b : Buf)
  | bool (b : Bool)

/-- What `get_<field>()` returns for a field of this type. -/
def ofVal : Ty → Val → Res RVal
  | .prim p, .num n => .ok (.int (some (storageWidth p.size)) n)
  | .misc [p], .nums [n] => .ok (.tuple (storageWidth p.size) n)
  | .vecPrim p, .nums ns => if p.size = 8 then .ok (.bytes ns) else panic
  | _, _ => panic

/-- The width of an operation; different widths do not compile. Literals alone are `i32`. -/
def joinWidth : Option Nat → Option Nat → Res Nat
  | some a, some b => if a = b then .ok a else panic
  | some a, none => .ok a
  | none, some b => .ok b
  | none, none => .ok 31

/-- Arithmetic with `w` bits: what does not fit panics in debug builds and wraps in release builds. -/
def arith (m : Mode) (w : Nat) (op : BinOp) (a b : Nat) : Res RVal :=
  let fit (ok : Bool) (wrapped : Nat) : Res RVal :=
    match ok, m with
    | true, _ => .ok (.int (some w) wrapped)
    | false, .debug => panic
    | false, .release => .ok (.int (some w) wrapped)
  match op with
  | .mul => fit (decide (a * b < 2 ^ w)) (a * b % 2 ^ w)
  | .add => fit (decide (a + b < 2 ^ w)) ((a + b) % 2 ^ w)
  | .sub => fit (decide (b ≤ a)) ((a + (2 ^ w - b % 2 ^ w)) % 2 ^ w)
  | .and => .ok (.int (some w) (a &&& b))
  | .or => .ok (.int (some w) (a ||| b))
  | .eq => .ok (.bool (a == b))
  | .gt => .ok (.bool (decide (a > b)))

/-- Functions of one argument, from the modules the structs are in. An argument of another type does
not compile. -/
def apply1 (f : String) (a : RVal) : Res RVal :=
  let usize (x : Res Nat) : Res RVal := x.map (.int (some 64))
  match f, a with
  | "ipv4_options_length", .int (some 8) n => usize (.ok (ipv4OptionsLength n))
  | "ipv4_option_length", .tuple 8 n => usize (.ok (ipv4OptionLength n))
  | "ipv4_option_payload_length", .bytes ns => usize (.ok (ipv4OptionPayloadLength ns))
  | "ipv6_extension_length", .int (some 8) n => usize (.ok (ipv6ExtensionLength n))
  | "routing_extension_length", .int (some 8) n => usize (.ok (routingExtensionLength n))
  | "tcp_options_length", .int (some 8) n => usize (.ok (tcpOptionsLength n))
  | "tcp_option_length", .tuple 8 n => usize (.ok (tcpOptionLength n))
  | "tcp_option_payload_length", .bytes ns => usize (.ok (tcpOptionPayloadLength ns))
  | "varint_length", .slice b => usize (varintLength b)
  | "varint", .bytes ns => usize (varint ns)
  | _, _ => panic

/-- Functions of two arguments. -/
def apply2 (f : String) (a b : RVal) : Res RVal :=
  let usize (x : Res Nat) : Res RVal := x.map (.int (some 64))
  match f, a, b with
  | "ipv4_payload_length", .int (some 16) t, .int (some 8) h => usize (.ok (ipv4PayloadLength t h))
  | "n_varints", .int (some 64) n, .slice s => usize (nVarints n s)
  | "n_varints", .int none n, .slice s => usize (nVarints n s)
  | _, _, _ => panic

/-- Methods without arguments. -/
def applyMethod0 (f : String) : RVal → Res RVal
  | .bytes ns =>
    if f = "len" then .ok (.int (some 64) ns.length)
    else if f = "is_empty" then .ok (.bool ns.isEmpty)
    else panic
  | .slice b => if f = "len" then .ok (.int (some 64) b.length) else panic
  | _ => panic

/-- `x.saturating_sub(y)`. -/
def applyMethod1 (f : String) : RVal → RVal → Res RVal
  | .int (some w) a, .int w' b =>
    if f = "saturating_sub" then do
      let w ← joinWidth (some w) w'
      .ok (.int (some w) (a - b))
    else panic
  | _, _ => panic

/-- Position of the field with this name. -/
def position (d : Decl) (name : String) : Option Nat := d.fields.findIdx? (·.name == name)

/-- The value of an expression in the packet: `get i` is the getter of field `i`, `rest` the slice
from the field on. -/
def eval (m : Mode) (d : Decl) (get : Nat → Res Val) (rest : Res Buf) : Expr → Res RVal
  | .int n => .ok (.int none n)
  | .getter name =>
    match position d name with
    | none => panic
    | some i =>
      match d.fields[i]? with
      | none => panic
      | some f => do ofVal f.ty (← get i)
  | .rest => do .ok (.slice (← rest))
  | .ref e => eval m d get rest e
  | .first e => do
    match ← eval m d get rest e with
    | .tuple w n => .ok (.int (some w) n)
    | _ => panic
  | .call1 f a => do apply1 f (← eval m d get rest a)
  | .call2 f a b => do
    let a ← eval m d get rest a
    let b ← eval m d get rest b
    apply2 f a b
  | .method0 e f => do applyMethod0 f (← eval m d get rest e)
  | .method1 e f a => do
    let e ← eval m d get rest e
    let a ← eval m d get rest a
    applyMethod1 f e a
  | .bin op a b => do
    let a ← eval m d get rest a
    let b ← eval m d get rest b
    match a, b with
    | .int w n, .int w' n' => do arith m (← joinWidth w w') op n n'
    | _, _ => panic
  | .ite c t e => do
    match ← eval m d get rest c with
    | .bool true => eval m d get rest t
    | .bool false => eval m d get rest e
    | _ => panic
  | .unimplemented => panic

/-- `(expression) as usize` (`parse.rs:113`). -/
def evalUsize (m : Mode) (d : Decl) (get : Nat → Res Val) (rest : Res Buf) (e : Expr) : Res Nat := do
  match ← eval m d get rest e with
  | .int _ n => .ok n
  | _ => panic

end Verif.LengthText
