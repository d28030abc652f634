import Verif.Model.Types
import Verif.Model.Parse
import Verif.Model.LengthEval

/-!
# The text of the generated integer accessors and mutators

The macro assembles the bodies of integer getters and setters as strings, which `syn` and `rustc` then
read. The first part models how the strings are made (`derive/src/util.rs:38-185`,
`derive/src/gen.rs:755-806`). The second part is the compiler's: characters to tokens, tokens to
statements, and what the statements do, for the fragment of Rust that occurs in these strings. It models
no code in `/repo`; precedences are those of the Rust reference.
-/

namespace Verif.CodeText

open Verif.LengthText (Tok pushWord isWord digit)

/-! ## Making the text -/

/-- The loop of `radix_fn!`, `derive/src/util.rs:122-144`, run `n` times at most; `ret` is the text so
far. -/
def radix16From : (n : Nat) → (val : Nat) → (ret : List Char) → List Char
  | 0, _, ret => ret
  | n + 1, val, ret =>
    if val > 0 then radix16From n (val / 16) ("0123456789abcdef".toList[val % 16]?.getD '?' :: ret)
    else ret

/-- `radix16_u8` and `radix16_u64`, `derive/src/util.rs:146-147`. A `u64` has 16 hexadecimal digits. -/
def radix16 (val : Nat) : List Char := radix16From 16 val []

/-- `{}` of a `usize` or `i16` that is not negative. -/
def decimal (n : Nat) : List Char := Nat.toDigits 10 n

/-- `mask`, `mask << n` or `mask >> n` (`derive/src/util.rs:49-55` and `167-173`); the shift is
`shiftr - shiftl` in `i16`. -/
def shiftText (mask : List Char) (shiftl shiftr : Nat) : List Char :=
  if shiftr = shiftl then mask
  else if shiftr < shiftl then mask ++ " << ".toList ++ decimal (shiftl - shiftr)
  else mask ++ " >> ".toList ++ decimal (shiftr - shiftl)

/-- `Display for GetOperation`, `derive/src/util.rs:38-57`. -/
def getText (op : GetOperation) : List Char :=
  shiftText (if op.mask ≠ 0xFF then "({} & 0x".toList ++ radix16 op.mask ++ ")".toList else "{}".toList)
    op.shiftl op.shiftr

/-- `Display for SetOperation`, `derive/src/util.rs:149-185`. -/
def setText (op : SetOperation) : List Char :=
  let save := "({packet} & 0x".toList ++ radix16 op.saveMask ++ ")".toList
  let mask := if op.valueMask ≠ 0xFF then "({val} & 0x".toList ++ radix16 op.valueMask ++ ")".toList
    else "{val}".toList
  let shift := shiftText mask op.shiftl op.shiftr
  if op.saveMask ≠ 0 then "{packet} = (".toList ++ save ++ " | (".toList ++ shift ++ ") as u8) as u8".toList
  else "{packet} = (".toList ++ shift ++ ") as u8".toList

/-- The statements of `gen_set_ops`, `derive/src/gen.rs:756-765`, from operation `idx` on. -/
def setLines (name : List Char) : (idx : Nat) → List SetOperation → List Char
  | _, [] => []
  | idx, op :: ops =>
    strReplace "{val}".toList "val".toList (strReplace "{packet}".toList
      (name ++ "[co + ".toList ++ decimal idx ++ "]".toList) (setText op)) ++ ";\n".toList ++
      setLines name (idx + 1) ops

/-- The text parsed by `gen_set_ops`, `derive/src/gen.rs:755-768`. -/
def genSetOps (name : List Char) (ops : List SetOperation) : List Char :=
  "{".toList ++ setLines name 0 ops ++ "}".toList

/-- `build_return`, `derive/src/gen.rs:775-784`: `b0 | b1 | ...`. Without operations
`ret.len() - 3` would panic; `operations` never returns an empty list. -/
def buildReturn (max : Nat) : List Char :=
  let ret := (List.range max).flatMap fun i => "b".toList ++ decimal i ++ " | ".toList
  ret.take (ret.length - 3)

/-- The `let` lines of `gen_get_ops`, `derive/src/gen.rs:794-799`, from operation `idx` on. -/
def getLines (name ty : List Char) : (idx : Nat) → List GetOperation → List Char
  | _, [] => []
  | idx, op :: ops =>
    "let b".toList ++ decimal idx ++ " = (".toList ++ strReplace "{}".toList
      ("(".toList ++ name ++ "[co + ".toList ++ decimal idx ++ "] as ".toList ++ ty ++ ")".toList)
      (getText op) ++ ") as ".toList ++ ty ++ ";\n".toList ++ getLines name ty (idx + 1) ops

/-- The text parsed by `gen_get_ops`, `derive/src/gen.rs:774-806`. -/
def genGetOps (name ty : List Char) (ops : List GetOperation) : List Char :=
  "{".toList ++ (match ops with
    | [op] => strReplace "{}".toList
        ("(".toList ++ name ++ "[co] as ".toList ++ ty ++ ")".toList) (getText op)
    | ops => getLines name ty 0 ops ++ "\n".toList ++ buildReturn ops.length ++ "\n".toList) ++ "}".toList

/-! ## Characters to tokens -/

/-- Splits a text into words, brackets and punctuation. -/
def scan : List Char → List Tok
  | [] => []
  | c :: cs =>
    if isWord c then
      match cs with
      | d :: _ => if isWord d then pushWord c (scan cs) else .word [c] :: scan cs
      | [] => [.word [c]]
    else if c = ' ' ∨ c = '\n' then scan cs
    else if c = '(' then .opening .paren :: scan cs
    else if c = ')' then .closing .paren :: scan cs
    else if c = '[' then .opening .bracket :: scan cs
    else if c = ']' then .closing .bracket :: scan cs
    else if c = '{' then .opening .brace :: scan cs
    else if c = '}' then .closing .brace :: scan cs
    else .punct c :: scan cs

/-! ## Tokens to statements -/

/-- Binary operators. -/
inductive BinOp
  | add
  | shl
  | shr
  | and
  | or
deriving DecidableEq

/-- Binding strength of the operators. -/
def BinOp.prec : BinOp → Nat
  | .add => 9
  | .shl => 8
  | .shr => 8
  | .and => 7
  | .or => 5

/-- Expressions. -/
inductive Expr
  | int (n : Nat)
  /-- `co` -/
  | offset
  /-- `val`, the argument of a setter -/
  | value
  /-- `b<i>` -/
  | local (i : Nat)
  /-- `<packet>[i]` -/
  | byte (i : Expr)
  /-- `e as ty` -/
  | cast (e : Expr) (ty : List Char)
  | bin (op : BinOp) (a b : Expr)
deriving DecidableEq

/-- Statements: `let b<i> = e;` and `<packet>[i] = e;`. -/
inductive Stmt
  | bind (i : Nat) (e : Expr)
  | assign (i e : Expr)
deriving DecidableEq

/-- `{ stmts tail }`. -/
structure Block where
  stmts : List Stmt
  tail : Option Expr
deriving DecidableEq

/-- A decimal number; `none` if there is no digit or another character. -/
def decimalOf (cs : List Char) : Option Nat :=
  if cs = [] ∨ cs.any (fun c => !c.isDigit) then none
  else some (cs.foldl (fun n c => 10 * n + digit c) 0)

/-- A hexadecimal digit. -/
def isHex (c : Char) : Bool := c.isDigit || ('a' ≤ c && c ≤ 'f')

/-- An integer literal, decimal or with `0x`; `0x` alone is not a literal. -/
def literalOf : List Char → Option Nat
  | '0' :: 'x' :: cs =>
    if cs = [] ∨ cs.any (fun c => !isHex c) then none
    else some (cs.foldl (fun n c => 16 * n + digit c) 0)
  | cs => decimalOf cs

/-- A word that is an operand by itself. -/
def wordExpr (cs : List Char) : Option Expr :=
  match cs with
  | ['c', 'o'] => some .offset
  | ['v', 'a', 'l'] => some .value
  | 'b' :: ds => (decimalOf ds).map .local
  | cs => (literalOf cs).map .int

/-- The operator at the front, and what follows it. -/
def operator : List Tok → Option (BinOp × List Tok)
  | .punct '+' :: ts => some (.add, ts)
  | .punct '<' :: .punct '<' :: ts => some (.shl, ts)
  | .punct '>' :: .punct '>' :: ts => some (.shr, ts)
  | .punct '&' :: ts => some (.and, ts)
  | .punct '|' :: ts => some (.or, ts)
  | _ => none

/-- The tokens after a path that names the buffer: `packet`, `self.packet` or `_self.packet`
(`_self` is bound to `self`). -/
def packetPath : List Tok → Option (List Tok)
  | .word ['p', 'a', 'c', 'k', 'e', 't'] :: ts => some ts
  | .word ['s', 'e', 'l', 'f'] :: .punct '.' :: .word ['p', 'a', 'c', 'k', 'e', 't'] :: ts => some ts
  | .word ['_', 's', 'e', 'l', 'f'] :: .punct '.' :: .word ['p', 'a', 'c', 'k', 'e', 't'] :: ts => some ts
  | _ => none

mutual
/-- An operand: a word, an indexed path or an expression in parentheses. -/
def operand : (fuel : Nat) → List Tok → Option (Expr × List Tok)
  | 0, _ => none
  | fuel + 1, ts =>
    match packetPath ts with
    | some (.opening .bracket :: ts) =>
      match operand fuel ts with
      | none => none
      | some (a, ts) =>
        match operators fuel 0 a ts with
        | some (i, .closing .bracket :: ts) => some (.byte i, ts)
        | _ => none
    | some _ => none
    | none =>
      match ts with
      | .opening .paren :: ts =>
        match operand fuel ts with
        | none => none
        | some (a, ts) =>
          match operators fuel 0 a ts with
          | some (e, .closing .paren :: ts) => some (e, ts)
          | _ => none
      | .word cs :: ts => (wordExpr cs).map fun e => (e, ts)
      | _ => none

/-- What follows an operand: `as` binds tightest, then the operators of binding strength `min` and
more; operators of equal strength associate to the left. -/
def operators : (fuel : Nat) → (min : Nat) → Expr → List Tok → Option (Expr × List Tok)
  | 0, _, _, _ => none
  | fuel + 1, min, a, ts =>
    match ts with
    | .word ['a', 's'] :: .word ty :: ts => operators fuel min (.cast a ty) ts
    | ts =>
      match operator ts with
      | none => some (a, ts)
      | some (op, ts') =>
        if op.prec < min then some (a, ts)
        else
          match operand fuel ts' with
          | none => none
          | some (b, ts) =>
            match operators fuel (op.prec + 1) b ts with
            | none => none
            | some (b, ts) => operators fuel min (.bin op a b) ts
end

/-- A whole expression. Every call below consumes a token or ends an operand, so this fuel is enough for
the texts at hand. -/
def expression (ts : List Tok) : Option (Expr × List Tok) :=
  match operand (ts.length + 16) ts with
  | none => none
  | some (a, rest) => operators (ts.length + 16) 0 a rest

/-- The inside of a block up to its closing brace, with nothing after it. -/
def blockFrom : (fuel : Nat) → List Tok → Option Block
  | 0, _ => none
  | fuel + 1, ts =>
    match ts with
    | [.closing .brace] => some ⟨[], none⟩
    | .word ['l', 'e', 't'] :: .word ('b' :: ds) :: .punct '=' :: ts =>
      match decimalOf ds, expression ts with
      | some i, some (e, .punct ';' :: ts) =>
        (blockFrom fuel ts).map fun b => { b with stmts := .bind i e :: b.stmts }
      | _, _ => none
    | ts =>
      match expression ts with
      | some (e, [.closing .brace]) => some ⟨[], some e⟩
      | some (.byte i, .punct '=' :: ts) =>
        match expression ts with
        | some (e, .punct ';' :: ts) =>
          (blockFrom fuel ts).map fun b => { b with stmts := .assign i e :: b.stmts }
        | _ => none
      | _ => none

/-- A block expression. -/
def parseBlock (text : List Char) : Option Block :=
  match scan text with
  | .opening .brace :: ts => blockFrom ts.length ts
  | _ => none

/-! ## What the statements do -/

/-- An integer value: its width, or `none` for a literal whose type is not yet known. -/
structure RInt where
  width : Option Nat
  num : Nat
deriving DecidableEq

/-- Everything an expression can refer to. -/
structure Env where
  buf : Buf
  co : Nat
  /-- the argument `val` of a setter and its type -/
  val : Option RInt
  /-- `b0`, `b1`, ... -/
  locals : List RInt

/-- The width of a type name (`core/src/types.rs`). -/
def typeWidth (ty : List Char) : Option Nat :=
  (builtinTypes ++ typeAliases).findSome? fun x => if x.1.toList = ty then some x.2 else none

/-- The common width of two operands, which must have the same type; a literal takes the type of the
other. -/
def joinWidth (x y : RInt) : Option Nat :=
  match x.width, y.width with
  | some w, some w' => if w = w' then some w else none
  | some w, none => some w
  | none, some w => some w
  | none, none => none

/-- The value of an operand as a `w`-bit integer: a literal that is too large is truncated. (The lint
`overflowing_literals` rejects such literals in written code, but `rustc` does not report it in the
expansion of a derive macro. Which texts have such literals is stated by `C78_literals`.) -/
def RInt.at (w : Nat) (x : RInt) : Nat := if x.width = none then x.num % 2 ^ w else x.num

/-- The value of an operator. What does not compile is a panic. -/
def apply (m : Mode) (op : BinOp) (x y : RInt) : Res RInt :=
  match op with
  | .add =>
    match joinWidth x y with
    | none => panic
    | some w =>
      if x.at w + y.at w < 2 ^ w then .ok ⟨some w, x.at w + y.at w⟩
      else match m with
        | .debug => panic
        | .release => .ok ⟨some w, (x.at w + y.at w) % 2 ^ w⟩
  | .and => match joinWidth x y with | none => panic | some w => .ok ⟨some w, x.at w &&& y.at w⟩
  | .or => match joinWidth x y with | none => panic | some w => .ok ⟨some w, x.at w ||| y.at w⟩
  | .shl => match x.width with | none => panic | some w => (shl w x.num y.num).map (⟨some w, ·⟩)
  | .shr => match x.width with | none => panic | some w => (shr w x.num y.num).map (⟨some w, ·⟩)

/-- The value of an expression. The operands of `as` in these texts always have a type. -/
def eval (m : Mode) (env : Env) : Expr → Res RInt
  | .int n => .ok ⟨none, n⟩
  | .offset => .ok ⟨some 64, env.co⟩
  | .value => match env.val with | some v => .ok v | none => panic
  | .local i => match env.locals[i]? with | some v => .ok v | none => panic
  | .byte i =>
    (eval m env i).bind fun x =>
      if x.width = some 64 then (index env.buf x.num).map fun b => ⟨some 8, b.toNat⟩ else panic
  | .cast e ty =>
    (eval m env e).bind fun x =>
      match x.width, typeWidth ty with
      | some _, some w => .ok ⟨some w, x.num % 2 ^ w⟩
      | _, _ => panic
  | .bin op a b => (eval m env a).bind fun x => (eval m env b).bind fun y => apply m op x y

/-- The statements, in order. In an assignment the right-hand side is evaluated first; it must be a
byte. -/
def exec (m : Mode) : List Stmt → Env → Res Env
  | [], env => .ok env
  | .bind i e :: ss, env =>
    (eval m env e).bind fun v =>
      if i = env.locals.length then exec m ss { env with locals := env.locals ++ [v] } else panic
  | .assign i e :: ss, env =>
    (eval m env e).bind fun v => (eval m env i).bind fun k =>
      if v.width = some 8 ∧ k.width = some 64 then
        (setIndex env.buf k.num (UInt8.ofNat v.num)).bind fun buf => exec m ss { env with buf := buf }
      else panic

/-- Runs the body of a getter of return type `ty`. -/
def runGetter (m : Mode) (ty text : List Char) (buf : Buf) (co : Nat) : Res Nat :=
  match parseBlock text with
  | some ⟨stmts, some tail⟩ =>
    (exec m stmts ⟨buf, co, none, []⟩).bind fun env =>
      (eval m env tail).bind fun v =>
        if v.width ≠ none ∧ v.width = typeWidth ty then .ok v.num else panic
  | _ => panic

/-- Runs the body of a setter whose argument `val` has type `ty`: the new buffer. -/
def runSetter (m : Mode) (ty text : List Char) (buf : Buf) (co v : Nat) : Res Buf :=
  match parseBlock text with
  | some ⟨stmts, none⟩ =>
    match typeWidth ty with
    | some w => (exec m stmts ⟨buf, co, some ⟨some w, v⟩, []⟩).map (·.buf)
    | none => panic
  | _ => panic

end Verif.CodeText
