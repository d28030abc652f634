import Verif.Model.Parse

/-!
# Length expressions of the derive macro (`parse_length_expr`, `derive/src/parse.rs:222-270`)

Tokenisation by `syn` is a parameter: `tok` gives the token trees of a `#[length]` text after `...` has
been replaced by `r#field_offset` (`parse.rs:105-110`), or `none` if the text is not an expression.
-/

namespace Verif

/-- `proc_macro2::Delimiter`. -/
inductive Delim
  | paren
  | brace
  | bracket
deriving DecidableEq

/-- `proc_macro2::TokenTree`; for a literal, whether `syn` reads it as an integer. -/
inductive TT
  | ident (name : String)
  | punct (c : Char)
  | literal (text : String) (isInt : Bool)
  | group (d : Delim) (inner : List TT)

/-- The tokens of `self.get_<name>()` (`parse.rs:237-240`). -/
def getterCall (name : String) : List TT :=
  [.ident "self", .punct '.', .ident ("get_" ++ name), .group .paren []]

mutual
/-- One iteration of the loop of `parse_length_expr`, `parse.rs:234-266`. -/
def lengthToken (names : List String) : TT → Except MacroErr (List TT)
  | .ident name => if names.contains name then .ok (getterCall name) else .ok [.ident name]
  | .punct c => .ok [.punct c]
  | .literal text isInt => if isInt then .ok [.literal text isInt] else .error .rejected
  | .group d inner =>
    match parseLengthExpr names inner with
    | .ok tts => .ok [.group d tts]
    | .error e => .error e

/-- `parse_length_expr`, `parse.rs:222-270`. -/
def parseLengthExpr (names : List String) : List TT → Except MacroErr (List TT)
  | [] => .ok []
  | t :: ts =>
    match lengthToken names t with
    | .error e => .error e
    | .ok out =>
      match parseLengthExpr names ts with
      | .ok outs => .ok (out ++ outs)
      | .error e => .error e
end

/-- The names a length expression may use: those of the other fields, earlier or later
(`parse.rs:90-103`). -/
def fieldNames (fields : List RawField) (own : Option String) : List String :=
  (fields.filterMap (·.name)).filter fun n => own ≠ some n

/-- The processed length expression of a field: its last `#[length]` (`parse.rs:86-115`). -/
def lengthTokens (tok : String → Option (List TT)) (fields : List RawField) (f : RawField) :
    Option (List TT) :=
  f.attrs.foldl (fun acc m => match m with
    | .nameValue (some "length") (some s) =>
      match tok s with
      | some tts => (parseLengthExpr (fieldNames fields f.name) tts).toOption
      | none => none
    | _ => acc) none

/-- Whether a `#[length]` text is accepted (the parameter of `parsePacket`). -/
def lengthTextOk (tok : String → Option (List TT)) (s : String) : Bool :=
  match tok s with
  | some tts => (parseLengthExpr [] tts).toOption.isSome
  | none => false

mutual
/-- The identifiers in a token tree. -/
def TT.idents : TT → List String
  | .ident name => [name]
  | .punct _ => []
  | .literal _ _ => []
  | .group _ inner => TT.identsList inner

/-- The identifiers in a list of token trees. -/
def TT.identsList : List TT → List String
  | [] => []
  | t :: ts => t.idents ++ TT.identsList ts
end

/-- The getters that `get_<field k>()` evaluates directly: its offset is the sum of the length
expressions of the earlier fields (`gen.rs:63-71,103,362-364`), and a vector also evaluates its own
(`gen.rs:143,185,267`). -/
def getterRefs (tok : String → Option (List TT)) (fields : List RawField) (k : Nat) : List String :=
  let offset := (fields.take k).flatMap fun f => TT.identsList ((lengthTokens tok fields f).getD [])
  let own := match fields[k]? with
    | some f =>
      match parseType (tyToString f.ty) true with
      | .ok (.vector _) => TT.identsList ((lengthTokens tok fields f).getD [])
      | _ => []
    | none => []
  offset ++ own

end Verif
