import Verif.Model.Ops

/-!
# The declaration parser of the derive macro (`derive/src/parse.rs`)

Texts are lists of characters. The regular expression of `parse_ty` is modelled by the recogniser it
denotes. `syn`'s tokenisation is not modelled: a field arrives as its name, its attributes (already
split into the three `syn::Meta` forms) and the text of its type. Whether a `#[length]` text is a
legal expression is a parameter; error messages and spans are dropped here and
added in `Model/Diagnostics.lean`.
-/

namespace Verif

/-- `EndiannessSpecified`, `derive/src/parse.rs:8-12`. -/
inductive EndiannessSpecified
  | no
  | yes
deriving DecidableEq

/-- ASCII digit class `[0-9]` of the regular expression. -/
def isDec (c : Char) : Bool := '0' ≤ c && c ≤ '9'

/-- The captures of `^u([0-9]+)(be|le|he)?$` (`derive/src/parse.rs:299`): the digits and the
suffix. Without the multi-line flag `$` only matches at the end of the text. The digit class and the
suffixes are disjoint, so greedy matching needs no backtracking. -/
def tyCaptures : List Char → Option (List Char × Option (List Char))
  | 'u' :: cs =>
    let ds := cs.takeWhile isDec
    if ds = [] then none
    else
      match cs.dropWhile isDec with
      | [] => some (ds, none)
      | ['b', 'e'] => some (ds, some ['b', 'e'])
      | ['l', 'e'] => some (ds, some ['l', 'e'])
      | ['h', 'e'] => some (ds, some ['h', 'e'])
      | _ => none
  | _ => none

/-- `str::parse::<usize>()` on a text of ASCII digits: `checked_mul(10)?.checked_add(digit)?`. -/
def parseUsizeFrom : (acc : Nat) → List Char → Option Nat
  | acc, [] => some acc
  | acc, c :: cs =>
    let d := c.toNat - '0'.toNat
    if acc * 10 < usizeCard then
      if acc * 10 + d < usizeCard then parseUsizeFrom (acc * 10 + d) cs else none
    else none

/-- `parse_ty`, `derive/src/parse.rs:298-327`. The capture count is always 3. -/
def parseTy (ty : List Char) : Option (Nat × Endianness × EndiannessSpecified) :=
  match tyCaptures ty with
  | none => none
  | some (size, suffix) =>
    let (endianness, hasEnd) := match suffix with
      | some e =>
        if e = ['b', 'e'] then (Endianness.big, EndiannessSpecified.yes)
        else if e = ['h', 'e'] then (Endianness.host, EndiannessSpecified.yes)
        else (Endianness.little, EndiannessSpecified.yes)
      | none => (Endianness.big, EndiannessSpecified.no)
    match parseUsizeFrom 0 size with
    | some sz => some (sz, endianness, hasEnd)
    | none => none

/-- `Type`, `derive/src/parse.rs:14-22`. -/
inductive PType
  | primitive (text : List Char) (size : Nat) (endianness : Endianness)
  | vector (inner : PType)
  | misc (text : List Char)
deriving DecidableEq

/-- How the macro can fail: a compile error, or a panic of the macro itself (an endless recursion is
`hang`). -/
inductive MacroErr
  | rejected
  | panicked
  | hang
deriving DecidableEq

instance {α : Type} [DecidableEq α] : DecidableEq (Except MacroErr α) := fun a b =>
  match a, b with
  | .ok x, .ok y => if h : x = y then isTrue (h ▸ rfl) else isFalse fun e => h (by cases e; rfl)
  | .error x, .error y =>
    if h : x = y then isTrue (h ▸ rfl) else isFalse fun e => h (by cases e; rfl)
  | .ok _, .error _ => isFalse fun e => by cases e
  | .error _, .ok _ => isFalse fun e => by cases e

/-- `&ty_str[4..ty_str.len() - 1]` for a text starting with the four bytes `Vec<`
(`derive/src/parse.rs:281`): panics when the text is just `Vec<` and when the last character is not
one byte long. -/
def vecInner (s : List Char) : Except MacroErr (List Char) :=
  let rest := s.drop 4
  match rest.getLast? with
  | none => .error .panicked
  | some c => if c.utf8Size = 1 then .ok rest.dropLast else .error .panicked

/-- `parse_type`, `derive/src/parse.rs:272-293`; the recursion is bounded by `fuel`. -/
def parseTypeFuel : (fuel : Nat) → List Char → (endiannessImportant : Bool) → Except MacroErr PType
  | 0, _, _ => .error .hang
  | fuel + 1, s, imp =>
    match parseTy s with
    | some (size, endianness, spec) =>
      if !imp || size ≤ 8 || spec = .yes then .ok (.primitive s size endianness)
      else .error .rejected
    | none =>
      if ['V', 'e', 'c', '<'].isPrefixOf s then
        match vecInner s with
        | .error e => .error e
        | .ok inner =>
          match parseTypeFuel fuel inner imp with
          | .ok ty => .ok (.vector ty)
          | .error e => .error e
      else if ['&'].isPrefixOf s then .error .rejected
      else .ok (.misc s)

/-- `parse_type`; every recursive call gets a shorter text, so this fuel is enough. -/
def parseType (s : List Char) (imp : Bool) : Except MacroErr PType :=
  parseTypeFuel (s.length + 1) s imp

/-- `str::replace(pat, rep)` for a non-empty pattern: occurrences are found left to right and do not
overlap; `skip` characters of the last occurrence are still to be dropped. -/
def strReplaceFrom (pat rep : List Char) : (skip : Nat) → List Char → List Char
  | _, [] => []
  | skip + 1, _ :: cs => strReplaceFrom pat rep skip cs
  | 0, c :: cs =>
    if pat.isPrefixOf (c :: cs) then rep ++ strReplaceFrom pat rep (pat.length - 1) cs
    else c :: strReplaceFrom pat rep 0 cs

/-- `str::replace`. -/
def strReplace (pat rep s : List Char) : List Char := strReplaceFrom pat rep 0 s

/-- `ty_to_string`, `derive/src/parse.rs:360-364`, applied to the token text. -/
def tyToString (tokens : List Char) : List Char :=
  strReplace [' ', '>'] ['>'] (strReplace [' ', '>', ' '] ['>'] (strReplace [' ', '<', ' '] ['<'] tokens))

/-! ## Field attributes -/

/-- A field attribute after `attr.parse_meta()`. Paths that are not a single identifier are `none`;
a literal that is not a string is `none`; an item of a list is its token text, or `none` for a
literal. -/
inductive Meta
  | invalid
  | path (ident : Option String)
  | nameValue (ident : Option String) (strLit : Option String)
  | list (ident : Option String) (items : List (Option (List Char)))
deriving DecidableEq

/-- A field as written by the user. -/
structure RawField where
  name : Option String
  attrs : List Meta
  ty : List Char

/-- `Field`, `derive/src/parse.rs:24-33`: `packetLength` is the text of the length expression,
`structLength` only whether there is one. -/
structure PField where
  name : String
  ty : PType
  packetLength : Option String
  structLength : Bool
  isPayload : Bool
  constructWith : List PType
deriving DecidableEq

/-- What the attribute loop of `packet` accumulates for one field. -/
structure AttrSt where
  payloadSeen : Bool
  constructWith : List PType
  isPayload : Bool
  packetLength : Option String

/-- The items of `#[construct_with(...)]`, `derive/src/parse.rs:140-161`. -/
def constructItems : List PType → List (Option (List Char)) → Except MacroErr (List PType)
  | acc, [] => .ok acc
  | _, none :: _ => .error .rejected
  | acc, some text :: items =>
    match parseType text false with
    | .ok ty => constructItems (acc ++ [ty]) items
    | .error e => .error e

/-- One iteration of the attribute loop of `packet`, `derive/src/parse.rs:68-175`. `lenOk` tells
whether the length text parses and passes `parse_length_expr`. -/
def attrStep (lenOk : String → Bool) (st : AttrSt) : Meta → Except MacroErr AttrSt
  | .invalid => .error .rejected
  | .path ident =>
    if ident = some "payload" then
      if st.payloadSeen then .error .rejected
      else .ok { st with payloadSeen := true, isPayload := true }
    else .ok st
  | .nameValue ident lit =>
    match ident with
    | none => .ok st
    | some name =>
      if name = "length" then
        match lit with
        | some s => if lenOk s then .ok { st with packetLength := some s } else .error .rejected
        | none => .error .rejected
      else .error .rejected
  | .list ident items =>
    match ident with
    | none => .error .rejected
    | some name =>
      if name = "construct_with" then
        if items = [] then .error .rejected
        else
          match constructItems st.constructWith items with
          | .ok tys => .ok { st with constructWith := tys }
          | .error e => .error e
      else .error .rejected

/-- The attribute loop. -/
def attrLoop (lenOk : String → Bool) : AttrSt → List Meta → Except MacroErr AttrSt
  | st, [] => .ok st
  | st, m :: ms =>
    match attrStep lenOk st m with
    | .ok st' => attrLoop lenOk st' ms
    | .error e => .error e

/-- One iteration of the field loop of `packet`, `derive/src/parse.rs:54-213`; `last` is
`!(i < sfields.len() - 1)`. Returns whether a payload has been seen so far, and the field. -/
def fieldStep (lenOk : String → Bool) (payloadSeen last : Bool) (f : RawField) :
    Except MacroErr (Bool × PField) :=
  match f.name with
  | none => .error .rejected
  | some name =>
    match attrLoop lenOk ⟨payloadSeen, [], false, none⟩ f.attrs with
    | .error e => .error e
    | .ok st =>
      match parseType (tyToString f.ty) true with
      | .error e => .error e
      | .ok ty =>
        let field : PField := ⟨name, ty, st.packetLength,
          match ty with | .vector _ => true | _ => false, st.isPayload, st.constructWith⟩
        match ty with
        | .vector _ =>
          if !last && st.packetLength.isNone then .error .rejected
          else .ok (st.payloadSeen, field)
        | .misc _ =>
          if st.constructWith = [] then .error .rejected else .ok (st.payloadSeen, field)
        | .primitive _ _ _ => .ok (st.payloadSeen, field)

/-- The field loop of `packet`. -/
def fieldLoop (lenOk : String → Bool) : (payloadSeen : Bool) → List RawField →
    Except MacroErr (List PField)
  | _, [] => .ok []
  | seen, f :: fs =>
    match fieldStep lenOk seen fs.isEmpty f with
    | .error e => .error e
    | .ok (seen', pf) =>
      match fieldLoop lenOk seen' fs with
      | .ok pfs => .ok (pf :: pfs)
      | .error e => .error e

/-- `packet`, `derive/src/parse.rs:50-219`. -/
def parsePacket (lenOk : String → Bool) (fields : List RawField) : Except MacroErr (List PField) :=
  fieldLoop lenOk false fields

end Verif
