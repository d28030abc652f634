import Verif.Model.Macro
import Verif.Model.LengthExpr

/-!
# The error messages of the derive macro (`derive/src/{lib,parse,gen}.rs`)

The functions of `Model/Parse.lean` and `Model/Macro.lean` once more, now with the text of every error
and the place it is reported at. Messages that `syn` makes itself (for an attribute or a length text it
cannot parse) are not modelled: they are the error `bySyn`, without text or place. Of an error inside
an attribute only the attribute is kept, not the token.
-/

namespace Verif

/-- The span of an error: the name of the struct, a field (`field.span()`), the type of a field
(`field.ty.span()`), or an attribute of a field; fields and attributes are counted from 0. -/
inductive Place
  | structName
  | field (i : Nat)
  | fieldType (i : Nat)
  | attribute (i k : Nat)
deriving DecidableEq

/-- How the macro can fail, with the message. -/
inductive Failure
  | message (place : Place) (text : String)
  | bySyn
  | panicked
  | hang
deriving DecidableEq

/-- The failure without its message. -/
def Failure.forget : Failure → MacroErr
  | .message _ _ => .rejected
  | .bySyn => .rejected
  | .panicked => .panicked
  | .hang => .hang

/-- How `parse_type` can fail: `Err(text)`, or a panic. -/
inductive TypeFailure
  | text (s : String)
  | panicked
  | hang
deriving DecidableEq

instance {α : Type} [DecidableEq α] : DecidableEq (Except Failure α) := fun a b =>
  match a, b with
  | .ok x, .ok y => if h : x = y then isTrue (h ▸ rfl) else isFalse fun e => h (by cases e; rfl)
  | .error x, .error y =>
    if h : x = y then isTrue (h ▸ rfl) else isFalse fun e => h (by cases e; rfl)
  | .ok _, .error _ => isFalse fun e => by cases e
  | .error _, .ok _ => isFalse fun e => by cases e

instance {α : Type} [DecidableEq α] : DecidableEq (Except TypeFailure α) := fun a b =>
  match a, b with
  | .ok x, .ok y => if h : x = y then isTrue (h ▸ rfl) else isFalse fun e => h (by cases e; rfl)
  | .error x, .error y =>
    if h : x = y then isTrue (h ▸ rfl) else isFalse fun e => h (by cases e; rfl)
  | .ok _, .error _ => isFalse fun e => by cases e
  | .error _, .ok _ => isFalse fun e => by cases e

namespace Diag

/-- `&ty_str[4..ty_str.len() - 1]` (`derive/src/parse.rs:281`), see `vecInner`. -/
def vecInner (s : List Char) : Except TypeFailure (List Char) :=
  match Verif.vecInner s with
  | .ok t => .ok t
  | .error _ => .error .panicked

/-- `parse_type`, `derive/src/parse.rs:272-293`; the recursion is bounded by `fuel`. -/
def parseTypeFuel : (fuel : Nat) → List Char → (endiannessImportant : Bool) → Except TypeFailure PType
  | 0, _, _ => .error .hang
  | fuel + 1, s, imp =>
    match parseTy s with
    | some (size, endianness, spec) =>
      if !imp || size ≤ 8 || spec = .yes then .ok (.primitive s size endianness)
      else .error (.text "endianness must be specified for types of size >= 8")
    | none =>
      if ['V', 'e', 'c', '<'].isPrefixOf s then
        match vecInner s with
        | .error e => .error e
        | .ok inner =>
          match parseTypeFuel fuel inner imp with
          | .ok ty => .ok (.vector ty)
          | .error e => .error e
      else if ['&'].isPrefixOf s then .error (.text ("invalid type: " ++ String.ofList s))
      else .ok (.misc s)

/-- `parse_type`; every recursive call gets a shorter text, so this fuel is enough. -/
def parseType (s : List Char) (imp : Bool) : Except TypeFailure PType :=
  parseTypeFuel (s.length + 1) s imp

/-- `Err(e) => return Err(Error::new(field.ty.span(), &format!("{}", e)))`
(`derive/src/parse.rs:145-149,179-181`). -/
def atType (i : Nat) : TypeFailure → Failure
  | .text s => .message (.fieldType i) s
  | .panicked => .panicked
  | .hang => .hang

/-- The items of attribute `k` of field `i`, `#[construct_with(...)]`, `derive/src/parse.rs:140-161`. -/
def constructItems (i k : Nat) : List PType → List (Option (List Char)) → Except Failure (List PType)
  | acc, [] => .ok acc
  | _, none :: _ => .error (.message (.attribute i k)
      "#[construct_with] should be of the form #[construct_with(<types>)]")
  | acc, some text :: items =>
    match parseType text false with
    | .ok ty => constructItems i k (acc ++ [ty]) items
    | .error e => .error (atType i e)

/-- One iteration of the attribute loop of `packet`, `derive/src/parse.rs:68-175`, for attribute `k`
of field `i`. `tok` gives the tokens of a length text, or `none` if `syn` does not parse it
(`parse.rs:104-110`); `names` are the names of the other fields. The error of `parse_length_expr` is
always the same (`parse.rs:228-230,251`). -/
def attrStep (tok : String → Option (List TT)) (names : List String) (i k : Nat) (st : AttrSt) :
    Meta → Except Failure AttrSt
  | .invalid => .error .bySyn
  | .path ident =>
    if ident = some "payload" then
      if st.payloadSeen then
        .error (.message (.attribute i k) "packet may not have multiple payloads")
      else .ok { st with payloadSeen := true, isPayload := true }
    else .ok st
  | .nameValue ident lit =>
    match ident with
    | none => .ok st
    | some name =>
      if name = "length" then
        match lit with
        | some s =>
          match tok s with
          | none => .error .bySyn
          | some tts =>
            match parseLengthExpr names tts with
            | .ok _ => .ok { st with packetLength := some s }
            | .error _ => .error (.message (.attribute i k)
                "Only field names, constants, integers, basic arithmetic expressions (+ - * / %) and parentheses are allowed in the \"length\" attribute")
        | none => .error (.message (.attribute i k)
            "#[length] should be used as #[length = \"field_name and/or arithmetic expression\"]")
      else .error (.message (.attribute i k) ("Unknown meta/namevalue option '" ++ name ++ "'"))
  | .list ident items =>
    match ident with
    | none => .error (.message (.attribute i k)
        "meta-list attribute has unexpected type (not an ident)")
    | some name =>
      if name = "construct_with" then
        if items = [] then .error (.message (.attribute i k)
          "#[construct_with] must have at least one argument")
        else
          match constructItems i k st.constructWith items with
          | .ok tys => .ok { st with constructWith := tys }
          | .error e => .error e
      else .error (.message (.attribute i k) ("unknown attribute: " ++ name))

/-- The attribute loop of field `i`, from attribute `k` on. -/
def attrLoop (tok : String → Option (List TT)) (names : List String) (i : Nat) :
    (k : Nat) → AttrSt → List Meta → Except Failure AttrSt
  | _, st, [] => .ok st
  | k, st, m :: ms =>
    match attrStep tok names i k st m with
    | .ok st' => attrLoop tok names i (k + 1) st' ms
    | .error e => .error e

/-- One iteration of the field loop of `packet`, `derive/src/parse.rs:54-213`, for field `i` of
`all`; `last` is `!(i < sfields.len() - 1)`. -/
def fieldStep (tok : String → Option (List TT)) (all : List RawField) (i : Nat)
    (payloadSeen last : Bool) (f : RawField) : Except Failure (Bool × PField) :=
  match f.name with
  | none => .error (.message (.fieldType i) "all fields in a packet must be named")
  | some name =>
    match attrLoop tok (fieldNames all f.name) i 0 ⟨payloadSeen, [], false, none⟩ f.attrs with
    | .error e => .error e
    | .ok st =>
      match parseType (tyToString f.ty) true with
      | .error e => .error (atType i e)
      | .ok ty =>
        let field : PField := ⟨name, ty, st.packetLength,
          match ty with | .vector _ => true | _ => false, st.isPayload, st.constructWith⟩
        match ty with
        | .vector _ =>
          if !last && st.packetLength.isNone then .error (.message (.fieldType i)
            "variable length field must specify #[length], unless it is the last field of a packet")
          else .ok (st.payloadSeen, field)
        | .misc _ =>
          if st.constructWith = [] then .error (.message (.fieldType i)
            "non-primitive field types must specify #[construct_with]")
          else .ok (st.payloadSeen, field)
        | .primitive _ _ _ => .ok (st.payloadSeen, field)

/-- The field loop of `packet`, from field `i` on. -/
def fieldLoop (tok : String → Option (List TT)) (all : List RawField) :
    (i : Nat) → (payloadSeen : Bool) → List RawField → Except Failure (List PField)
  | _, _, [] => .ok []
  | i, seen, f :: fs =>
    match fieldStep tok all i seen fs.isEmpty f with
    | .error e => .error e
    | .ok (seen', pf) =>
      match fieldLoop tok all (i + 1) seen' fs with
      | .ok pfs => .ok (pf :: pfs)
      | .error e => .error e

/-- `packet`, `derive/src/parse.rs:50-219`. -/
def parsePacket (tok : String → Option (List TT)) (fields : List RawField) :
    Except Failure (List PField) :=
  fieldLoop tok fields 0 false fields

/-- The loop over the `construct_with` arguments of field `i`, `gen.rs:300-335`. -/
def genArgs (i : Nat) : (bit : Nat) → List PType → Except Failure (List Prim)
  | _, [] => .ok []
  | bit, .primitive _ size e :: args =>
    match operations (bit % 8) size e with
    | none => .error .panicked
    | some _ =>
      match genArgs i (bit + size) args with
      | .ok ps => .ok (⟨size, e⟩ :: ps)
      | .error err => .error err
  | _, .vector _ :: _ => .error (.message (.field i) "arguments to #[construct_with] must be primitives")
  | _, .misc _ :: _ => .error (.message (.field i) "arguments to #[construct_with] must be primitives")

/-- One arm of the field loop of `packet_impl`, `gen.rs:125-366`, for field `i` starting at `bit`. An
empty element type passes `format_ident!` but not `syn::parse_str` (`gen.rs:245`). -/
def genKind (i bit : Nat) (f : PField) : Except Failure Kind :=
  match f.ty with
  | .primitive _ size e =>
    match operations (bit % 8) size e with
    | none => .error .panicked
    | some _ => .ok (.prim ⟨size, e⟩)
  | .vector (.primitive _ size e) =>
    if size % 8 ≠ 0 then .error (.message (.field i) "unimplemented variable length field")
    else
      match operations 0 size .big with
      | none => .error .panicked
      | some _ => .ok (.vecPrim ⟨size, e⟩)
  | .vector (.vector _) =>
    .error (.message (.field i) "variable length fields may not contain vectors")
  | .vector (.misc text) =>
    if text = [] then .error .bySyn
    else if isIdent text then .ok .vecPkt else .error .panicked
  | .misc _ =>
    match genArgs i bit f.constructWith with
    | .ok args => .ok (.misc args)
    | .error err => .error err

/-- The field loop of `packet_impl`, `gen.rs:99-366`, from field `i` on; the panic for raw identifiers
is that of `gen.rs:101`. -/
def genFields : (i bit : Nat) → List PField → Except Failure (List Shape)
  | _, _, [] => .ok []
  | i, bit, f :: fs =>
    if rawName f.name then .error .panicked
    else match genKind i bit f with
    | .error err => .error err
    | .ok k =>
      match genFields (i + 1) (bit + k.bits) fs with
      | .ok ss => .ok (⟨f.name, k, f.isPayload, f.packetLength.isSome⟩ :: ss)
      | .error err => .error err

/-- `generate_packet`, `derive/src/lib.rs:172-191`. -/
def deriveMacro (tok : String → Option (List TT)) (fields : List RawField) :
    Except Failure (List Shape) :=
  match parsePacket tok fields with
  | .ok pfs => genFields 0 0 pfs
  | .error err => .error err

/-- `derive_packet`, `derive/src/lib.rs:150-170`. -/
def derivePacket (tok : String → Option (List TT)) (isPub : Bool) (item : DeriveItem) :
    Except Failure (List Shape) :=
  if isPub then
    match item with
    | .struct fields => deriveMacro tok fields
    | .enumOrUnion => .error .panicked
  else .error (.message .structName "#[packet] structs must be public")

end Diag
end Verif
