import Verif.Model.Parse
import Verif.Model.Derive

/-!
# From the parsed declaration to code: what the generator accepts (`derive/src/gen.rs`)

The generated code itself is modelled by `Decl` (`Model/Derive.lean`). Here: which parsed
declarations the generator turns into code, and into which fields. `syn::parse_str` of a type text that
came from `syn` is assumed to succeed.
-/

namespace Verif

/-- What the generator distinguishes about a field type: the four arms of `match field.ty` and
`match **inner_ty` in `packet_impl`. The name of a user-defined type is dropped. -/
inductive Kind
  | prim (p : Prim)
  | misc (args : List Prim)
  | vecPrim (p : Prim)
  | vecPkt
deriving DecidableEq

/-- A field of a declaration, with the length expression reduced to its presence. -/
structure Shape where
  name : String
  kind : Kind
  payload : Bool
  hasLen : Bool
deriving DecidableEq

/-- `format_ident!("{}Iterable", text)` (`gen.rs:242`) finds an identifier. Simplification: ASCII
identifiers only, no raw identifiers. -/
def isIdent : List Char → Bool
  | [] => false
  | c :: cs => (c.isAlpha || c == '_') && cs.all fun c => c.isAlphanum || c == '_'

/-- The loop over the `construct_with` arguments, `gen.rs:300-333`: the primitives and the bit offset
after them. -/
def genArgs : (bit : Nat) → List PType → Except MacroErr (List Prim)
  | _, [] => .ok []
  | bit, .primitive _ size e :: args =>
    match operations (bit % 8) size e with
    | none => .error .panicked
    | some _ =>
      match genArgs (bit + size) args with
      | .ok ps => .ok (⟨size, e⟩ :: ps)
      | .error err => .error err
  | _, .vector _ :: _ => .error .rejected
  | _, .misc _ :: _ => .error .rejected

/-- One arm of the field loop of `packet_impl`, `gen.rs:125-366`, for a field starting at `bit`. An
empty element type passes `format_ident!` but not `syn::parse_str`. -/
def genKind (bit : Nat) (f : PField) : Except MacroErr Kind :=
  match f.ty with
  | .primitive _ size e =>
    match operations (bit % 8) size e with
    | none => .error .panicked
    | some _ => .ok (.prim ⟨size, e⟩)
  | .vector (.primitive _ size e) =>
    if size % 8 ≠ 0 then .error .rejected
    else
      match operations 0 size .big with
      | none => .error .panicked
      | some _ => .ok (.vecPrim ⟨size, e⟩)
  | .vector (.vector _) => .error .rejected
  | .vector (.misc text) =>
    if text = [] then .error .rejected
    else if isIdent text then .ok .vecPkt else .error .panicked
  | .misc _ =>
    match genArgs bit f.constructWith with
    | .ok args => .ok (.misc args)
    | .error err => .error err

/-- What a field adds to `bit_offset` (`gen.rs:130,326`). -/
def Kind.bits : Kind → Nat
  | .prim p => p.size
  | .misc args => (args.map (·.size)).sum
  | .vecPrim _ => 0
  | .vecPkt => 0

/-- A raw identifier such as `r#type`: the name taken by the parser (`parse.rs:56`) keeps the `r#`. -/
def rawName (name : String) : Bool := ['r', '#'].isPrefixOf name.toList

/-- The field loop of `packet_impl`, `gen.rs:99-366`. `format_ident!("get_{}", name)` (`gen.rs:101`)
panics for a raw identifier because `get_r#type` is no identifier. -/
def genFields : (bit : Nat) → List PField → Except MacroErr (List Shape)
  | _, [] => .ok []
  | bit, f :: fs =>
    if rawName f.name then .error .panicked
    else match genKind bit f with
    | .error err => .error err
    | .ok k =>
      match genFields (bit + k.bits) fs with
      | .ok ss => .ok (⟨f.name, k, f.isPayload, f.packetLength.isSome⟩ :: ss)
      | .error err => .error err

/-- `generate_packet`, `derive/src/lib.rs:172-191`: parse, then generate. The generators after
`packet_impls` do not fail. -/
def deriveMacro (lenOk : String → Bool) (fields : List RawField) : Except MacroErr (List Shape) :=
  match parsePacket lenOk fields with
  | .ok pfs => genFields 0 pfs
  | .error err => .error err

/-- The item `#[derive(Packet)]` stands on. -/
inductive DeriveItem
  | struct (fields : List RawField)
  | enumOrUnion

/-- `derive_packet`, `derive/src/lib.rs:150-170`. -/
def derivePacket (lenOk : String → Bool) (isPub : Bool) (item : DeriveItem) :
    Except MacroErr (List Shape) :=
  if isPub then
    match item with
    | .struct fields => deriveMacro lenOk fields
    | .enumOrUnion => .error .panicked
  else .error .rejected

end Verif
