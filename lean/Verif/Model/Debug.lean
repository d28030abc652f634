import Verif.Model.Derive

/-!
# The text of `{:?}` on a packet (`debug_impls`, `derive/src/gen.rs:722-753`)

How a value is printed is a parameter: `fmt f v` is the text of `{:?}` on the value `v` of field `f`
(integers and vectors by the standard library, other types by their own `Debug`).
-/

namespace Verif

/-- `packet_name` and `packet_name_mut`, `derive/src/parse.rs:42-47`. -/
def packetName (base : String) (mutable : Bool) : List Char :=
  if mutable then "Mutable".toList ++ base.toList ++ "Packet".toList else base.toList ++ "Packet".toList

/-- `field_fmt_str`, `derive/src/gen.rs:723-732`. `format!("{}{} : {{:?}}, ", ..)` writes `{:?}`. -/
def fieldFmt (fields : List Field) : List Char :=
  fields.foldl (fun acc f => if f.payload then acc else acc ++ f.name.toList ++ " : {:?}, ".toList) []

/-- `packet_fmt_str` and `packet_mut_fmt_str`, `derive/src/gen.rs:735,737`. `format!("{} {{{{ {} }}}}", ..)`
writes doubled braces. -/
def debugFormat (name : List Char) (fields : List Field) : List Char :=
  name ++ " {{ ".toList ++ fieldFmt fields ++ " }}".toList

/-- `write!` with a format string in which only `{:?}`, `{{` and `}}` occur, and the texts of its
arguments; `none` for what does not compile. Models the standard library. -/
def formatArgs : List Char → List (List Char) → Option (List Char)
  | [], [] => some []
  | [], _ :: _ => none
  | '{' :: '{' :: cs, args => (formatArgs cs args).map ('{' :: ·)
  | '}' :: '}' :: cs, args => (formatArgs cs args).map ('}' :: ·)
  | '{' :: ':' :: '?' :: '}' :: cs, arg :: args => (formatArgs cs args).map (arg ++ ·)
  | c :: cs, args => if c = '{' ∨ c = '}' then none else (formatArgs cs args).map (c :: ·)

/-- The getters `get_fields` of `debug_impls` (`gen.rs:724-732`), evaluated in order and printed. -/
def debugArgs (fmt : Field → Val → List Char) : List (Field × Res Val) → Res (List (List Char))
  | [] => .ok []
  | (f, v) :: rest =>
    if f.payload then debugArgs fmt rest
    else do
      let x ← v
      let xs ← debugArgs fmt rest
      .ok (fmt f x :: xs)

/-- `fmt` of the generated `Debug`, `gen.rs:739-751`: the text written. What does not compile is a
panic. -/
def Decl.debugText (d : Decl) (base : String) (mutable : Bool) (fmt : Field → Val → List Char) (m : Mode)
    (buf : Buf) : Res (List Char) := do
  let args ← debugArgs fmt (d.fields.zip (d.final m buf).vals)
  match formatArgs (debugFormat (packetName base mutable) d.fields) args with
  | some text => .ok text
  | none => panic

end Verif
