import Verif.Model.Debug
import Verif.Model.Parse
import Verif.Model.MacAddr

/-!
# The text of `{:?}` on the value of a field

`Debug` of integers and vectors (standard library), of `MacAddr`, of the types with `#[derive(Debug)]`
around one integer, and of the structs in a `Vec`. Simplification: the text of an `Ipv6Addr` is a
parameter (it is made by the standard library and differs between its versions).
-/

namespace Verif

/-- The types of fields that do not contain other structs. -/
inductive FlatTy where
  /-- an integer -/
  | int
  /-- a tuple struct around one integer, with its name -/
  | newtype (name : List Char)
  | mac
  | ipv4
  | ipv6
  /-- a `Vec` of integers -/
  | ints
deriving DecidableEq

/-- The types of fields: the structs in a `Vec` have a name and named fields. -/
inductive DebugTy where
  | flat (t : FlatTy)
  | structs (name : List Char) (fields : List (List Char × FlatTy))
deriving DecidableEq

/-- The texts with a comma and a space between them, as `DebugList` and `DebugStruct` of the standard
library write them. -/
def commaJoin : List (List Char) → List Char
  | [] => []
  | [t] => t
  | t :: ts => t ++ (", ".toList ++ commaJoin ts)

/-- `{:?}` of an unsigned integer. -/
def decText (n : Nat) : List Char := Nat.toDigits 10 n

/-- `{:02x}` of a number below 256. -/
def hex2 (n : Nat) : List Char := [lowerHex (n / 16), lowerHex (n % 16)]

/-- `{:?}` of a value; `none` if the value does not have this type.
`MacAddr`: `core/src/macaddr.rs:94-102,160-164`. Types around one integer: `#[derive(Debug)]` on
`EtherType` (`src/ethernet.rs:113`), `ArpOperation` (`src/arp.rs:16`) and so on. The others are of the
standard library. -/
def flatText (six : List Nat → List Char) : FlatTy → Val → Option (List Char)
  | .int, .num n => some (decText n)
  | .newtype name, .nums [n] => some (name ++ ('(' :: (decText n ++ [')'])))
  | .mac, .nums [a, b, c, d, e, f] =>
    if [a, b, c, d, e, f].all (· < 256) then
      some (hex2 a ++ (':' :: (hex2 b ++ (':' :: (hex2 c ++ (':' :: (hex2 d ++ (':' :: (hex2 e ++ (':' ::
        hex2 f))))))))))
    else none
  | .ipv4, .nums [a, b, c, d] =>
    some (decText a ++ ('.' :: (decText b ++ ('.' :: (decText c ++ ('.' :: decText d))))))
  | .ipv6, .nums ns => if ns.length = 8 ∧ ns.all (· < 65536) then some (six ns) else none
  | .ints, .nums ns => some ('[' :: (commaJoin (ns.map decText) ++ [']']))
  | _, _ => none

/-- `name: value` for each field of a struct with `#[derive(Debug)]`. -/
def namedTexts (six : List Nat → List Char) : List (List Char × FlatTy) → List Val → Option (List (List Char))
  | [], [] => some []
  | (n, t) :: fs, v :: vs => do
    let x ← flatText six t v
    let xs ← namedTexts six fs vs
    some ((n ++ (": ".toList ++ x)) :: xs)
  | _, _ => none

/-- `{:?}` of a struct with named fields and `#[derive(Debug)]`. -/
def structText (six : List Nat → List Char) (name : List Char) (fields : List (List Char × FlatTy)) :
    Val → Option (List Char)
  | .list vs => do
    let ts ← namedTexts six fields vs
    some (name ++ (" { ".toList ++ (commaJoin ts ++ " }".toList)))
  | _ => none

/-- `{:?}` of the value of a field. -/
def valueText (six : List Nat → List Char) : DebugTy → Val → Option (List Char)
  | .flat t, v => flatText six t v
  | .structs name fields, .list vs => do
    let ts ← vs.mapM (structText six name fields)
    some ('[' :: (commaJoin ts ++ [']']))
  | .structs _ _, _ => none

/-- The type with this name. Other names than the three of `core/src/packet.rs:179-211` are structs
around one integer. -/
def namedTy (name : List Char) : FlatTy :=
  if name = "MacAddr".toList then .mac
  else if name = "Ipv4Addr".toList then .ipv4
  else if name = "Ipv6Addr".toList then .ipv6
  else .newtype name

/-- The type of a field that does not contain other structs, from its text. -/
def flatTy (text : List Char) : Option FlatTy :=
  match parseType (tyToString text) false with
  | .ok (.primitive _ _ _) => some .int
  | .ok (.vector (.primitive _ _ _)) => some .ints
  | .ok (.misc name) => some (namedTy name)
  | _ => none

/-- The type of a field from its text; `structs` finds the declaration of a struct by its name. -/
def debugTy (structs : List Char → Option (List RawField)) (text : List Char) : Option DebugTy :=
  match parseType (tyToString text) false with
  | .ok (.vector (.misc name)) => do
    let fs ← structs name
    let fields ← fs.mapM fun f => do some ((← f.name).toList, ← flatTy f.ty)
    some (.structs name fields)
  | _ => (flatTy text).map .flat

/-- The type of a field of the struct declared by `raw`. -/
def fieldTy (structs : List Char → Option (List RawField)) (raw : List RawField) (f : Field) : Option DebugTy :=
  (raw.find? (fun r => r.name == some f.name)).bind (fun r => debugTy structs r.ty)

/-- `{:?}` of the value of a field of the struct declared by `raw`. A value that does not have the type
of the field does not occur (see `C95_typed`). -/
def debugValue (six : List Nat → List Char) (structs : List Char → Option (List RawField))
    (raw : List RawField) (f : Field) (v : Val) : List Char :=
  match fieldTy structs raw f with
  | some t => (valueText six t v).getD []
  | none => []

end Verif
