import Verif.Model.Template
import Verif.Model.Offsets

/-!
# Which bodies the methods of a field have (`derive/src/gen.rs:125-360`)

The body is chosen by the type of the field as `parse_type` reads it.
-/

namespace Verif
open Spec

/-- The type of a field as written, `parse.rs:177-181`. -/
def sourceType (rf : RawField) : Option PType :=
  match parseType (tyToString rf.ty) true with
  | .ok ty => some ty
  | .error _ => none

/-- The body of `get_<field>`, `gen.rs:125-360`; of `get_<field>_iter` for a vector of packets, of which
`get_<field>` collects the elements. -/
def sourceGetBody (rf : RawField) : Option (List RustStmt) :=
  match sourceType rf with
  | some (.primitive _ _ _) => some intGetBody
  | some (.vector (.primitive _ size _)) => some (vecGetBody (size / 8))
  | some (.vector (.misc _)) => some rawBody
  | some (.misc _) => some miscGetBody
  | _ => none

/-- The body of `set_<field>`, `gen.rs:125-360`; `hasLength` is `field.packet_length.is_some()` and `args` the
number of arguments of `construct_with`. The copy is made at once if the elements are called `u8`
(`gen.rs:204`). -/
def sourceSetBody (rf : RawField) (hasLength : Bool) (args : Nat) : Option (List RustStmt) :=
  match sourceType rf with
  | some (.primitive _ _ _) => some intSetBody
  | some (.vector (.primitive ty size _)) => some (vecSetBody hasLength (ty == ['u', '8']) (size / 8))
  | some (.vector (.misc _)) => some packetsSetBody
  | some (.misc _) => some (miscSetBody args)
  | _ => none

/-! ## Methods that go through all fields -/

/-- The statements `self.set_<field>(packet.<field>);` (with `&` for vectors) of `populate`, `gen.rs:368-387`:
name of the method and name of the field. A field without a name is rejected (`parse.rs:63`). -/
def sourcePopulate (fields : List RawField) : List (String × String) :=
  fields.filterMap fun rf => rf.name.map fun n => ("set_" ++ n, n)

/-- The parts `<field>: self.get_<field>()` of `from_packet`, `gen.rs:689-705`: name of the field and name of the
method. -/
def sourceParts (fields : List RawField) : List (String × String) :=
  fields.filterMap fun rf => rf.name.map fun n => (n, "get_" ++ n)

/-- `byte_size`, `gen.rs:391-395,447-449`; `width` says how many bits each field adds. -/
def sourceMinSize (fields : List RawField) (width : RawField → Nat) : Nat :=
  let bits := (fields.map width).sum
  if bits % 8 = 0 then bits / 8 else bits / 8 + 1

/-- The body of the method `packet_size`, `gen.rs:468-472,571-592`. -/
def sourceSize (tok : String → Option (List TT)) (fields : List RawField) (width : RawField → Nat) : List TT :=
  fieldOffset tok fields width fields.length

/-- `struct_size`, `gen.rs:365-367,390`, as summands: the bytes of the fixed fields, and the names of the fields
in `_packet.<field>.len()` (`parse.rs:184-186`: fields whose type is a vector). -/
def sourceStructTerms (fields : List RawField) (width : RawField → Nat) : Nat × List String :=
  ((fields.map width).sum / 8,
   fields.filterMap fun rf =>
     match sourceType rf with
     | some (.vector _) => rf.name
     | _ => none)

end Verif
