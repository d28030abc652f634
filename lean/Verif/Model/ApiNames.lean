import Verif.Model.Macro

/-!
# The names the macro introduces (`derive/src/gen.rs`, `derive/src/parse.rs:41-48`)

The methods of the two generated `impl` blocks and the items generated beside the struct. Nested
functions (`get_arg0` and so on, `gen.rs:303-305`) are local to a method and not listed.
-/

namespace Verif

/-- A method that returns or takes the whole field is generated for fields of every kind; these
kinds have slices besides (`gen.rs:132-160`). -/
def Kind.isVec : Kind → Bool
  | .prim _ => false
  | .misc _ => false
  | .vecPrim _ => true
  | .vecPkt => true

/-- The accessors of a field, `gen.rs:99-366`: for a vector that is not the payload
`get_<name>_raw` (`gen.rs:134,141`), for every field `get_<name>` (`gen.rs:129,180,252,355,484,515`),
for a vector of packets `get_<name>_iter` (`gen.rs:243,264`). -/
def accessorNames (s : Shape) : List (List Char) :=
  (if s.kind.isVec && !s.payload then ["get_".toList ++ s.name.toList ++ "_raw".toList] else []) ++
  ["get_".toList ++ s.name.toList] ++
  (if s.kind = .vecPkt then ["get_".toList ++ s.name.toList ++ "_iter".toList] else [])

/-- The mutators of a field, `gen.rs:99-366`: for a vector that is not the payload
`get_<name>_raw_mut` (`gen.rs:135,153`), for every field `set_<name>`
(`gen.rs:128,227,278,341,532,563`). -/
def mutatorNames (s : Shape) : List (List Char) :=
  (if s.kind.isVec && !s.payload then ["get_".toList ++ s.name.toList ++ "_raw_mut".toList] else []) ++
  ["set_".toList ++ s.name.toList]

/-- The methods of `impl XPacket` or, if `mutable`, `impl MutableXPacket`, in the order of the
generated code (`gen.rs:375-388,403-465`). -/
def methodNames (mutable : Bool) (ss : List Shape) : List (List Char) :=
  ["new".toList, "owned".toList, "to_immutable".toList, "consume_to_immutable".toList,
    "minimum_packet_size".toList, "packet_size".toList] ++
  (if mutable then ["populate".toList] else []) ++
  ss.flatMap accessorNames ++
  (if mutable then ss.flatMap mutatorNames else [])

/-- `Packet::packet_name`, `derive/src/parse.rs:42-44`. -/
def packetTypeName (base : List Char) : List Char := base ++ "Packet".toList

/-- `Packet::packet_name_mut`, `derive/src/parse.rs:45-47`. -/
def packetTypeNameMut (base : List Char) : List Char := "Mutable".toList ++ base ++ "Packet".toList

/-- The types in the module of a struct with `#[derive(Packet)]`: the struct itself and what the
macro adds, two packet types (`gen.rs:25-41`) and the iterator (`gen.rs:656-662`). -/
def apiTypeNames (base : List Char) : List (List Char) :=
  [base, packetTypeName base, packetTypeNameMut base, base ++ "Iterable".toList]

end Verif
