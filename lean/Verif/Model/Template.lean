import Verif.Spec.MiniRust

/-!
# The methods that `derive(Packet)` generates for vectors, payloads and iterators (`derive/src/gen.rs`)

The bodies in the `quote!` blocks, statement by statement, in the small part of Rust of `Spec/MiniRust`. What is
interpolated (`#co`, `#packet_length`, `#access_ops`, `#sop`, names of other packet types) is a parameter there;
`use` lines and attributes have no effect and are left out.
-/

namespace Verif
open Spec

/-- `get_<field>` of an integer, `gen.rs:515-518`, and `get_arg<i>`, `gen.rs:493-496`. -/
def intGetBody : List RustStmt := [.bind "co" .co, .retOps]

/-- `set_<field>` of an integer, `gen.rs:563-566`, and `set_arg<i>`, `gen.rs:541-544`. -/
def intSetBody : List RustStmt := [.bind "co" .co, .writeOps]

/-- `get_<field>` of a user-defined type, `gen.rs:355-358`. -/
def miscGetBody : List RustStmt := [.retNew]

/-- `set_<field>` of a user-defined type with `n` arguments, `gen.rs:341-348`. -/
def miscSetBody (n : Nat) : List RustStmt :=
  .bindPrimitives "vals" "val" :: (List.range n).map fun i => .callSet i "vals"

/-- `min(current_offset + #packet_length, self.packet.len())`, `gen.rs:144,156,267`. -/
def endExp : RustExp := .min (.add (.var "current_offset") .packetLength) .selfLen

/-- `get_<field>_raw`, `gen.rs:141-146` (`get_<field>_raw_mut`, `gen.rs:153-158`, differs in `&mut`), and
the slice in `get_<field>_iter`, `gen.rs:264-271`. -/
def rawBody : List RustStmt :=
  [.bind "current_offset" .co,
   .bind "end" endExp,
   .retSlice (.var "current_offset") (.var "end")]

/-- The body of the loop of the getter of a vector of integers, `gen.rs:190-193`. -/
def vecGetLoop (size : Nat) : List RustStmt :=
  [.pushOps "vec" "packet",
   .addAssign "co" (.num size)]

/-- `get_<field>` of a vector of integers of `size` bytes, `gen.rs:180-195`. -/
def vecGetBody (size : Nat) : List RustStmt :=
  [.bind "current_offset" .co,
   .bind "pkt_len" .selfLen,
   .bind "end" (.min (.add (.var "current_offset") .packetLength) (.var "pkt_len")),
   .bindSlice "packet" (.var "current_offset") (.var "end"),
   .bindVec "vec" (.len "packet"),
   .bind "co" (.num 0),
   .forRange "_" (.capacity "vec") (vecGetLoop size),
   .retVar "vec"]

/-- `check_len`, `gen.rs:196-203`. -/
def checkLen (hasLength : Bool) : List RustStmt :=
  if hasLength then [.bind "len" .packetLength, .assertLe (.len "vals") (.var "len")] else []

/-- The body of the loop of a setter of a vector of integers, `gen.rs:215-219`. -/
def vecSetLoop (size : Nat) : List RustStmt :=
  [.bindElem "val" "vals" "i",
   .writeOps,
   .addAssign "co" (.num size)]

/-- `copy_vals`, `gen.rs:204-221`; `u8` says whether the elements are called `u8`. -/
def copyVals (u8 : Bool) (size : Nat) : List RustStmt :=
  if u8 then
    [.copyFrom (.var "current_offset") (.add (.var "current_offset") (.len "vals")) "vals"]
  else
    [.bind "co" (.var "current_offset"),
     .forRange "i" (.len "vals") (vecSetLoop size)]

/-- `set_<field>` of a vector of integers, `gen.rs:227-231`. -/
def vecSetBody (hasLength u8 : Bool) (size : Nat) : List RustStmt :=
  .bind "current_offset" .co :: (checkLen hasLength ++ copyVals u8 size)

/-- The body of the loop of a setter of a vector of packets, `gen.rs:282-287`. -/
def packetsSetLoop : List RustStmt :=
  [.bindPacket "packet" (.var "current_offset"),
   .populate "packet" "val",
   .addAssign "current_offset" (.packetSize "packet"),
   .assertLe (.var "current_offset") (.var "end")]

/-- `set_<field>` of a vector of packets, `gen.rs:278-288`. -/
def packetsSetBody : List RustStmt :=
  [.bind "current_offset" .co,
   .bind "end" (.add (.var "current_offset") .packetLength),
   .forEach "val" "vals" packetsSetLoop]

/-- `payload` and `payload_mut`, `gen.rs:643-650`, for the bounds `lower` and `upper`. -/
def payloadBody (lower upper : RustExp) : List RustStmt :=
  [.bind "start" lower,
   .bind "end" (.min upper .selfLen),
   .ifLe .selfLen (.var "start") [.retEmpty],
   .retSlice (.var "start") (.var "end")]

/-- `payload_bounds`, `gen.rs:90-93,113-123`: `0` and `0` without a payload, otherwise `#co` and, if the payload
has a length, `#co + #packet_length`, else `self.packet.len()`. -/
def payloadBounds (hasPayload hasLength : Bool) : RustExp × RustExp :=
  if hasPayload then (.co, if hasLength then .add .co .packetLength else .selfLen) else (.num 0, .num 0)

/-- `next` of an iterator, `gen.rs:667-678`; `self.buf.len() > 0` is `1 <= self.buf.len()`. -/
def nextBody : List RustStmt :=
  [.ifLe (.num 1) .selfLen
     [.ifNew "ret"
        [.bind "start" (.min (.packetSize "ret") .selfLen),
         .advance (.var "start"),
         .retSome "ret"]],
   .retNone]

/-- The statements `self.set_<field>(packet.<field>);` (with `&` for vectors) of `populate`, `gen.rs:368-387`:
name of the method and name of the field. -/
def populateCalls (d : Decl) : List (String × String) :=
  d.fields.map fun f => ("set_" ++ f.name, f.name)

/-- The parts `<field>: self.get_<field>()` of `from_packet`, `gen.rs:689-705`: name of the field and name of the
method. -/
def fromPacketParts (d : Decl) : List (String × String) :=
  d.fields.map fun f => (f.name, "get_" ++ f.name)

/-- `struct_size`, `gen.rs:365-367,390`, as summands: the bytes of the fixed fields, and the names of the fields
in `_packet.<field>.len()` (`parse.rs:184-186`: fields that are vectors). -/
def structSizeTerms (d : Decl) : Nat × List String :=
  (d.bits / 8, (d.fields.filter fun f => f.ty.isVec).map (·.name))

end Verif
