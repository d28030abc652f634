import Verif.Model.LengthEval
import Verif.Tests.Protocols
import Verif.Spec.Macro
import Verif.Model.Diagnostics

/-!
# The macro tests of `derive/tests`, run on the model

Not properties: these tests only check that the model accepts and rejects what the project's own
tests expect (`derive/tests/tests.rs`), and that the accepted packets behave as their `main` asserts.
The error messages are those of the `.stderr` files.
-/

namespace Verif.Tests

open Verif.Source (field constructWith length payload)
open Verif.Spec (shapes)

/-- The token trees of a length text. The tokeniser of `LengthText` has no floating point literals. -/
def tok (s : String) : Option (List TT) :=
  if s = "banana + 7.5" then some [.ident "banana", .punct '+', .literal "7.5" false]
  else LengthText.tokenise s

/-- `#[derive(Packet)] pub struct`. -/
def derive (fields : List RawField) : Except MacroErr (List Shape) :=
  derivePacket (lengthTextOk tok) true (.struct fields)

/-- The same with its error message. -/
def report (fields : List RawField) : Except Failure (List Shape) :=
  Diag.derivePacket tok true (.struct fields)

/-- `banana: u8`. -/
def banana : RawField := field "banana" [] "u8"

/-- A payload. -/
def payloadField : RawField := field "payload" [payload] "Vec < u8 >"

/-! ## `compile-fail` -/

/-- `construct-with-errors.rs`. -/
example : report [field "banana" [.list (some "construct_with") []] "Toto", payloadField] =
    .error (.message (.attribute 0 0)
      "#[construct_with] must have at least one argument") := by decide +kernel

/-- `construct-with-errors.rs`, second struct. -/
example : report [field "banana" [.list (some "construct_with") [none]] "Toto", payloadField] =
    .error (.message (.attribute 0 0)
      "#[construct_with] should be of the form #[construct_with(<types>)]") := by decide +kernel

/-- `endianness_not_specified.rs`. -/
example : report [field "banana" [] "u16", payloadField] = .error (.message (.fieldType 0)
      "endianness must be specified for types of size >= 8") := by decide +kernel

/-- `invalid_type.rs`. -/
example : report [field "field" [] "String", payloadField] = .error (.message (.fieldType 0)
      "non-primitive field types must specify #[construct_with]") := by decide +kernel

/-- `length_expr.rs`. -/
example : report [banana, field "var_length" [length "banana + 7.5"] "Vec < u8 >", payloadField] =
    .error (.message (.attribute 1 0)
      "Only field names, constants, integers, basic arithmetic expressions (+ - * / %) and parentheses are allowed in the \"length\" attribute") := by decide +kernel

/-- `length_expr_parentheses.rs`. -/
example : report [banana, field "var_length" [length "banana * (7 + 3"] "Vec < u8 >", payloadField] =
    .error .bySyn := by decide +kernel

/-- `multiple_payload.rs`. -/
example : report [field "payload1" [length "0", payload] "Vec < u8 >",
    field "payload2" [payload] "Vec < u8 >"] = .error (.message (.attribute 1 0)
      "packet may not have multiple payloads") := by decide +kernel

/-- `must_be_pub.rs`. -/
example : Diag.derivePacket tok false (.struct [banana, payloadField]) =
    .error (.message .structName "#[packet] structs must be public") := by decide +kernel

/-- `non-primitive.rs`. -/
example : report [field "banana" [] "Toto", payloadField] = .error (.message (.fieldType 0)
      "non-primitive field types must specify #[construct_with]") := by decide +kernel

/-- `payload_fn2.rs`. -/
example : report [banana, field "payload"
    [.list (some "payload") [some "length_fn = \"length_of_payload\"".toList]] "Vec < u8 >"] =
    .error (.message (.attribute 1 0)
      "unknown attribute: payload") := by decide +kernel

/-- `unnamed_field.rs`. -/
example : report [⟨none, [payload], "u8".toList⟩] = .error (.message (.fieldType 0)
      "all fields in a packet must be named") := by decide +kernel

/-- `variable_length_fields.rs`. -/
example : report [banana, field "var_length" [] "Vec < u8 >", payloadField] =
    .error (.message (.fieldType 1)
      "variable length field must specify #[length], unless it is the last field of a packet") := by decide +kernel

/-! ## `run-pass` -/

/-- `construct_with.rs`. -/
example : derive [field "banana" [constructWith ["u16"]] "Toto", payloadField] =
    .ok (shapes ⟨[fmisc "banana" [16], fpayloadRest "payload"]⟩) := by decide +kernel

/-- `WithVariableLengthField`, `get_variable_length_field.rs`. -/
def withVariableLengthField : Decl := ⟨[
  fprim "banana" 32, fbytes "var_length" (lenConst 3), fpayloadRest "payload"]⟩

example : derive [field "banana" [] "u32be", field "var_length" [length "3"] "Vec < u8 >",
    payloadField] = .ok (shapes withVariableLengthField) := by decide +kernel

example : ∀ m ∈ modes, withVariableLengthField.get m [1, 1, 1, 1, 2, 3, 4, 5, 6] 1 =
    .ok (.nums [2, 3, 4]) := by decide +kernel

/-- `Key` and `AnotherKey`, `length_expr.rs` and `packet_size.rs`; simplification: `banana + 7` does
not overflow. -/
def key (f : Nat → Nat) : Decl := ⟨[fprim "banana" 8, fpayload "payload" (lenNum 0 f)]⟩

example : derive [banana, field "payload" [length "banana", payload] "Vec < u8 >"] =
    .ok (shapes (key id)) := by decide +kernel

example : derive [banana, field "payload" [length "banana + 7", payload] "Vec < u8 >"] =
    .ok (shapes (key (· + 7))) := by decide +kernel

example : (key id).staticSize [.num 4, .nums [1, 2, 3, 4]] = 5 := by decide +kernel

example : (key (· + 7)).staticSize [.num 3, .nums [1, 2, 3, 4, 5, 6, 7, 8, 9, 10]] = 11 := by decide +kernel

example : Decl.staticSize ⟨[fprim "banana" 8, fpayloadRest "payload"]⟩
    [.num 123, .nums [1, 2, 3, 4, 5, 6]] = 7 := by decide +kernel

/-- `min_packet_size.rs`. -/
def minSizes : List (Decl × List RawField × Nat) := [
  (⟨[fprim "banana" 8, fpayloadRest "payload"]⟩, [banana, payloadField], 1),
  (⟨[fprim "banana" 16, fpayload "payload" (lenConst 0)]⟩,
    [field "banana" [] "u16be", field "payload" [length "0", payload] "Vec < u8 >"], 2),
  (⟨[fprim "banana" 32, fbytes "var_length" (lenConst 0), fpayloadRest "payload"]⟩,
    [field "banana" [] "u32be", field "var_length" [length "0"] "Vec < u8 >", payloadField], 4),
  (⟨[fprim "banana" 3, fprim "tomato" 5, fpayloadRest "payload"]⟩,
    [field "banana" [] "u3", field "tomato" [] "u5", payloadField], 1),
  (⟨[fprim "banana" 11, fprim "tomato" 21, fpayload "payload" (lenConst 0)]⟩,
    [field "banana" [] "u11be", field "tomato" [] "u21be",
      field "payload" [length "0", payload] "Vec < u8 >"], 4),
  (⟨[fprim "banana" 7, fprim "tomato" 9, fbytes "var_length" (lenConst 0), fpayloadRest "payload"]⟩,
    [field "banana" [] "u7", field "tomato" [] "u9be", field "var_length" [length "0"] "Vec < u8 >",
      payloadField], 2)]

example : ∀ t ∈ minSizes, derive t.2.1 = .ok (shapes t.1) ∧ t.1.minSize = t.2.2 := by decide +kernel

/-- `mqtt.rs`. -/
example : derive [field "source" [] "u16be", field "destination" [] "u16be",
    field "options" [length "mqtt_options_length()"] "Vec < u8 >", field "t" [] "u8", payloadField] =
    .ok (shapes ⟨[fprim "source" 16, fprim "destination" 16, fbytes "options" (lenConst 0),
      fprim "t" 8, fpayloadRest "payload"]⟩) := by decide +kernel

/-- `x as usize - 2`. -/
def lenMinus2 (i : Nat) : LenExpr := fun m get _ => do
  let v ← get i
  usub m (← v.asNum) 2

/-- `PacketOption`, `packet_in_packet.rs`. -/
def packetOption : Decl := ⟨[fprim "pineapple" 8, fprim "length" 8, fpayload "payload" (lenMinus2 1)]⟩

/-- `PacketWithPayload`, `packet_in_packet.rs`. -/
def packetWithPayload : Decl := ⟨[
  fprim "banana" 8,
  fprim "length" 8,
  fprim "header_length" 8,
  { name := "packet_option", ty := .vecPkt packetOption.codec, len := some (lenMinus2 2) },
  fpayloadRest "payload"]⟩

example : derive [banana, field "length" [] "u8", field "header_length" [] "u8",
    field "packet_option" [length "length_fn(header_length)"] "Vec < PacketOption >", payloadField] =
    .ok (shapes packetWithPayload) := by decide +kernel

example : derive [field "pineapple" [] "u8", field "length" [] "u8",
    field "payload" [length "option_length_fn(length)", payload] "Vec < u8 >"] =
    .ok (shapes packetOption) := by decide +kernel

example : ∀ m ∈ modes, packetWithPayload.get m [1, 8, 5, 6, 3, 1, 9, 10] 3 =
    .ok (.list [.list [.num 6, .num 3, .nums [1]]]) := by decide +kernel

/-- `payload_fn.rs`. -/
example : derive [banana, payloadField] =
    .ok (shapes ⟨[fprim "banana" 8, fpayloadRest "payload"]⟩) := by decide +kernel

/-- `PayloadOptional`, `payload_optional.rs`. -/
def payloadOptional : Decl := ⟨[fbytes "header" (lenConst 2), frest "remaining"]⟩

example : derive [field "header" [length "2"] "Vec < u8 >", field "remaining" [] "Vec < u8 >"] =
    .ok (shapes payloadOptional) := by decide +kernel

example : ∀ m ∈ modes, payloadOptional.payload m [0x9d, 0x7f, 0x3e, 0x7d] = .ok [] ∧
    payloadOptional.getRaw m [0x9d, 0x7f, 0x3e, 0x7d] 0 = .ok [0x9d, 0x7f] ∧
    payloadOptional.getRaw m [0x9d, 0x7f, 0x3e, 0x7d] 1 = .ok [0x3e, 0x7d] := by decide +kernel

/-- `PacketWithU16`, `variable_length_fields.rs`. -/
def packetWithU16 : Decl := ⟨[
  fprim "length" 8,
  { name := "data", ty := .vecPrim (u 16), len := some (lenNum 0 id) },
  fbytes "payload" fun _ _ rest => do .ok (← rest).length]⟩

example : derive [field "length" [] "u8", field "data" [length "length"] "Vec < u16be >",
    field "payload" [length "(...).len()"] "Vec < u8 >"] = .ok (shapes packetWithU16) := by decide +kernel

example : ∀ m ∈ modes, (do
    let p ← packetWithU16.set m (List.replicate 9 0) 0 (.num 6)
    let p ← packetWithU16.set m p 1 (.nums [0x0001, 0x1223, 0x3ff4])
    packetWithU16.set m p 2 (.nums [0xff, 0xff])) =
    .ok [0x06, 0x00, 0x01, 0x12, 0x23, 0x3f, 0xf4, 0xff, 0xff] := by decide +kernel

/-- `Varint`, `varint.rs`; `(1 << prefix) - 1` does not overflow for a prefix below 4. -/
def varintDecl : Decl := ⟨[
  fprim "varint_1" 8,
  fbytes "varint_2" (lenNum 0 fun first => 2 ^ (first / 64) - 1),
  fpayloadRest "payload"]⟩

example : derive [field "varint_1" [] "u8",
    field "varint_2" [length "varint_length(varint_1)"] "Vec < u8 >", payloadField] =
    .ok (shapes varintDecl) := by decide +kernel

/-- `varint(first_byte, rest)` of `varint.rs`. -/
example : ∀ m ∈ modes, (do
    let first ← (← varintDecl.get m [0x9d, 0x7f, 0x3e, 0x7d] 0).asNum
    let rest ← varintDecl.getRaw m [0x9d, 0x7f, 0x3e, 0x7d] 1
    (Except.ok (rest.foldl (fun n (b : UInt8) => n * 256 + b.toNat) (first % 64)) : Res Nat)) =
      .ok 494878333 := by decide +kernel

end Verif.Tests
