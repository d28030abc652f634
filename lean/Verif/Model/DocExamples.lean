import Verif.Model.Sources
import Verif.Model.Protocols

/-! # The structs of the documentation -/

namespace Verif

open Source (field constructWith payload)

/-- `Example`, `derive/src/lib.rs:22-42`, as written. -/
def srcExample : List RawField := [
  field "simple_field1" [] "u4",
  field "simple_field2" [] "u12be",
  field "payload" [payload] "Vec < u8 >"]

/-- `Example` as a declaration. -/
def docExample : Decl := ⟨[
  fprim "simple_field1" 4,
  fprim "simple_field2" 12,
  fpayloadRest "payload"]⟩

/-- `MyProtocol`, `docs/using_packet.md:157-164`, as written. -/
def srcMyProtocol : List RawField := [
  field "field" [constructWith ["u8"]] "MyProtocolField",
  field "checksum" [] "u16be",
  field "payload" [payload] "Vec < u8 >"]

/-- `MyProtocol` as a declaration. -/
def myProtocol : Decl := ⟨[
  fmisc "field" [8],
  fprim "checksum" 16,
  fpayloadRest "payload"]⟩

end Verif
