import Verif.Spec.Quic
import Verif.Spec.Text

/-! # Specification: the text form of QUIC packets -/

namespace Verif.Spec.Quic
open Verif Verif.Spec

/-- Decimal notation without leading zeros. -/
def Decimal (s : String) (n : Nat) : Prop :=
  DecNum s.toList n ∧ s ≠ "" ∧ (s.toList.head? = some '0' → s = "0")

/-- Eight lower-case hexadecimal digits. -/
def EightHex (s : String) (n : Nat) : Prop :=
  HexNum s.toList n ∧ s.toList.length = 8 ∧ ∀ c ∈ s.toList, c ∈ lowerHexDigits

/-- The bytes in decimal, in brackets, separated by a comma and a space. -/
def BytesText (s : String) (bytes : Buf) : Prop :=
  ∃ ds : List String, s = "[" ++ ", ".intercalate ds ++ "]" ∧ ds.length = bytes.length ∧
    ∀ (i : Nat) (d : String) (b : UInt8), ds[i]? = some d → bytes[i]? = some b → Decimal d b.toNat

/-- The parts of the text of a packet. -/
inductive Line
  | type (name : String)
  | version (v : Nat)
  | token (bytes : Buf)
  | packetNumber (n : Nat)
  | destId (bytes : Buf)
  | srcId (bytes : Buf)
  | payload (size : Nat)

/-- The text of one line. -/
inductive LineText : Line → String → Prop
  | type {name} : LineText (.type name) ("packet-type: " ++ name ++ "\n")
  | version {v s} : EightHex s v → LineText (.version v) ("quic-version: 0x" ++ s ++ "\n")
  | token {bytes s} : BytesText s bytes → LineText (.token bytes) ("token: " ++ s ++ "\n")
  | packetNumber {n s} : Decimal s n → LineText (.packetNumber n) ("packet-number: " ++ s ++ "\n")
  | destId {bytes s} : BytesText s bytes → LineText (.destId bytes) ("dest-id: " ++ s ++ "\n")
  | srcId {bytes s} : BytesText s bytes → LineText (.srcId bytes) ("src-id: " ++ s ++ "\n")
  | payload {n s} : Decimal s n → LineText (.payload n) ("payload: " ++ s ++ "\n")

/-- The text of several lines. -/
inductive LinesText : List Line → String → Prop
  | nil : LinesText [] ""
  | cons {l s ls t} : LineText l s → LinesText ls t → LinesText (l :: ls) (s ++ t)

/-- What is printed about a packet. -/
def lines : Packet → List Line
  | .initial version dcid scid token pn frames =>
    [.type "initial", .version version, .token token, .packetNumber (beNat pn), .destId dcid,
      .srcId scid, .payload frames.length]
  | .zeroRtt version dcid scid pn frames =>
    [.type "0rtt", .version version, .packetNumber (beNat pn), .destId dcid, .srcId scid,
      .payload frames.length]
  | .handshake version dcid scid pn frames =>
    [.type "handshake", .version version, .packetNumber (beNat pn), .destId dcid, .srcId scid,
      .payload frames.length]
  | .retry version dcid scid _ =>
    [.type "retry", .version version, .destId dcid, .srcId scid]
  | .versionNegotiation dcid scid _ =>
    [.type "version-negotiation", .destId dcid, .srcId scid]
  | .oneRtt dcid pn frames =>
    [.type "1rtt", .packetNumber (beNat pn), .destId dcid, .payload frames.length]

end Verif.Spec.Quic
