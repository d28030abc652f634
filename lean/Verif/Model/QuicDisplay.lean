import Verif.Model.Quic
import Verif.Model.MacAddr
import Verif.Model.Names

/-!
# Model: the texts printed for QUIC packets and frames

`Display` as the text it writes; writing itself does not fail. When an accessor panics, the lines
written before it are lost here.
-/

namespace Verif

/-- `{}` of an unsigned integer: decimal digits without leading zeros (`Nat.repr`). -/
def fmtDec (n : Nat) : String := Nat.repr n

/-- `{:?}` of a `Vec<u8>`: `[1, 2, 3]`. -/
def fmtBytes (bytes : List Nat) : String := "[" ++ ", ".intercalate (bytes.map fmtDec) ++ "]"

/-- `{:08x}` of a `u32`: at least eight digits, and a `u32` never needs more. -/
def fmt08x (v : Nat) : String :=
  String.ofList ([7, 6, 5, 4, 3, 2, 1, 0].map fun i => lowerHex (v / 16 ^ i % 16))

/-- `Display for HeaderForm`, `src/quic.rs:339-344,362-371`. -/
def headerFormDisplay (v : Nat) : String :=
  if v = 0 then "short" else if v = 1 then "long" else "unknown"

/-- `Display for FixedBit`, `src/quic.rs:390-398`. -/
def fixedBitDisplay (v : Nat) : String := if v = 1 then "1" else "unknown"

/-- `Display for LongPacketType`, `src/quic.rs:402-409,428-439`. -/
def longPacketTypeDisplay (v : Nat) : String :=
  if v = 0 then "initial" else if v = 1 then "0-rtt" else if v = 2 then "handshake"
  else if v = 3 then "retry" else "unknown"

/-- `Display for Version`, `src/quic.rs:458-462`. -/
def versionDisplay (v : Nat) : String := "0x" ++ fmt08x v

namespace QuicPacket

/-- The packet type in `Display for QuicPacket`, `src/quic.rs:139-146`. -/
def typeText : QuicKind → String
  | .versionNegotiation => "version-negotiation"
  | .initial => "initial"
  | .zeroRtt => "0rtt"
  | .handshake => "handshake"
  | .retry => "retry"
  | .oneRtt => "1rtt"

/-- `Display` of the `Version` struct returned by `version()`: its only field. -/
def versionText : Val → Res String
  | .nums [v] => .ok (versionDisplay v)
  | _ => panic

/-- `Debug` of a `Vec<u8>` returned by an accessor. -/
def bytesText : Val → Res String
  | .nums bytes => .ok (fmtBytes bytes)
  | _ => panic

/-- `writeln!` of a line `key: text` for an optional value. -/
def optLine {α : Type} (key : String) (text : α → Res String) : Option α → Res String
  | none => .ok ""
  | some x => do
    let t ← text x
    .ok (key ++ ": " ++ t ++ "\n")

/-- `Display for QuicPacket`, `src/quic.rs:137-168`. The last two cases of `versionText` and
`bytesText` do not arise: the accessors return values of these shapes. -/
def display (m : Mode) (p : QuicPacket) : Res String := do
  let l1 := "packet-type: " ++ typeText p.kind ++ "\n"
  let l2 ← p.version m >>= optLine "quic-version" versionText
  let l3 ← p.token m >>= optLine "token" bytesText
  let l4 ← p.packetNumber m >>= optLine "packet-number" (fun n => .ok (fmtDec n))
  let destId ← p.destId m
  let l5 ← optLine "dest-id" bytesText (some destId)
  let l6 ← p.srcId m >>= optLine "src-id" bytesText
  let l7 ← p.frames m >>= optLine "payload" (fun b => .ok (fmtDec b.length))
  .ok (l1 ++ l2 ++ l3 ++ l4 ++ l5 ++ l6 ++ l7)

end QuicPacket

/-- `Display for Frame`, `src/quic.rs:614-618`. The type is a struct with one field. -/
def Frame.display (m : Mode) (f : Frame) : Res String := do
  match ← f.ty m with
  | .nums [ty] => .ok (frameTypeDisplay ty)
  | _ => panic

end Verif
