import Verif.Model.Derive
import Verif.Model.Checksum
import Verif.Model.MacAddr

/-!
# Typed fields: `PrimitiveValues` (`core/src/packet.rs:170-211`) and the constructors called by the getters

`Val.nums` is the tuple of primitive values; here are the conversions between it and the addresses.
-/

namespace Verif

/-- `MacAddr::to_primitive_values`, `core/src/packet.rs:179-184`. -/
def MacAddr.toPrimitive (a : MacAddr) : List Nat :=
  [a.b0.toNat, a.b1.toNat, a.b2.toNat, a.b3.toNat, a.b4.toNat, a.b5.toNat]

/-- The call `MacAddr::new(a, b, c, d, e, f)` in a getter (`derive/src/gen.rs:350-359`), with `u8`
arguments. -/
def MacAddr.ofPrimitive : List Nat → Option MacAddr
  | [a, b, c, d, e, f] => some (MacAddr.new (.ofNat a) (.ofNat b) (.ofNat c) (.ofNat d) (.ofNat e) (.ofNat f))
  | _ => none

/-- `Ipv4Addr::to_primitive_values`, `core/src/packet.rs:186-193`. -/
def Ipv4Addr.toPrimitive (a : Ipv4Addr) : List Nat :=
  [a.octets[0].toNat, a.octets[1].toNat, a.octets[2].toNat, a.octets[3].toNat]

/-- `Ipv4Addr::new` (std), with `u8` arguments. -/
def Ipv4Addr.ofPrimitive : List Nat → Option Ipv4Addr
  | [a, b, c, d] => some ⟨#v[.ofNat a, .ofNat b, .ofNat c, .ofNat d]⟩
  | _ => none

/-- `Ipv6Addr::to_primitive_values`, `core/src/packet.rs:195-211`. -/
def Ipv6Addr.toPrimitive (a : Ipv6Addr) : List Nat := a.segments

/-- `Ipv6Addr::new` (std), with `u16` arguments: their bytes, high byte first. -/
def Ipv6Addr.ofPrimitive : List Nat → Option Ipv6Addr
  | [a, b, c, d, e, f, g, h] => some ⟨#v[
      .ofNat (a / 256), .ofNat a, .ofNat (b / 256), .ofNat b, .ofNat (c / 256), .ofNat c,
      .ofNat (d / 256), .ofNat d, .ofNat (e / 256), .ofNat e, .ofNat (f / 256), .ofNat f,
      .ofNat (g / 256), .ofNat g, .ofNat (h / 256), .ofNat h]⟩
  | _ => none

/-- `to_primitive_values` of a struct around one integer: `(self.0,)` (`src/ethernet.rs:123-128` and
the other types of `fieldTypes`). Such a value is modelled by the integer inside. -/
def Newtype.toPrimitive (v : Nat) : List Nat := [v]

/-- `new` of a struct around one integer: `T(v)` (`src/ethernet.rs:118-120` and the others). -/
def Newtype.ofPrimitive : List Nat → Option Nat
  | [v] => some v
  | _ => none

/-- `get_<field k>()` of a field with a user-defined type: the primitive values are passed to the
type's `new` (`derive/src/gen.rs:350-359`). A wrong number of values does not compile; here it is a
panic. -/
def Decl.getAs {α : Type} (d : Decl) (ofPrim : List Nat → Option α) (m : Mode) (buf : Buf) (k : Nat) :
    Res α := do
  match ← d.get m buf k with
  | .nums ns =>
    match ofPrim ns with
    | some a => .ok a
    | none => panic
  | _ => panic

/-- `set_<field k>(v)` of a field with a user-defined type: `v.to_primitive_values()` is written
(`derive/src/gen.rs:336-349`). -/
def Decl.setAs {α : Type} (d : Decl) (toPrim : α → List Nat) (m : Mode) (buf : Buf) (k : Nat) (v : α) :
    Res Buf :=
  d.set m buf k (.nums (toPrim v))

end Verif
