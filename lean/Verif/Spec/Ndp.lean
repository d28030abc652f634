import Verif.Model.Derive

/-! # Options of neighbour discovery messages (RFC 4861, section 4.6) -/

namespace Verif.Spec

/-- An option: type, length (in units of 8 bytes, the two bytes of type and length included) and
data. -/
structure NdpOpt where
  ty : UInt8
  length : UInt8
  data : Buf
deriving DecidableEq

/-- Size of the data of an option of this length. Lengths count modulo 32: 256 bytes are as good as
none. -/
def NdpOpt.room (length : UInt8) : Nat := 8 * (length.toNat % 32) - 2

/-- An option's bytes. -/
def NdpOpt.bytes (o : NdpOpt) : Buf := o.ty :: o.length :: o.data

/-- An option as a struct value: type, length, data. -/
def NdpOpt.val (o : NdpOpt) : Val :=
  .list [.nums [o.ty.toNat], .num o.length.toNat, .nums (o.data.map (·.toNat))]

/-- May the length of the option be looked at? In debug builds a length of 32 or more panics. -/
def NdpOpt.legible (m : Mode) (o : NdpOpt) : Prop := m = .debug → o.length.toNat < 32

/-- A legible option with all of its data. -/
def NdpOpt.whole (m : Mode) (o : NdpOpt) : Prop := o.legible m ∧ o.data.length = NdpOpt.room o.length

/-- Bytes and the options in them, one after the other. The data of the last one may be cut short; a
single byte after the last one is ignored. -/
inductive NdpOptions (m : Mode) : Buf → List NdpOpt → Prop
  | stop {bs : Buf} : bs.length < 2 → NdpOptions m bs []
  | option {o : NdpOpt} {rest : Buf} {os : List NdpOpt} : o.whole m → NdpOptions m rest os →
      NdpOptions m (o.bytes ++ rest) (o :: os)
  | cut {o : NdpOpt} : o.legible m → o.data.length < NdpOpt.room o.length → NdpOptions m o.bytes [o]

end Verif.Spec
