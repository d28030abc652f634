import Verif.Model.Basic

/-!
# Specification: a buffer as a sequence of bits

Written independently of the code under study. Bit 0 of a buffer is the most significant bit of
its first byte (network order), as in all RFC header diagrams.
-/

namespace Verif.Spec

/-- The eight bits of a byte, most significant first. -/
def byteBits (b : UInt8) : List Bool :=
  (List.range 8).map fun i => b.toNat.testBit (7 - i)

/-- All bits of a buffer in network order. -/
def bitsOf (buf : Buf) : List Bool := buf.flatMap byteBits

/-- The number written in binary by a list of digits, most significant first. -/
def ofBits (l : List Bool) : Nat := l.foldl (fun a b => 2 * a + b.toNat) 0

/-- The lowest `n` binary digits of `v`, most significant first. -/
def toBits (n v : Nat) : List Bool :=
  (List.range n).map fun i => v.testBit (n - 1 - i)

/-- Digits `start .. start + n` of a bit list. -/
def bitSlice (l : List Bool) (start n : Nat) : List Bool := (l.drop start).take n

/-- A big-endian number from bytes. -/
def beNat (bytes : Buf) : Nat := bytes.foldl (fun a b => 256 * a + b.toNat) 0

/-- A little-endian number from bytes. -/
def leNat (bytes : Buf) : Nat := beNat bytes.reverse

/-- The field's bits lie inside the buffer. -/
abbrev InBuffer (buf : Buf) (co start width : Nat) : Prop :=
  8 * co + start + width ≤ 8 * buf.length

end Verif.Spec
