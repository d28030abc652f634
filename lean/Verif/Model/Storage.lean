import Verif.Model.Packet

/-!
# Indexing of packet storage

Model of the `Index` and `IndexMut` implementations of `PacketData` and `MutPacketData` and of their
`len` (`core/src/packet.rs:61-81,106-116,152-168`).

A `&mut` to a part of the storage is modelled by what its holder can do with it: replace the bytes
of that part by other bytes, as many as there are.
-/

namespace Verif

/-- The ranges the storage can be indexed with: `Range`, `RangeTo`, `RangeFrom` and `RangeFull` of
`usize` (`core/src/packet.rs:113-116,159-162,165-168`). -/
inductive Span where
  | range (a b : Nat)
  | to (b : Nat)
  | from (a : Nat)
  | full
  deriving DecidableEq, Repr

/-- `<[u8] as Index<R>>::index` of the standard library: `a..b` is in `slice`, `..b` is `0..b`, and
`..` is the slice itself. -/
def sliceSpan (buf : Buf) : Span → Res Buf
  | .range a b => slice buf a b
  | .to b => slice buf 0 b
  | .from a => sliceFrom buf a
  | .full => .ok buf

/-- Replacing the bytes behind `<[u8] as IndexMut<R>>::index_mut`. The new bytes are as many as the
range has; the function stops if they are not, since no holder of the reference can do this. -/
def setSpan (buf : Buf) (r : Span) (new : Buf) : Res Buf := do
  let old ← sliceSpan buf r
  if old.length = new.length then
    match r with
    | .range a _ => copyInto buf a new
    | .to _ => copyInto buf 0 new
    | .from a => copyInto buf a new
    | .full => .ok new
  else panic

/-- `PacketData::len` (`core/src/packet.rs:106-109`). -/
def PacketData.len (p : PacketData) : Nat := p.asSlice.length

/-- `MutPacketData::len` (`core/src/packet.rs:152-155`). -/
def MutPacketData.len (p : MutPacketData) : Nat := p.asSlice.length

/-- `Index<usize> for PacketData` (`core/src/packet.rs:61-71,112`). -/
def PacketData.indexAt (p : PacketData) (i : Nat) : Res UInt8 := index p.asSlice i

/-- `Index<R> for PacketData` for the ranges (`core/src/packet.rs:61-71,113-116`). -/
def PacketData.indexSpan (p : PacketData) (r : Span) : Res Buf := sliceSpan p.asSlice r

/-- `Index<usize> for MutPacketData` (`core/src/packet.rs:61-71,158`). -/
def MutPacketData.indexAt (p : MutPacketData) (i : Nat) : Res UInt8 := index p.asSlice i

/-- `Index<R> for MutPacketData` for the ranges (`core/src/packet.rs:61-71,159-162`). -/
def MutPacketData.indexSpan (p : MutPacketData) (r : Span) : Res Buf := sliceSpan p.asSlice r

/-- Writing through `as_mut_slice` (`core/src/packet.rs:136-142`): the bytes `new` take the place of
the old ones; the storage stays owned or borrowed. -/
def MutPacketData.withSlice (p : MutPacketData) (new : Buf) : MutPacketData :=
  match p with
  | .owned _ => .owned new
  | .borrowed _ => .borrowed new

/-- `p[i] = b` through `IndexMut<usize> for MutPacketData` (`core/src/packet.rs:73-81,164`). -/
def MutPacketData.setAt (p : MutPacketData) (i : Nat) (b : UInt8) : Res MutPacketData := do
  let s ← setIndex p.asSlice i b
  return p.withSlice s

/-- `p[r].copy_from_slice(new)` through `IndexMut<R> for MutPacketData`
(`core/src/packet.rs:73-81,165-168`). -/
def MutPacketData.setSpan (p : MutPacketData) (r : Span) (new : Buf) : Res MutPacketData := do
  let s ← Verif.setSpan p.asSlice r new
  return p.withSlice s

end Verif
