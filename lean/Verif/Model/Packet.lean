import Verif.Model.Derive

/-!
# Packet storage

Model of `core/src/packet.rs` and of the wrapper structs of `derive/src/gen.rs:25-41`.
-/

namespace Verif

/-- `PacketData` (`core/src/packet.rs:82-89`). -/
inductive PacketData where
  | owned (data : Buf)
  | borrowed (data : Buf)
  deriving DecidableEq, Repr

/-- `PacketData::as_slice` (`core/src/packet.rs:92-98`). -/
def PacketData.asSlice : PacketData → Buf
  | .owned d => d
  | .borrowed d => d

/-- `MutPacketData` (`core/src/packet.rs:117-124`). -/
inductive MutPacketData where
  | owned (data : Buf)
  | borrowed (data : Buf)
  deriving DecidableEq, Repr

/-- `MutPacketData::as_slice` (`core/src/packet.rs:127-133`). -/
def MutPacketData.asSlice : MutPacketData → Buf
  | .owned d => d
  | .borrowed d => d

/-- `MutPacketData::to_immutable` (`core/src/packet.rs:143-149`). -/
def MutPacketData.toImmutable : MutPacketData → PacketData
  | .owned d => .owned d
  | .borrowed d => .borrowed d

/-- `PacketData::to_immutable` (`core/src/packet.rs:100-103`). -/
def PacketData.toImmutable (p : PacketData) : PacketData := p

/-- `derive(PartialEq)` on `PacketData` (`core/src/packet.rs:83`): the variants must agree, then
the contents are compared. -/
def PacketData.eq : PacketData → PacketData → Bool
  | .owned a, .owned b => a == b
  | .borrowed a, .borrowed b => a == b
  | _, _ => false

/-- `derive(PartialEq)` on `MutPacketData` (`core/src/packet.rs:118`). -/
def MutPacketData.eq : MutPacketData → MutPacketData → Bool
  | .owned a, .owned b => a == b
  | .borrowed a, .borrowed b => a == b
  | _, _ => false

/-- `XPacket::new(&[u8])` (`gen.rs:410-417`). -/
def Decl.newPacket (d : Decl) (buf : Buf) : Option PacketData :=
  if buf.length ≥ d.minSize then some (.borrowed buf) else none

/-- `XPacket::owned(Vec<u8>)` (`gen.rs:422-429`). -/
def Decl.ownedPacket (d : Decl) (buf : Buf) : Option PacketData :=
  if buf.length ≥ d.minSize then some (.owned buf) else none

/-- `MutableXPacket::new(&mut [u8])` (`gen.rs:410-417`). -/
def Decl.newMutPacket (d : Decl) (buf : Buf) : Option MutPacketData :=
  if buf.length ≥ d.minSize then some (.borrowed buf) else none

/-- `MutableXPacket::owned(Vec<u8>)` (`gen.rs:422-429`). -/
def Decl.ownedMutPacket (d : Decl) (buf : Buf) : Option MutPacketData :=
  if buf.length ≥ d.minSize then some (.owned buf) else none

/-- `MutableXPacket::to_immutable(&self)` (`gen.rs:433-436`): borrows the same bytes. -/
def mutToImmutable (p : MutPacketData) : PacketData := .borrowed p.asSlice

/-- `MutableXPacket::consume_to_immutable(self)` (`gen.rs:440-442`). -/
def mutConsumeToImmutable (p : MutPacketData) : PacketData := p.toImmutable

/-- `XPacket::to_immutable(&self)`. -/
def pktToImmutable (p : PacketData) : PacketData := .borrowed p.asSlice

/-- `XPacket::consume_to_immutable(self)`. -/
def pktConsumeToImmutable (p : PacketData) : PacketData := p.toImmutable

/-- `MutablePacket::clone_from` (`core/src/packet.rs:31-42`): assertion, then
`ptr::copy_nonoverlapping` of `other.len()` bytes to the start of `self`. -/
def cloneFrom (self other : Buf) : Res Buf :=
  if self.length ≥ other.length then .ok (other ++ self.drop other.length) else panic

end Verif
