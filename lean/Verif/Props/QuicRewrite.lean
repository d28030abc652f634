import Verif.Proofs.QuicRewrite
import Verif.Props.QuicOthers

/-! # Parsing a QUIC datagram again after a field was set -/

namespace Verif.Props
open Spec Spec.Quic

/-- The claim that a datagram is still parsed into the same packets after a field of bytes of the first
packet was set. -/
def C106_statement : Prop := ∀ (m : Mode) (buf new : Buf) (p : QuicPacket) (ps : List QuicPacket) (k : Nat) (f : Field)
    (old bs : Buf), SliceLen buf.length → QuicPacket.new m buf = .ok (some (p :: ps)) →
    p.kind.decl.fields[k]? = some f → f.len.isSome = true → f.name ∈ byteFields →
    p.kind.decl.get m buf k = .ok (bytesOf old) → p.kind.decl.set m buf k (bytesOf bs) = .ok new →
    QuicPacket.new m new = .ok (some (⟨p.kind, new⟩ :: ps))

/-- Two packets; the first has the length 0 and a packet number of one byte. -/
def overlapping : Buf := [0xc0, 0, 0, 0, 1, 0, 0, 0, 0, 0x40, 1, 2, 3, 4, 5, 6, 7, 8, 9]

/-- In a release build the second packet begins with the packet number of the first. -/
theorem C106_false : ¬ C106_statement := by
  intro h
  have := h .release overlapping (overlapping.take 9 ++ 0x80 :: overlapping.drop 10) ⟨.initial, overlapping⟩
    [⟨.oneRtt, overlapping.drop 9⟩] 13 (fbytes "packet_number" (lenPn 4)) [0x40] [0x80] (by unfold SliceLen; decide)
    (by decide +kernel) rfl rfl (by decide) (by decide +kernel) (by decide +kernel)
  have h2 : QuicPacket.new .release (overlapping.take 9 ++ 0x80 :: overlapping.drop 10) = .ok none := by decide +kernel
  rw [h2] at this
  cases this

/-- In a debug build, and for the packet types without `varint(&length) - packet_number.len()` in any
build: after a field of bytes of the first packet was set, the datagram is parsed into a packet of the
same kind and the same packets behind it. -/
theorem C106_packets_partial (m : Mode) (buf new : Buf) (p : QuicPacket) (ps : List QuicPacket)
    (hm : m = .debug ∨ ¬ LongHeader p.kind.decl) (k : Nat) (f : Field) (old bs : Buf) (hsl : SliceLen buf.length)
    (hnew : QuicPacket.new m buf = .ok (some (p :: ps)))
    (hf : p.kind.decl.fields[k]? = some f) (hsome : f.len.isSome = true) (hname : f.name ∈ byteFields)
    (hg : p.kind.decl.get m buf k = .ok (bytesOf old)) (hset : p.kind.decl.set m buf k (bytesOf bs) = .ok new) :
    QuicPacket.new m new = .ok (some (⟨p.kind, new⟩ :: ps)) :=
  packets_again hnew hf hsome (C20_quic _ (.inl ⟨p.kind, rfl⟩) m buf new k f _ hsl hf hsome hset)
    (C105_bytes_partial _ (.inl ⟨p.kind, rfl⟩) m hm buf new k f old bs hsl hf hsome hname hg hset).1

example : QuicPacket.new .debug (initialPacket.take 6 ++ [5, 6] ++ (initialPacket.take 19).drop 8) =
    .ok (some [⟨.initial, initialPacket.take 6 ++ [5, 6] ++ (initialPacket.take 19).drop 8⟩]) :=
  C106_packets_partial .debug (initialPacket.take 19) _ ⟨.initial, initialPacket.take 19⟩ [] (.inl rfl) 7
    (fbytes "dest_id" (lenU8 6)) [1, 2, 3] [5, 6]
    (by unfold SliceLen; decide) (by decide +kernel) rfl rfl (by decide) (by decide +kernel) (by decide +kernel)

/-- Frames, any build: after a field of bytes of the first frame was set, the same frames are found. -/
theorem C106_frames (m : Mode) (buf new : Buf) (x : Frame) (xs : List Frame) (k : Nat) (f : Field) (old bs : Buf)
    (hsl : SliceLen buf.length) (hnew : Frame.new m buf = .ok (some (x :: xs)))
    (hf : x.kind.decl.fields[k]? = some f) (hsome : f.len.isSome = true) (hname : f.name ∈ byteFields)
    (hg : x.kind.decl.get m buf k = .ok (bytesOf old)) (hset : x.kind.decl.set m buf k (bytesOf bs) = .ok new) :
    Frame.new m new = .ok (some (⟨x.kind, new, 0⟩ :: xs)) :=
  frames_again hnew hf hsome (C20_quic _ (.inr ⟨x.kind, rfl⟩) m buf new k f _ hsl hf hsome hset)
    (C105_bytes_partial _ (.inr ⟨x.kind, rfl⟩) m (.inr (frame_not_long x.kind)) buf new k f old bs hsl hf hsome hname hg
      hset).1

example : Frame.new .release [6, 0x40, 5, 1, 9, 1] = .ok (some [⟨.crypto, [6, 0x40, 5, 1, 9, 1], 0⟩, ⟨.ping, [1], 0⟩]) :=
  C106_frames .release [6, 0x40, 5, 1, 7, 1] _ ⟨.crypto, [6, 0x40, 5, 1, 7, 1], 0⟩ _ 3
    (fbytes "crypto_payload" (lenVarint 2)) [7] [9]
    (by unfold SliceLen; decide) (by decide +kernel) rfl rfl (by decide) (by decide +kernel) (by decide +kernel)

/-- Frames, any build: the same after integers of the first frame that no length uses were set to as many
integers with as many bytes. -/
theorem C106_frames_ints (m : Mode) (buf new : Buf) (x : Frame) (xs : List Frame) (k : Nat) (f : Field)
    (old bs : Buf) (c : Nat)
    (hsl : SliceLen buf.length) (hnew : Frame.new m buf = .ok (some (x :: xs)))
    (hf : x.kind.decl.fields[k]? = some f) (hsome : f.len.isSome = true)
    (hname : f.name ∉ byteFields) (hname' : f.name ∉ lengthFields) (hg : x.kind.decl.get m buf k = .ok (bytesOf old))
    (hc : Ints c old) (hc' : Ints c bs) (hlen : bs.length = old.length)
    (hset : x.kind.decl.set m buf k (bytesOf bs) = .ok new) :
    Frame.new m new = .ok (some (⟨x.kind, new, 0⟩ :: xs)) :=
  frames_again hnew hf hsome (C20_quic _ (.inr ⟨x.kind, rfl⟩) m buf new k f _ hsl hf hsome hset)
    (C105_ints_partial _ (.inr ⟨x.kind, rfl⟩) m (.inr (frame_not_long x.kind)) buf new k f old bs c hsl hf hsome
      hname hname' hg hc hc' hlen hset).1

example := C106_frames_ints .debug [6, 0x40, 5, 1, 7, 1] [6, 0x41, 2, 1, 7, 1]
  ⟨.crypto, [6, 0x40, 5, 1, 7, 1], 0⟩ [⟨.ping, [1], 0⟩] 1 (fbytes "offset" lenVarintLength) [0x40, 5] [0x41, 2] 1
  (by unfold SliceLen; decide) (by decide +kernel) rfl rfl (by decide) (by decide)
  (by decide +kernel)
  ⟨[[0x40, 5]], rfl, by simpa using ⟨5, by unfold Varint; decide⟩, rfl⟩
  ⟨[[0x41, 2]], rfl, by simpa using ⟨258, by unfold Varint; decide⟩, rfl⟩ rfl (by decide +kernel)

end Verif.Props
