import Verif.Props.Vectors
import Verif.Proofs.QuicIter

/-!
# Iterating over QUIC packet and frame types (C15)

The types the derive macro generates from `src/quic.rs` have iterators of their own, beside
`QuicPacket::new` and `Frame::new`.
-/

namespace Verif.Props
open Verif Verif.Spec

theorem ends_of_pos {d : Decl} {m : Mode} (hs : endFields m d.fields) {buf : Buf}
    (hp : ∀ b n, b.length ≤ buf.length → d.minSize ≤ b.length → d.packetSize m b = .ok n → 0 < n) :
    d.codec.items m buf.length buf ≠ .error .hang ∧
    (∀ ps, d.codec.items m buf.length buf = .ok ps → ps.length ≤ buf.length) ∧
    (∀ p rest, d.codec.next m buf = .ok (some (p, rest)) → p = buf ∧ rest.length < buf.length) := by
  refine ⟨items_not_hang_len (c := d.codec) hp (packetSize_NH hs) _ _ (Nat.le_refl _),
    fun ps h => items_length _ _ _ h, ?_⟩
  intro p rest h
  rw [next_eq] at h
  split at h
  · rename_i hc
    obtain ⟨n, hn, he⟩ := map_eq_ok h
    simp only [Option.some.injEq, Prod.mk.injEq] at he
    obtain ⟨rfl, rfl⟩ := he
    have := hp _ n (Nat.le_refl _) (by have : d.codec.minSize = d.minSize := rfl; omega) hn
    exact ⟨rfl, by rw [List.length_drop]; omega⟩
  · cases h

/-- **C15** for the six QUIC packet types, in both build modes: also where a `Length` smaller than the
packet number makes the size of the frames wrap around (release builds). -/
theorem C15_quic_packets (k : QuicKind) (m : Mode) (buf : Buf) (hsl : SliceLen buf.length) :
    k.decl.codec.items m buf.length buf ≠ .error .hang ∧
    (∀ ps, k.decl.codec.items m buf.length buf = .ok ps → ps.length ≤ buf.length) ∧
    (∀ p rest, k.decl.codec.next m buf = .ok (some (p, rest)) → p = buf ∧ rest.length < buf.length) :=
  ends_of_pos (quic_endFields k m) fun _ _ hb hmin h =>
    quic_pos k m (by unfold SliceLen at *; omega) hmin h

/-- A Handshake packet with a one-byte packet number and a `Length` of 0, followed by two more bytes: the
frames take -1 bytes, in release builds, and the packet takes 8 bytes, not 0. -/
example : handshake.packetSize .debug [0xE0, 0, 0, 0, 1, 0, 0, 0, 9, 9] = panic ∧
    handshake.packetSize .release [0xE0, 0, 0, 0, 1, 0, 0, 0, 9, 9] = .ok 8 ∧
    handshake.codec.next .release [0xE0, 0, 0, 0, 1, 0, 0, 0, 9, 9] =
      .ok (some ([0xE0, 0, 0, 0, 1, 0, 0, 0, 9, 9], [9, 9])) := by decide +kernel

example := C15_quic_packets .handshake .release [0xE0, 0, 0, 0, 1, 0, 0, 0, 9, 9] (by unfold SliceLen; decide)

/-- **C15** for the QUIC frame types, in both build modes. -/
theorem C15_quic_frames (k : FrameKind) (m : Mode) (buf : Buf) (hsl : SliceLen buf.length) :
    k.decl.codec.items m buf.length buf ≠ .error .hang ∧
    (∀ ps, k.decl.codec.items m buf.length buf = .ok ps → ps.length ≤ buf.length) ∧
    (∀ p rest, k.decl.codec.next m buf = .ok (some (p, rest)) → p = buf ∧ rest.length < buf.length) :=
  ends_of_pos (frame_endFields k m) fun _ _ hb _ h => frame_pos k m (by unfold SliceLen at *; omega) h

/-- Three MAX_DATA frames in a row. -/
example : (frameOneVarint "max_data").codec.items .debug 6 [0x10, 7, 0x10, 0x40, 9, 0x10, 1] =
    .ok [[0x10, 7, 0x10, 0x40, 9, 0x10, 1], [0x10, 0x40, 9, 0x10, 1], [0x10, 1]] := by decide +kernel

example := C15_quic_frames .maxData .debug [0x10, 7, 0x10, 0x40, 9, 0x10, 1] (by unfold SliceLen; decide)

theorem getters_end {d : Decl} {m : Mode} (hs : endFields m d.fields) (buf : Buf) :
    (∀ k, d.get m buf k ≠ .error .hang) ∧ d.fromPacket m buf ≠ .error .hang ∧
      d.packetSize m buf ≠ .error .hang := by
  refine ⟨fun k => ?_, ?_, packetSize_NH hs buf⟩
  · rw [Decl.get]
    cases hf : d.fields[k]? with
    | none => exact NH.panic
    | some f =>
      have hr := (run_NH (m := m) (buf := buf) (d.fields.take k)
        (fun g hg' => hs g (List.mem_of_mem_take hg')) .init (by simp [St.init])
        (by simp [St.init]))
      have hr' : ∀ l ∈ (d.before m buf k).lens, NH l := hr.1
      refine getField_NH hr' ?_ ((hs f (List.mem_of_getElem? hf)).2)
      unfold fieldLen
      cases he : f.len with
      | none => exact NH.ok _
      | some e =>
        refine (hs f (List.mem_of_getElem? hf)).1 e he _ _ _ ?_
          ((curOff_NH hr').bind fun _ _ => sliceFrom_NH _ _)
        intro i
        rw [St.get]
        cases hi : (d.before m buf k).vals[i]? with
        | none => exact NH.panic
        | some x => exact hr.2 x (List.mem_of_getElem? hi)
  · exact (mapM_id_NH _ (run_NH d.fields hs .init (by simp [St.init]) (by simp [St.init])).2).map

/-- **C15**: no getter, no `from_packet` and no `packet_size` of a QUIC packet or frame type runs
forever. -/
theorem C15_quic_getters_end (d : Decl) (hd : (∃ k : QuicKind, d = k.decl) ∨ ∃ k : FrameKind, d = k.decl)
    (m : Mode) (buf : Buf) :
    (∀ k, d.get m buf k ≠ .error .hang) ∧ d.fromPacket m buf ≠ .error .hang ∧
      d.packetSize m buf ≠ .error .hang := by
  rcases hd with ⟨k, rfl⟩ | ⟨k, rfl⟩
  · exact getters_end (quic_endFields k m) buf
  · exact getters_end (frame_endFields k m) buf

example := C15_quic_getters_end frameAck (.inr ⟨.ack, rfl⟩) .release [2, 0xC0]

end Verif.Props
