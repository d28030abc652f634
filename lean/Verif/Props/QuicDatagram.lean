import Verif.Spec.QuicDatagram
import Verif.Props.QuicSend

/-!
# C132: whole QUIC datagrams written with the crate are read again

The sender, `writeDatagram`, is in `Spec/QuicDatagram`.
-/

set_option autoImplicit false

namespace Verif.Props
open Spec Spec.Quic

theorem frames_found (m : Mode) {fs : List SentFrame} (h : Sendable fs) (hsl : SliceLen (wire fs).length) :
    FramesFound m fs (wire fs) :=
  ⟨rfl, (C131_frames m fs h hsl).1⟩

theorem sentpacket_wire (p : SentPacket) : ∃ front, p.bytes = front ++ wire p.frames := by
  cases p <;> exact ⟨_, rfl⟩

theorem sentpacket_sendable {p : SentPacket} (h : p.Valid) : Sendable p.frames := by
  cases p with
  | initial => exact h.2.2.2.2.2
  | zeroRtt => exact h.2.2.2.2
  | handshake => exact h.2.2.2.2

theorem sentpacket_wire_len {p : SentPacket} {rest : Buf} (hsl : SliceLen (p.bytes ++ rest).length) :
    SliceLen (wire p.frames).length := by
  obtain ⟨front, h⟩ := sentpacket_wire p
  rw [h] at hsl
  simp only [List.length_append] at hsl
  unfold SliceLen at *; omega

theorem not_all_one {fs : List SentFrame} (h : ¬ ∀ f ∈ fs, OneByteInts f.fields) : ∃ f ∈ fs, ¬ OneByteInts f.fields := by
  refine Classical.byContradiction fun hc => h fun f hf => Classical.byContradiction fun hn => hc ⟨f, hf, hn⟩

theorem write_initial (m : Mode) (reserved version : Nat) (dcid scid tokenLen token length pn : Buf) (fs : List SentFrame)
    (rest : Buf) : (SentPacket.initial reserved version dcid scid tokenLen token length pn fs).write m rest =
      writeFrames m fs >>= fun payload => initial.populate m
        (zeroes ((SentPacket.initial reserved version dcid scid tokenLen token length pn fs).bytes ++ rest).length)
        (initialStruct reserved version dcid scid tokenLen token length pn payload rest) := rfl

theorem write_zeroRtt (m : Mode) (reserved version : Nat) (dcid scid length pn : Buf) (fs : List SentFrame)
    (rest : Buf) : (SentPacket.zeroRtt reserved version dcid scid length pn fs).write m rest =
      writeFrames m fs >>= fun payload => zeroRtt.populate m
        (zeroes ((SentPacket.zeroRtt reserved version dcid scid length pn fs).bytes ++ rest).length)
        (plainStruct 1 reserved version dcid scid length pn payload rest) := rfl

theorem write_handshake (m : Mode) (reserved version : Nat) (dcid scid length pn : Buf) (fs : List SentFrame)
    (rest : Buf) : (SentPacket.handshake reserved version dcid scid length pn fs).write m rest =
      writeFrames m fs >>= fun payload => handshake.populate m
        (zeroes ((SentPacket.handshake reserved version dcid scid length pn fs).bytes ++ rest).length)
        (plainStruct 2 reserved version dcid scid length pn payload rest) := rfl

/-- What writing one packet before others does. -/
theorem sentpacket_write (m : Mode) (p : SentPacket) (rest : Buf) (h : p.Valid) (hsl : SliceLen (p.bytes ++ rest).length) :
    (p.OneByte → p.write m rest = .ok (p.bytes ++ rest)) ∧ (¬ p.OneByte → p.write m rest = panic) := by
  have hslw := sentpacket_wire_len hsl
  obtain ⟨w1, w2⟩ := C131_write m p.frames (sentpacket_sendable h) hslw
  by_cases hone : ∀ f ∈ p.frames, OneByteInts f.fields
  · have hw := w1 hone
    clear w1 w2
    cases p with
    | initial reserved version dcid scid tokenLen token length pn fs =>
      obtain ⟨hh, hpn, hres, hvt, hv, -⟩ := h
      rw [write_initial, show writeFrames m fs = .ok (wire fs) from hw, ok_bind, (C50_initial_partial m reserved version dcid
        scid tokenLen token length pn (wire fs) rest
        ((SentPacket.initial reserved version dcid scid tokenLen token length pn fs).bytes ++ rest) hh hpn hres hvt hv rfl hsl).1]
      exact ⟨fun h => if_pos h.2, fun h => if_neg fun hc => h ⟨hone, hc⟩⟩
    | zeroRtt reserved version dcid scid length pn fs =>
      obtain ⟨hh, hpn, hres, hv, -⟩ := h
      rw [write_zeroRtt, show writeFrames m fs = .ok (wire fs) from hw, ok_bind, (C50_zero_rtt_partial m reserved version dcid
        scid length pn (wire fs) rest
        ((SentPacket.zeroRtt reserved version dcid scid length pn fs).bytes ++ rest) hh hpn hres hv rfl hsl).1]
      exact ⟨fun h => if_pos h.2, fun h => if_neg fun hc => h ⟨hone, hc⟩⟩
    | handshake reserved version dcid scid length pn fs =>
      obtain ⟨hh, hpn, hres, hv, -⟩ := h
      rw [write_handshake, show writeFrames m fs = .ok (wire fs) from hw, ok_bind, (C50_handshake_partial m reserved version dcid
        scid length pn (wire fs) rest
        ((SentPacket.handshake reserved version dcid scid length pn fs).bytes ++ rest) hh hpn hres hv rfl hsl).1]
      exact ⟨fun h => if_pos h.2, fun h => if_neg fun hc => h ⟨hone, hc⟩⟩
  · have hw := w2 (not_all_one hone)
    refine ⟨fun h => (hone h.1).elim, fun _ => ?_⟩
    unfold SentPacket.write
    rw [hw]; rfl

theorem write_oneRtt (m : Mode) (spin reserved key : Nat) (dcid pn : Buf) (fs : List SentFrame) :
    (SentLast.oneRtt spin reserved key dcid pn fs).write m = writeFrames m fs >>= fun payload =>
      oneRtt.populate m (zeroes (SentLast.oneRtt spin reserved key dcid pn fs).bytes.length)
        (oneRttStruct spin reserved key dcid pn payload) := rfl

theorem sentlast_write (m : Mode) (last : SentLast) (h : last.Valid) (hsl : SliceLen last.bytes.length) :
    (last.OneByte → last.write m = .ok last.bytes) ∧ (¬ last.OneByte → last.write m = panic) := by
  cases last with
  | nothing => exact ⟨fun _ => rfl, fun h => (h trivial).elim⟩
  | oneRtt spin reserved key dcid pn fs =>
    obtain ⟨hd, hpn, h1, h2, h3, hfs⟩ := h
    have hslw : SliceLen (wire fs).length := by
      simp only [SentLast.bytes, List.length_append] at hsl
      unfold SliceLen at *; omega
    obtain ⟨w1, w2⟩ := C131_write m fs hfs hslw
    have hp := (C50_one_rtt m spin reserved key dcid pn (wire fs) (SentLast.oneRtt spin reserved key dcid pn fs).bytes hd hpn h1
      h2 h3 rfl hsl).1
    refine ⟨fun hone => ?_, fun hone => ?_⟩
    · rw [write_oneRtt, w1 hone, ok_bind, hp]
    · rw [write_oneRtt, w2 (not_all_one hone)]; rfl
  | retry unused version dcid scid token =>
    exact ⟨fun _ => (C50_retry m unused version dcid scid token _ h.1 h.2 rfl hsl).1, fun h => (h trivial).elim⟩
  | versionNegotiation unused dcid scid versions =>
    exact ⟨fun _ => (C50_version_negotiation m unused dcid scid versions _ h.1 h.2.1 h.2.2 rfl hsl).1,
      fun h => (h trivial).elim⟩

/-- **C132** Writing a datagram gives the bytes of its packets one after the other if all variable-length
integers take one byte, and panics otherwise. -/
theorem C132_write (m : Mode) (ps : List SentPacket) (last : SentLast) (hps : ∀ p ∈ ps, p.Valid) (hl : last.Valid)
    (hsl : SliceLen (datagram ps last).length) :
    ((∀ p ∈ ps, p.OneByte) ∧ last.OneByte → writeDatagram m ps last = .ok (datagram ps last)) ∧
    (¬ ((∀ p ∈ ps, p.OneByte) ∧ last.OneByte) → writeDatagram m ps last = panic) := by
  induction ps with
  | nil =>
    have hd : datagram [] last = last.bytes := rfl
    rw [hd] at hsl ⊢
    obtain ⟨h1, h2⟩ := sentlast_write m last hl hsl
    exact ⟨fun h => h1 h.2, fun h => h2 fun hc => h ⟨by simp, hc⟩⟩
  | cons p ps ih =>
    have hd : datagram (p :: ps) last = p.bytes ++ datagram ps last := by
      simp only [datagram, List.flatMap_cons, List.append_assoc]
    rw [hd] at hsl ⊢
    have hslr : SliceLen (datagram ps last).length := by
      rw [List.length_append] at hsl; unfold SliceLen at *; omega
    obtain ⟨i1, i2⟩ := ih (fun q hq => hps q (List.mem_cons_of_mem _ hq)) hslr
    obtain ⟨p1, p2⟩ := sentpacket_write m p (datagram ps last) (hps p List.mem_cons_self) hsl
    refine ⟨fun h => ?_, fun h => ?_⟩
    · rw [writeDatagram, i1 ⟨fun q hq => h.1 q (List.mem_cons_of_mem _ hq), h.2⟩, ok_bind]
      exact p1 (h.1 p List.mem_cons_self)
    · by_cases hr : (∀ q ∈ ps, q.OneByte) ∧ last.OneByte
      · rw [writeDatagram, i1 hr, ok_bind]
        refine p2 fun hc => h ⟨fun q hq => ?_, hr.2⟩
        rcases List.mem_cons.mp hq with rfl | hq
        · exact hc
        · exact hr.1 q hq
      · rw [writeDatagram, i2 hr]; rfl

/-- What is found of a packet before others. -/
theorem sentpacket_found (m : Mode) (p : SentPacket) (rest : Buf) (h : p.Valid) (hsl : SliceLen (p.bytes ++ rest).length) :
    ∃ q, q.packet = p.bytes ++ rest ∧ p.Arrives m q ∧
      QuicPacket.new m (p.bytes ++ rest) = after [q] (QuicPacket.new m rest) := by
  have hfound := frames_found m (sentpacket_sendable h) (sentpacket_wire_len hsl)
  cases p with
  | initial reserved version dcid scid tokenLen token length pn fs =>
    obtain ⟨hh, hpn, hres, hvt, hv, -⟩ := h
    obtain ⟨s1, s2⟩ := sent_long m (LongEnc.initial (reserved := reserved) hh hpn hres hvt hv) rest hsl
    exact ⟨⟨.initial, _⟩, rfl, ⟨rfl, _, hfound, s2⟩, s1⟩
  | zeroRtt reserved version dcid scid length pn fs =>
    obtain ⟨hh, hpn, hres, hv, -⟩ := h
    obtain ⟨s1, s2⟩ := sent_long m (LongEnc.zeroRtt (reserved := reserved) hh hpn hres hv) rest hsl
    exact ⟨⟨.zeroRtt, _⟩, rfl, ⟨rfl, _, hfound, s2⟩, s1⟩
  | handshake reserved version dcid scid length pn fs =>
    obtain ⟨hh, hpn, hres, hv, -⟩ := h
    obtain ⟨s1, s2⟩ := sent_long m (LongEnc.handshake (reserved := reserved) hh hpn hres hv) rest hsl
    exact ⟨⟨.handshake, _⟩, rfl, ⟨rfl, _, hfound, s2⟩, s1⟩

/-- **C132** Reading the bytes of a datagram finds all its packets, in their order, with all their fields and
frames. -/
theorem C132_read (m : Mode) (ps : List SentPacket) (last : SentLast) (hps : ∀ p ∈ ps, p.Valid) (hl : last.Valid)
    (hsl : SliceLen (datagram ps last).length) :
    ∃ qs, QuicPacket.new m (datagram ps last) = .ok (some qs) ∧ AllArrive m last ps qs := by
  induction ps with
  | nil =>
    cases last with
    | nothing => exact ⟨[], new_nil m, rfl, by simp⟩
    | oneRtt spin reserved key dcid pn fs =>
      obtain ⟨hd, hpn, h1, h2, h3, hfs⟩ := hl
      have hslw : SliceLen (wire fs).length := by
        simp only [datagram, SentLast.bytes, List.length_append] at hsl
        unfold SliceLen at *; omega
      obtain ⟨s1, s2⟩ := new_last m (LastEnc.oneRtt (frames := wire fs) (flags := 8 * spin + 2 * reserved + key) hd hpn
        (by omega)) hsl
      refine ⟨_, s1, ⟨_, rfl, rfl, _, frames_found m hfs hslw, s2⟩, ?_⟩
      intro q hq
      rw [List.mem_singleton.mp hq]; rfl
    | retry unused version dcid scid token =>
      obtain ⟨s1, s2⟩ := new_last m (LastEnc.retry (token := token) hl.1 hl.2) hsl
      refine ⟨_, s1, ⟨_, rfl, rfl, s2⟩, ?_⟩
      intro q hq
      rw [List.mem_singleton.mp hq]; rfl
    | versionNegotiation unused dcid scid versions =>
      obtain ⟨s1, s2⟩ := new_last m (LastEnc.versionNegotiation (versions := versions) hl.1 hl.2.1 hl.2.2) hsl
      refine ⟨_, s1, ⟨_, rfl, rfl, s2⟩, ?_⟩
      intro q hq
      rw [List.mem_singleton.mp hq]; rfl
  | cons p ps ih =>
    have hd : datagram (p :: ps) last = p.bytes ++ datagram ps last := by
      simp only [datagram, List.flatMap_cons, List.append_assoc]
    rw [hd] at hsl ⊢
    have hslr : SliceLen (datagram ps last).length := by
      rw [List.length_append] at hsl; unfold SliceLen at *; omega
    obtain ⟨qs, hq, ha⟩ := ih (fun q hq => hps q (List.mem_cons_of_mem _ hq)) hslr
    obtain ⟨q, b1, b2, b3⟩ := sentpacket_found m p _ (hps p List.mem_cons_self) hsl
    refine ⟨q :: qs, ?_, b2, by rw [b1, hd], ha⟩
    rw [b3, hq]; rfl

/-- An Initial packet with STREAM and PING frames. -/
def sentInitial : SentPacket := .initial 0 1 [7, 8] [9] [1] [0xAA] [9] [0x12, 0x34] sentFrames

theorem sentInitial_valid : sentInitial.Valid :=
  ⟨by unfold HeaderOk; decide, by unfold PnOk; decide, by decide, ⟨0, by decide, by decide, by decide, by decide⟩,
    ⟨0, by decide, by decide, by decide, by decide⟩, sentFrames_ok⟩

/-- A Handshake packet without frames whose Length takes `length`. -/
def sentHandshake (length : Buf) : SentPacket := .handshake 0 1 [7, 8] [9] length [5] []

theorem sentHandshake_valid {length : Buf} (h : Varint length 1) : (sentHandshake length).Valid :=
  ⟨by unfold HeaderOk; decide, by unfold PnOk; decide, by decide, h, trivial⟩

/-- A 1-RTT packet with the same frames as the Initial packet. -/
def sentOneRtt : SentLast := .oneRtt 1 0 1 [1, 2, 3, 4, 5, 6, 7, 8] [0x12] sentFrames

theorem sentOneRtt_valid : sentOneRtt.Valid :=
  ⟨rfl, by unfold PnOk; decide, by decide, by decide, by decide, sentFrames_ok⟩

theorem sent_valid {length : Buf} (h : Varint length 1) : ∀ p ∈ [sentInitial, sentHandshake length], p.Valid := by
  intro p hp
  rcases List.mem_cons.mp hp with rfl | hp
  · exact sentInitial_valid
  · rw [List.mem_singleton.mp hp]; exact sentHandshake_valid h

/-- Three packets in a datagram. -/
example : writeDatagram .debug [sentInitial, sentHandshake [1]] sentOneRtt =
    .ok (datagram [sentInitial, sentHandshake [1]] sentOneRtt) := by
  refine (C132_write .debug [sentInitial, sentHandshake [1]] sentOneRtt
    (sent_valid ⟨0, by decide, by decide, by decide, by decide⟩) sentOneRtt_valid (by unfold SliceLen; decide)).1 ⟨?_, sentFrames_one⟩
  intro p hp
  rcases List.mem_cons.mp hp with rfl | hp
  · exact ⟨sentFrames_one, rfl, rfl⟩
  · rw [List.mem_singleton.mp hp]; exact ⟨by simp [sentHandshake, SentPacket.frames], rfl⟩

/-- A Length of two bytes in the second packet. -/
example : writeDatagram .release [sentInitial, sentHandshake [0x40, 1]] sentOneRtt = panic := by
  refine (C132_write .release [sentInitial, sentHandshake [0x40, 1]] sentOneRtt
    (sent_valid ⟨1, by decide, by decide, by decide, by decide⟩) sentOneRtt_valid (by unfold SliceLen; decide)).2 fun h => ?_
  have : ([0x40, 1] : Buf).length = 1 := (h.1 (sentHandshake [0x40, 1]) (by simp)).2
  exact absurd this (by decide)

example := C132_read .release [sentInitial, sentHandshake [0x40, 1]] sentOneRtt
  (sent_valid ⟨1, by decide, by decide, by decide, by decide⟩) sentOneRtt_valid (by unfold SliceLen; decide)

/-- A Retry packet. -/
example : (SentLast.retry 3 1 [7, 8] [9] [1, 2, 3]).Valid := ⟨by unfold HeaderOk; decide, by decide⟩

/-- A Version Negotiation packet. -/
example : (SentLast.versionNegotiation 3 [7, 8] [9] [0, 0, 0, 1]).Valid := ⟨by decide, by decide, by decide⟩

end Verif.Props
