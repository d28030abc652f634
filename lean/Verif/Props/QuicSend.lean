import Verif.Spec.QuicSend
import Verif.Spec.Coalesced
import Verif.Proofs.JoinedFrames
import Verif.Props.QuicFramePopulate
import Verif.Props.QuicPackets

/-!
# C131: QUIC packets and frames that are written with the crate are found again

The sender, `writeFrames`, is in `Spec/QuicSend`, `after` in `Spec/Coalesced`.
-/

set_option autoImplicit false

namespace Verif.Props
open Spec Spec.Quic

theorem parts_of_fields {ty : UInt8} {body : Buf} {fields : List (String × Val)} (h : Fields 1 ty.toNat body fields) :
    ∃ parts, frameParts ty.toNat = some parts ∧ PartsEnc 1 parts body := by
  obtain ⟨k, hk, -, hs⟩ := fields_ok h
  rcases frame_agree ty.toNat with ⟨h1, -⟩ | ⟨k', parts, h1, h2, hag⟩
  · rw [hk] at h1; cases h1
  · rw [hk] at h1; cases h1
    refine ⟨parts, h2, ?_⟩
    obtain ⟨⟨body', hb, he⟩, -⟩ := (hag .debug (body ++ []) []).mp ⟨_, hs .debug [] (fun _ => rfl)⟩
    rw [List.append_nil, List.append_nil] at he
    rw [he]; exact hb

theorem lookup_of_fields {ty : UInt8} {body : Buf} {fields : List (String × Val)} (h : Fields 1 ty.toNat body fields) :
    ∃ k, variants.lookup ty.toNat = some k := by
  obtain ⟨k, hk, -⟩ := fields_ok h
  exact ⟨k, by rw [variants_ofType]; exact hk⟩

theorem wire_cons (f : SentFrame) (fs : List SentFrame) : wire (f :: fs) = f.ty :: (f.body ++ wire fs) := rfl

theorem frames_wire (fs : List SentFrame) (h : Sendable fs) : Frames 1 (wire fs) (located fs) := by
  induction fs with
  | nil => exact .nil
  | cons f fs ih =>
    obtain ⟨h1, h2, h3⟩ := h
    obtain ⟨parts, hp, hb⟩ := parts_of_fields h1
    have := Frames.cons hp hb (fun he => by rw [h2 (toEnd_open hp he)]; rfl) (ih h3)
    exact this

/-- **C131** Frames are written one before the other if all their integers take one byte; otherwise writing
panics. -/
theorem C131_write (m : Mode) (fs : List SentFrame) (h : Sendable fs) (hsl : SliceLen (wire fs).length) :
    ((∀ f ∈ fs, OneByteInts f.fields) → writeFrames m fs = .ok (wire fs)) ∧
    ((∃ f ∈ fs, ¬ OneByteInts f.fields) → writeFrames m fs = panic) := by
  induction fs with
  | nil => exact ⟨fun _ => rfl, fun ⟨_, hf, _⟩ => (by cases hf)⟩
  | cons f fs ih =>
    obtain ⟨h1, h2, h3⟩ := h
    obtain ⟨k, hk⟩ := lookup_of_fields h1
    rw [wire_cons] at hsl ⊢
    have hslr : SliceLen (wire fs).length := by
      unfold SliceLen at *; simp only [List.length_cons, List.length_append] at hsl; omega
    obtain ⟨i1, i2⟩ := ih h3 hslr
    have hz := C99_zeroed_partial m f.ty f.body (wire fs) f.fields h1 (fun ho => by rw [h2 ho]; rfl) k hk hsl
    have hlen : (f.ty :: (f.body ++ wire fs)).length = 1 + f.body.length + (wire fs).length := by
      simp only [List.length_cons, List.length_append]; omega
    rw [hlen] at hz
    have hstep : ∀ rest, writeFrames m fs = .ok rest → writeFrames m (f :: fs) =
        k.decl.populate m (zeroes (1 + f.body.length + rest.length)) (frameStruct f.ty f.fields rest) := by
      intro rest hr
      rw [writeFrames, hr]
      simp only [ok_bind, hk]
      rfl
    constructor
    · intro hall
      rw [hstep _ (i1 fun g hg => hall g (List.mem_cons_of_mem _ hg))]
      exact hz.1 (hall f List.mem_cons_self)
    · rintro ⟨g, hg, hno⟩
      by_cases hrest : ∀ g ∈ fs, OneByteInts g.fields
      · rw [hstep _ (i1 hrest)]
        rcases List.mem_cons.mp hg with rfl | hg
        · exact hz.2 hno
        · exact (hno (hrest g hg)).elim
      · have hp := i2 (by
          obtain ⟨g, hg⟩ := Classical.not_forall.mp hrest
          exact ⟨g, Classical.byContradiction fun hc => hg fun hm => Classical.byContradiction fun hn => hc ⟨hm, hn⟩⟩)
        rw [writeFrames, hp]
        rfl

/-- A STREAM frame before a PING frame, for the examples. -/
def sentFrames : List SentFrame := [⟨0x0e, streamFields, [4, 9, 2, 0xAA, 0xBB]⟩, ⟨0x01, [], []⟩]

theorem sentFrames_ok : Sendable sentFrames :=
  ⟨streamFields_ok, fun h => absurd h (by unfold openEnded; decide), .ping, fun _ => rfl, trivial⟩

theorem sentFrames_one : ∀ f ∈ sentFrames, OneByteInts f.fields := by
  intro f hf
  rcases List.mem_cons.mp hf with rfl | hf
  · simp [OneByteInts, streamFields, dataFields, bytesOf]
  · rw [List.mem_singleton.mp hf]
    simp [OneByteInts]

example : writeFrames .debug sentFrames = .ok [0x0e, 4, 9, 2, 0xAA, 0xBB, 1] :=
  (C131_write .debug sentFrames sentFrames_ok (by unfold SliceLen; decide)).1 sentFrames_one

/-- An ACK frame with integers of two bytes in the second place. -/
example : writeFrames .release [⟨0x01, [], []⟩, ⟨0x02, ackFields, [0x40, 100, 5, 0, 0x40, 100]⟩] = panic :=
  (C131_write .release [⟨0x01, [], []⟩, ⟨0x02, ackFields, [0x40, 100, 5, 0, 0x40, 100]⟩]
    ⟨.ping, fun h => absurd h (by unfold openEnded; decide), ackFields_ok, fun _ => rfl, trivial⟩
    (by unfold SliceLen; decide)).2
    ⟨_, List.mem_cons_of_mem _ List.mem_cons_self, by simp [OneByteInts, ackFields, dataFields, bytesOf]⟩

/-- **C131** `Frame::new` finds the frames that were written, with merged padding, and their accessors return
the fields that were written. -/
theorem C131_frames (m : Mode) (fs : List SentFrame) (h : Sendable fs) (hsl : SliceLen (wire fs).length) :
    (∃ gs, Frame.new m (wire fs) = .ok (some gs) ∧ gs.map shown = (runs (located fs)).map expected) ∧
    ∀ (pre post : List SentFrame) (f : SentFrame), fs = pre ++ f :: post → ∃ k, variants.lookup f.ty.toNat = some k ∧
      ∀ c, FrameShows m ⟨k, wire (f :: post), c⟩ f.ty.toNat f.fields (wire post) := by
  refine ⟨new_of_frames m hsl (frames_wire fs h), ?_⟩
  intro pre post f hfs
  have hs : Sendable (f :: post) := by
    subst hfs
    clear hsl
    induction pre with
    | nil => exact h
    | cons g pre ih => exact ih h.2.2
  obtain ⟨h1, h2, h3⟩ := hs
  obtain ⟨k, hk⟩ := lookup_of_fields h1
  refine ⟨k, hk, fun c => ?_⟩
  refine C64_frame_accessors m f.ty f.body (wire post) f.fields h1 (fun ho => by rw [h2 ho]; rfl) k hk c ?_
  have : (wire fs).length = (wire pre).length + (f.ty :: (f.body ++ wire post)).length := by
    rw [hfs]
    unfold wire
    rw [List.flatMap_append, List.length_append]
    rfl
  unfold SliceLen at *
  omega

example := C131_frames .debug sentFrames sentFrames_ok (by unfold SliceLen; decide)

/-- What `QuicPacket::new` returns for a packet with a Length field and any bytes behind it. -/
theorem sent_long (m : Mode) {p : Packet} {bs : Buf} (h : LongEnc p bs) (rest : Buf) (hsl : SliceLen (bs ++ rest).length) :
    QuicPacket.new m (bs ++ rest) = after [⟨kind p, bs ++ rest⟩] (QuicPacket.new m rest) ∧
      Shows m ⟨kind p, bs ++ rest⟩ p := by
  obtain ⟨h1, h2⟩ := new_long m h rest hsl
  refine ⟨?_, h2⟩
  rw [h1]
  cases QuicPacket.new m rest with
  | error e => rfl
  | ok o => cases o <;> rfl

/-- **C131** An Initial packet with frames, both written with `populate`, before any other packets: it is
found, its accessors return what was written, and its frames are found. -/
theorem C131_initial (m : Mode) (reserved version : Nat) (dcid scid tokenLen token length pn remaining : Buf)
    (fs : List SentFrame) (hfs : Sendable fs) (hone : ∀ f ∈ fs, OneByteInts f.fields)
    (hh : HeaderOk version dcid scid) (hpn : PnOk pn) (hres : reserved < 4)
    (hvt : Varint tokenLen token.length) (hv : Varint length (pn.length + (wire fs).length))
    (h1 : tokenLen.length = 1) (h2 : length.length = 1)
    (hsl : SliceLen (18 + dcid.length + scid.length + token.length + pn.length + (wire fs).length + remaining.length)) :
    ∃ payload bs gs, writeFrames m fs = .ok payload ∧
      initial.populate m (zeroes bs.length)
        (initialStruct reserved version dcid scid tokenLen token length pn payload remaining) = .ok bs ∧
      QuicPacket.new m bs = after [⟨.initial, bs⟩] (QuicPacket.new m remaining) ∧
      Accessors m ⟨.initial, bs⟩ (some version) dcid (some scid) (some token) (some (beNat pn)) (some payload) ∧
      Frame.new m payload = .ok (some gs) ∧ gs.map shown = (runs (located fs)).map expected := by
  have hslw : SliceLen (wire fs).length := by unfold SliceLen at *; omega
  obtain ⟨gs, g1, g2⟩ := (C131_frames m fs hfs hslw).1
  have henc := LongEnc.initial (reserved := reserved) (tokenLen := tokenLen) (length := length) hh hpn hres hvt hv
  have hlen : SliceLen ((longHeader 0 reserved pn.length version dcid scid ++ tokenLen ++ token ++ length ++ pn ++ wire fs) ++
      remaining).length := by
    simp only [List.length_append, longHeader, List.length_cons, List.length_nil, beBytes_length, h1, h2]
    unfold SliceLen at *; omega
  obtain ⟨s1, s2⟩ := sent_long m henc remaining hlen
  refine ⟨wire fs, _, gs, (C131_write m fs hfs hslw).1 hone, ?_, s1, s2, g1, g2⟩
  rw [(C50_initial_partial m reserved version dcid scid tokenLen token length pn (wire fs) remaining _ hh hpn hres hvt hv rfl
    hlen).1, if_pos ⟨h1, h2⟩]

/-- A STREAM and a PING frame in an Initial packet with another packet's bytes behind it. -/
example := C131_initial .debug 0 1 [7, 8] [9] [1] [0xAA] [9] [0x12, 0x34] [0x40] sentFrames sentFrames_ok sentFrames_one
  (by unfold HeaderOk; decide) (by unfold PnOk; decide) (by decide)
  ⟨0, by decide, by decide, by decide, by decide⟩ ⟨0, by decide, by decide, by decide, by decide⟩ rfl rfl
  (by unfold SliceLen; decide)

/-- **C131** 0-RTT packets, as for Initial packets. -/
theorem C131_zero_rtt (m : Mode) (reserved version : Nat) (dcid scid length pn remaining : Buf)
    (fs : List SentFrame) (hfs : Sendable fs) (hone : ∀ f ∈ fs, OneByteInts f.fields)
    (hh : HeaderOk version dcid scid) (hpn : PnOk pn) (hres : reserved < 4)
    (hv : Varint length (pn.length + (wire fs).length)) (h1 : length.length = 1)
    (hsl : SliceLen (18 + dcid.length + scid.length + pn.length + (wire fs).length + remaining.length)) :
    ∃ payload bs gs, writeFrames m fs = .ok payload ∧
      zeroRtt.populate m (zeroes bs.length) (plainStruct 1 reserved version dcid scid length pn payload remaining) = .ok bs ∧
      QuicPacket.new m bs = after [⟨.zeroRtt, bs⟩] (QuicPacket.new m remaining) ∧
      Accessors m ⟨.zeroRtt, bs⟩ (some version) dcid (some scid) none (some (beNat pn)) (some payload) ∧
      Frame.new m payload = .ok (some gs) ∧ gs.map shown = (runs (located fs)).map expected := by
  have hslw : SliceLen (wire fs).length := by unfold SliceLen at *; omega
  obtain ⟨gs, g1, g2⟩ := (C131_frames m fs hfs hslw).1
  have henc := LongEnc.zeroRtt (reserved := reserved) (length := length) hh hpn hres hv
  have hlen : SliceLen ((longHeader 1 reserved pn.length version dcid scid ++ length ++ pn ++ wire fs) ++ remaining).length := by
    simp only [List.length_append, longHeader, List.length_cons, List.length_nil, beBytes_length, h1]
    unfold SliceLen at *; omega
  obtain ⟨s1, s2⟩ := sent_long m henc remaining hlen
  refine ⟨wire fs, _, gs, (C131_write m fs hfs hslw).1 hone, ?_, s1, s2, g1, g2⟩
  rw [(C50_zero_rtt_partial m reserved version dcid scid length pn (wire fs) remaining _ hh hpn hres hv rfl hlen).1, if_pos h1]

example := C131_zero_rtt .release 0 1 [7, 8] [9] [9] [0x12, 0x34] [0xC3] sentFrames sentFrames_ok sentFrames_one
  (by unfold HeaderOk; decide) (by unfold PnOk; decide) (by decide)
  ⟨0, by decide, by decide, by decide, by decide⟩ rfl (by unfold SliceLen; decide)

/-- **C131** Handshake packets, as for Initial packets. -/
theorem C131_handshake (m : Mode) (reserved version : Nat) (dcid scid length pn remaining : Buf)
    (fs : List SentFrame) (hfs : Sendable fs) (hone : ∀ f ∈ fs, OneByteInts f.fields)
    (hh : HeaderOk version dcid scid) (hpn : PnOk pn) (hres : reserved < 4)
    (hv : Varint length (pn.length + (wire fs).length)) (h1 : length.length = 1)
    (hsl : SliceLen (18 + dcid.length + scid.length + pn.length + (wire fs).length + remaining.length)) :
    ∃ payload bs gs, writeFrames m fs = .ok payload ∧
      handshake.populate m (zeroes bs.length) (plainStruct 2 reserved version dcid scid length pn payload remaining) = .ok bs ∧
      QuicPacket.new m bs = after [⟨.handshake, bs⟩] (QuicPacket.new m remaining) ∧
      Accessors m ⟨.handshake, bs⟩ (some version) dcid (some scid) none (some (beNat pn)) (some payload) ∧
      Frame.new m payload = .ok (some gs) ∧ gs.map shown = (runs (located fs)).map expected := by
  have hslw : SliceLen (wire fs).length := by unfold SliceLen at *; omega
  obtain ⟨gs, g1, g2⟩ := (C131_frames m fs hfs hslw).1
  have henc := LongEnc.handshake (reserved := reserved) (length := length) hh hpn hres hv
  have hlen : SliceLen ((longHeader 2 reserved pn.length version dcid scid ++ length ++ pn ++ wire fs) ++ remaining).length := by
    simp only [List.length_append, longHeader, List.length_cons, List.length_nil, beBytes_length, h1]
    unfold SliceLen at *; omega
  obtain ⟨s1, s2⟩ := sent_long m henc remaining hlen
  refine ⟨wire fs, _, gs, (C131_write m fs hfs hslw).1 hone, ?_, s1, s2, g1, g2⟩
  rw [(C50_handshake_partial m reserved version dcid scid length pn (wire fs) remaining _ hh hpn hres hv rfl hlen).1, if_pos h1]

example := C131_handshake .release 0 1 [7, 8] [9] [9] [0x12, 0x34] [0xC3] sentFrames sentFrames_ok sentFrames_one
  (by unfold HeaderOk; decide) (by unfold PnOk; decide) (by decide)
  ⟨0, by decide, by decide, by decide, by decide⟩ rfl (by unfold SliceLen; decide)

/-- **C131** 1-RTT packets, which extend to the end of the datagram. -/
theorem C131_one_rtt (m : Mode) (spin reserved key : Nat) (dcid pn : Buf) (fs : List SentFrame) (hfs : Sendable fs)
    (hone : ∀ f ∈ fs, OneByteInts f.fields) (hd : dcid.length = 8) (hpn : PnOk pn) (h1 : spin < 2) (h2 : reserved < 4)
    (h3 : key < 2) (hsl : SliceLen (9 + pn.length + (wire fs).length)) :
    ∃ payload bs gs, writeFrames m fs = .ok payload ∧
      oneRtt.populate m (zeroes bs.length) (oneRttStruct spin reserved key dcid pn payload) = .ok bs ∧
      QuicPacket.new m bs = .ok (some [⟨.oneRtt, bs⟩]) ∧
      Accessors m ⟨.oneRtt, bs⟩ none dcid none none (some (beNat pn)) (some payload) ∧
      Frame.new m payload = .ok (some gs) ∧ gs.map shown = (runs (located fs)).map expected := by
  have hslw : SliceLen (wire fs).length := by unfold SliceLen at *; omega
  obtain ⟨gs, g1, g2⟩ := (C131_frames m fs hfs hslw).1
  have henc := LastEnc.oneRtt (frames := wire fs) (flags := 8 * spin + 2 * reserved + key) hd hpn (by omega)
  have hlen : SliceLen ([UInt8.ofNat (0x40 + 4 * (8 * spin + 2 * reserved + key) + (pn.length - 1))] ++ dcid ++ pn ++
      wire fs).length := by
    simp only [List.length_append, List.length_cons, List.length_nil, hd]
    unfold SliceLen at *; omega
  obtain ⟨s1, s2⟩ := new_last m henc hlen
  exact ⟨wire fs, _, gs, (C131_write m fs hfs hslw).1 hone,
    (C50_one_rtt m spin reserved key dcid pn (wire fs) _ hd hpn h1 h2 h3 rfl hlen).1, s1, s2, g1, g2⟩

example := C131_one_rtt .release 1 0 1 [1, 2, 3, 4, 5, 6, 7, 8] [0x12, 0x34] sentFrames sentFrames_ok sentFrames_one rfl
  (by unfold PnOk; decide) (by decide) (by decide) (by decide) (by unfold SliceLen; decide)

end Verif.Props
