import Verif.Proofs.QuicDisplay
import Verif.Props.QuicPackets
import Verif.Props.QuicFrameFields
import Verif.Props.Names

/-!
# The texts printed for QUIC packets and frames (C75, C76)

Specification: `Verif/Spec/QuicText.lean`.
-/

namespace Verif.Props
open Verif Verif.Spec Verif.Spec.Quic

/-! ## C75 -/

/-- **C75** Printing the packets of a well-formed datagram gives one line per item of its content, in
order: type, version in eight hexadecimal digits, token, packet number, connection ids, payload size. -/
theorem C75_datagram_text (m : Mode) (ps : List Packet) (buf : Buf) (h : Datagram ps buf)
    (hsl : SliceLen buf.length) :
    ∃ qs, QuicPacket.new m buf = .ok (some qs) ∧ qs.length = ps.length ∧
      ∀ (i : Nat) (p : Packet) (q : QuicPacket), ps[i]? = some p → qs[i]? = some q →
        ∃ s, q.display m = .ok s ∧ LinesText (lines p) s := by
  obtain ⟨qs, h1, h2, h3⟩ := new_datagram m h hsl
  refine ⟨qs, h1, h2, fun i p q hp hq => ?_⟩
  obtain ⟨hk, hs, bs, he, -⟩ := h3 i p q hp hq
  exact display_shows he hk hs

/-- Non-vacuity: the datagram of `sample_datagram` and its texts. -/
example : Datagram samplePackets sampleDatagram ∧ SliceLen sampleDatagram.length ∧
    QuicPacket.display .debug ⟨.initial, sampleDatagram⟩ =
      .ok "packet-type: initial\nquic-version: 0x00000001\ntoken: [170]\npacket-number: 4660\ndest-id: [7, 8]\nsrc-id: [9]\npayload: 2\n" ∧
    QuicPacket.display .debug ⟨.oneRtt, sampleDatagram.drop 17⟩ =
      .ok "packet-type: 1rtt\npacket-number: 119\ndest-id: [1, 2, 3, 4, 5, 6, 7, 8]\npayload: 1\n" :=
  ⟨sample_datagram, by decide, by decide +kernel, by decide +kernel⟩

/-- A decimal text denotes only one number. -/
theorem C75_decimal_unique (s t : String) (n k : Nat) (hs : Decimal s n) (ht : Decimal t k) (h : s = t) :
    n = k := by
  subst h
  have key : ∀ (ds : List Char) (a b : Nat), DecNum ds a → DecNum ds b → a = b := by
    intro ds a b ha
    induction ha generalizing b with
    | nil =>
      intro hb
      generalize he : ([] : List Char) = ds at hb
      cases hb with
      | nil => rfl
      | snoc _ _ => simp at he
    | @snoc ds v c d _ hm ih =>
      intro hb
      generalize he : ds ++ [c] = ds' at hb
      cases hb with
      | nil => simp at he
      | @snoc ds2 v2 c2 d2 h2 hm2 =>
        obtain ⟨rfl, h3⟩ := List.append_inj' he rfl
        simp only [List.cons.injEq, and_true] at h3
        subst h3
        have hd : ∀ x ∈ decDigits, ∀ y ∈ decDigits, x.1 = y.1 → x.2 = y.2 := by decide +kernel
        have := hd _ hm _ hm2 rfl
        have := ih _ h2
        simp only at *
        omega
  exact key _ _ _ hs.1 ht.1

example : Decimal "4660" 4660 := fmtDec_spec 4660

/-! ## C76 -/

/-- **C76** is false: printing a Version Negotiation packet that ends inside its connection ids, or a
1-RTT packet of fewer than 9 bytes, panics although `QuicPacket::new` accepts them. -/
theorem C76_display_total_false (m : Mode) :
    (∃ q, QuicPacket.new m [0x80, 0, 0, 0, 0, 5, 0] = .ok (some [q]) ∧ q.display m = panic) ∧
    (∃ q, QuicPacket.new m [0x40, 0, 0, 0, 0] = .ok (some [q]) ∧ q.display m = panic) := by
  cases m
  · exact ⟨⟨⟨.versionNegotiation, [0x80, 0, 0, 0, 0, 5, 0]⟩, by decide +kernel⟩,
      ⟨⟨.oneRtt, [0x40, 0, 0, 0, 0]⟩, by decide +kernel⟩⟩
  · exact ⟨⟨⟨.versionNegotiation, [0x80, 0, 0, 0, 0, 5, 0]⟩, by decide +kernel⟩,
      ⟨⟨.oneRtt, [0x40, 0, 0, 0, 0]⟩, by decide +kernel⟩⟩

/-- In a release build printing an accepted Initial packet can panic too: the Length field is smaller
than the packet number. -/
theorem C76_release_initial_false :
    ∃ q ∈ [(⟨.initial, [0xC0, 0, 0, 0, 1, 0, 0, 0, 0, 0x40, 0, 0, 0, 0]⟩ : QuicPacket)],
      QuicPacket.new .release [0xC0, 0, 0, 0, 1, 0, 0, 0, 0, 0x40, 0, 0, 0, 0] =
        .ok (some [q, ⟨.oneRtt, [0x40, 0, 0, 0, 0]⟩]) ∧
      q.display .release = panic := by decide +kernel

/-- A packet that ends too early to be printed: a 1-RTT packet before the end of its connection id, a
Version Negotiation or Retry packet before the length of its second connection id (byte 5 is the length
of the first). -/
def EndsEarly (q : QuicPacket) : Prop :=
  (q.kind = .oneRtt ∧ q.packet.length < 9) ∨
  ((q.kind = .versionNegotiation ∨ q.kind = .retry) ∧ q.packet.length < 7 + bitsAt q.packet 40 8)

/-- **C76, partial**: exactly when printing panics, for the packets accepted by a debug build. Missing:
that it never does (false), and packets only accepted by release builds. -/
theorem C76_display_panics_exactly_partial (m : Mode) (buf : Buf) (hsl : SliceLen buf.length)
    (qs : List QuicPacket) (h : QuicPacket.new .debug buf = .ok (some qs)) (q : QuicPacket) (hq : q ∈ qs) :
    (EndsEarly q → q.display m = panic) ∧ (¬ EndsEarly q → ∃ s, q.display m = .ok s) := by
  have hrep := (new_reported .debug _ buf (Nat.le_refl _) hsl).2 qs h
  obtain ⟨b, v, t, hbuf, hv, hkind, hmin⟩ := hrep.kinds q hq
  have hle := (hrep.inside q hq).length_le
  have hslq : SliceLen q.buf.length := by unfold SliceLen at *; omega
  rw [quic_minSize] at hmin
  by_cases hl : q.kind.long = true
  · obtain ⟨p, bs, he, hk, hs⟩ := reported_long hsl h hq hl
    obtain ⟨s, h1, -⟩ := display_shows (.inl he) hk (hs m)
    refine ⟨fun hE => ?_, fun _ => ⟨s, h1⟩⟩
    rcases hE with ⟨hE, -⟩ | ⟨hE | hE, -⟩ <;> rw [hE] at hl <;> cases hl
  · obtain ⟨k, qbuf⟩ := q
    simp only at *
    cases k with
    | initial => exact (hl rfl).elim
    | zeroRtt => exact (hl rfl).elim
    | handshake => exact (hl rfl).elim
    | versionNegotiation =>
      obtain ⟨h1, h2⟩ := display_ids (.inl rfl) m (k := .versionNegotiation) hmin hslq
      refine ⟨fun hE => ?_, fun hE => h2 ?_⟩
      · rcases hE with ⟨hE, -⟩ | ⟨-, hE⟩
        · cases hE
        · exact h1 hE
      · exact Nat.le_of_not_lt fun hc => hE (.inr ⟨.inl rfl, hc⟩)
    | retry =>
      obtain ⟨h1, h2⟩ := display_ids (.inr rfl) m (k := .retry) hmin hslq
      refine ⟨fun hE => ?_, fun hE => h2 ?_⟩
      · rcases hE with ⟨hE, -⟩ | ⟨-, hE⟩
        · cases hE
        · exact h1 hE
      · exact Nat.le_of_not_lt fun hc => hE (.inr ⟨.inr rfl, hc⟩)
    | oneRtt =>
      obtain ⟨h1, h2⟩ := display_oneRtt m hmin hslq
      refine ⟨fun hE => ?_, fun hE => h2 ?_⟩
      · rcases hE with ⟨-, hE⟩ | ⟨hE | hE, -⟩
        · exact h1 hE
        · cases hE
        · cases hE
      · exact Nat.le_of_not_lt fun hc => hE (.inl ⟨rfl, hc⟩)

/-- Both cases arise for accepted packets. -/
example : (∃ q ∈ [(⟨.retry, [0xF0, 0, 0, 0, 1, 1, 0]⟩ : QuicPacket)],
      QuicPacket.new .debug [0xF0, 0, 0, 0, 1, 1, 0] = .ok (some [q]) ∧
      q.packet.length < 7 + bitsAt q.packet 40 8) ∧
    (∃ q ∈ [(⟨.retry, [0xF0, 0, 0, 0, 1, 1, 0, 9]⟩ : QuicPacket)],
      QuicPacket.new .debug [0xF0, 0, 0, 0, 1, 1, 0, 9] = .ok (some [q]) ∧
      q.display .debug = .ok "packet-type: retry\nquic-version: 0x00000001\ndest-id: [0]\nsrc-id: []\n") := by
  decide +kernel

/-- **C76** Printing a frame reported by `Frame::new` never panics and gives the name RFC 9000 has for
the type in its first byte. -/
theorem C76_frame_text (m : Mode) (buf : Buf) (hsl : SliceLen buf.length) (fs : List Frame)
    (h : Frame.new m buf = .ok (some fs)) (f : Frame) (hf : f ∈ fs) :
    ∃ r ∈ Spec.quicFrames, f.display m = .ok r.1 ∧
      ∃ ty t, f.buf = ty :: t ∧ r.2.1 ≤ ty.toNat ∧ ty.toNat ≤ r.2.2 := by
  obtain ⟨ty, body, rest, fields, hb, hfl, hsh⟩ := C64_reported_frames m buf hsl fs h f hf
  have hty : ty.toNat ≤ 0x1e := by
    generalize ty.toNat = n at hfl
    cases hfl <;> omega
  have hall : ∀ n ≤ 0x1e, ∃ r ∈ Spec.quicFrames, r.2.1 ≤ n ∧ n ≤ r.2.2 := by decide +kernel
  obtain ⟨r, hr, h1, h2⟩ := hall _ hty
  refine ⟨r, hr, ?_, ty, body ++ rest, hb, h1, h2⟩
  rw [Frame.display, hsh.1, ok_bind]
  exact congrArg Except.ok (((Verif.C51_frame_names ty.toNat).1 r hr).mpr ⟨h1, h2⟩)

example : ∃ fs, Frame.new .debug [0, 0, 1] = .ok (some fs) ∧ fs.map (·.display .debug) = [.ok "padding", .ok "ping"] :=
  ⟨[⟨.padding, [0, 0, 1], 2⟩, ⟨.ping, [1], 0⟩], by decide +kernel⟩

/-- The texts of the header types: the names of their values, `unknown` for all others. -/
theorem C76_header_names (v : Nat) :
    headerFormDisplay v = ((["short", "long"])[v]?).getD "unknown" ∧
    longPacketTypeDisplay v = ((["initial", "0-rtt", "handshake", "retry"])[v]?).getD "unknown" ∧
    (fixedBitDisplay v = "1" ↔ v = 1) ∧ (fixedBitDisplay v = "unknown" ↔ v ≠ 1) ∧
    (v < 2 ^ 32 → ∃ s, versionDisplay v = "0x" ++ s ∧ EightHex s v) := by
  refine ⟨?_, ?_, ?_, ?_, fun hv => ⟨_, rfl, fmt08x_spec hv⟩⟩
  · match v with
    | 0 => rfl
    | 1 => rfl
    | n + 2 => rfl
  · match v with
    | 0 => rfl
    | 1 => rfl
    | 2 => rfl
    | 3 => rfl
    | n + 4 => rfl
  · unfold fixedBitDisplay
    split <;> simp_all
  · unfold fixedBitDisplay
    split <;> simp_all

example : versionDisplay 0xff00001d = "0xff00001d" ∧ headerFormDisplay 2 = "unknown" := by decide +kernel

end Verif.Props
