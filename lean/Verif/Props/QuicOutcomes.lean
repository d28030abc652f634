import Verif.Proofs.QuicOutcomes
import Verif.Props.QuicPackets

/-!
# Exactly which datagrams are accepted, and what truncated packets show (C83, C84)

Specification: `Reports`, `Ending` and `Refused` of `Verif/Spec/QuicApi.lean`.
-/

namespace Verif.Props
open Verif Verif.Spec Verif.Spec.Quic

/-! ## C83 -/

/-- **C83** A debug build returns `Some(packets)` exactly on the datagrams that consist of complete
packets with a Length field, ended by nothing or by bytes that look like a 1-RTT, Version Negotiation
or Retry packet, and it returns exactly these packets. -/
theorem C83_accepted_iff (buf : Buf) (hsl : SliceLen buf.length) (qs : List QuicPacket) :
    QuicPacket.new .debug buf = .ok (some qs) ↔ Reports buf qs :=
  ⟨(new_debug_outcome hsl).1 qs, fun h => new_reports .debug h hsl⟩

example := (C83_accepted_iff sampleDatagram (by decide)
  [⟨.initial, sampleDatagram⟩, ⟨.oneRtt, sampleDatagram.drop 17⟩]).mp (by decide +kernel)

/-- **C83** A debug build returns `None` exactly on complete packets followed by refused bytes. -/
theorem C83_refused_iff (buf : Buf) (hsl : SliceLen buf.length) :
    QuicPacket.new .debug buf = .ok none ↔ LongThen Refused buf :=
  ⟨(new_debug_outcome hsl).2, fun h => new_long_refused .debug h hsl⟩

example := (C83_refused_iff [0xE0, 0, 0, 0, 1, 0, 0, 1, 0x77, 0x80, 0, 0, 0, 1, 0, 0] (by decide)).mp
  (by decide +kernel)

/-- **C83** A release build answers these datagrams alike. -/
theorem C83_release (buf : Buf) (hsl : SliceLen buf.length) :
    (∀ qs, Reports buf qs → QuicPacket.new .release buf = .ok (some qs)) ∧
    (LongThen Refused buf → QuicPacket.new .release buf = .ok none) :=
  ⟨fun _ h => new_reports .release h hsl, fun h => new_long_refused .release h hsl⟩

example := (C83_release sampleDatagram (by decide)).1 _ ((C83_accepted_iff sampleDatagram (by decide)
  [⟨.initial, sampleDatagram⟩, ⟨.oneRtt, sampleDatagram.drop 17⟩]).mp (by decide +kernel))

/-- **C83** What is reported is determined by the datagram, and no datagram is both reported and
refused, or reported or refused and broken (C43). -/
theorem C83_exclusive (buf : Buf) (hsl : SliceLen buf.length) (qs : List QuicPacket)
    (h : Reports buf qs) :
    (∀ qs', Reports buf qs' → qs' = qs) ∧ ¬ LongThen Refused buf ∧ ¬ LongThen Broken buf := by
  have h0 := new_reports .debug h hsl
  refine ⟨fun qs' h' => ?_, fun h' => ?_, fun h' => ?_⟩
  · have := new_reports .debug h' hsl
    rw [h0] at this
    cases this; rfl
  · have := new_long_refused .debug h' hsl
    rw [h0] at this
    cases this
  · have := (C43_new_panics_exactly_partial buf hsl).mpr h'
    rw [h0] at this
    cases this

example := C83_exclusive sampleDatagram (by decide) _ ((C83_accepted_iff sampleDatagram (by decide)
  [⟨.initial, sampleDatagram⟩, ⟨.oneRtt, sampleDatagram.drop 17⟩]).mp (by decide +kernel))

/-- Every accepted datagram of `C44` is reported. -/
theorem C83_datagrams (ps : List Packet) (buf : Buf) (h : Datagram ps buf) (hsl : SliceLen buf.length) :
    ∃ qs, Reports buf qs ∧ qs.map (·.kind) = ps.map kind := by
  obtain ⟨qs, h1, h2, h3⟩ := C44_datagram_parsed .debug ps buf h hsl
  refine ⟨qs, (C83_accepted_iff buf hsl qs).mp h1, ?_⟩
  apply List.ext_getElem?
  intro i
  rw [List.getElem?_map, List.getElem?_map]
  by_cases hi : i < ps.length
  · rw [List.getElem?_eq_getElem hi, List.getElem?_eq_getElem (by omega)]
    have := (h3 i ps[i] qs[i] (List.getElem?_eq_getElem hi) (List.getElem?_eq_getElem (by omega))).1
    simp [this]
  · rw [List.getElem?_eq_none (by omega), List.getElem?_eq_none (by omega)]; rfl

/-- A Handshake packet and a Retry packet that ends inside its connection id; and a datagram whose
second packet is refused because its fixed bit is 0. -/
example : Reports ([0xE0, 0, 0, 0, 1, 0, 0, 1, 0x77] ++ [0xF0, 0, 0, 0, 1, 9, 9])
      [⟨.handshake, [0xE0, 0, 0, 0, 1, 0, 0, 1, 0x77, 0xF0, 0, 0, 0, 1, 9, 9]⟩,
        ⟨.retry, [0xF0, 0, 0, 0, 1, 9, 9]⟩] ∧
    LongThen Refused ([0xE0, 0, 0, 0, 1, 0, 0, 1, 0x77] ++ [0x80, 0, 0, 0, 1, 0, 0]) := by
  have h : LongEnc (.handshake 1 [] [] [0x77] []) [0xE0, 0, 0, 0, 1, 0, 0, 1, 0x77] :=
    .handshake (reserved := 0) (length := [1]) ⟨by decide, by decide, by decide, by decide⟩
      ⟨by decide, by decide⟩ (by decide) ⟨0, by decide, by decide, by decide, by decide⟩
  refine ⟨.cons (p := .handshake 1 [] [] [0x77] []) h (.last (k := .retry) ?_), .cons h (.here ?_)⟩
  · exact ⟨by decide, by decide +kernel, by decide +kernel⟩
  · exact ⟨by decide, .inr ⟨by unfold ShortForm; decide +kernel, .inr (by decide +kernel)⟩⟩

/-! ## C84 -/

/-- **C84**, full claim: the packets `QuicPacket::new` reports are complete, and their accessors show
their content. -/
def C84_statement : Prop := ∀ (m : Mode) (buf : Buf) (qs : List QuicPacket) (q : QuicPacket),
  SliceLen buf.length → QuicPacket.new m buf = .ok (some qs) → q ∈ qs →
  ∃ p bs, (LongEnc p bs ∨ LastEnc p bs) ∧ bs <+: q.packet ∧ q.kind = kind p ∧ Shows m q p

/-- C84 is false: five bytes are reported as a 1-RTT packet, whose `packet_number()` panics. -/
theorem C84_false : ¬ C84_statement := by
  intro h
  obtain ⟨p, bs, -, -, h3, h4⟩ := h .debug [0x40, 0, 0, 0, 0] [⟨.oneRtt, [0x40, 0, 0, 0, 0]⟩]
    ⟨.oneRtt, [0x40, 0, 0, 0, 0]⟩ (by decide) (by decide +kernel) (List.mem_singleton.mpr rfl)
  have hp : QuicPacket.packetNumber .debug ⟨.oneRtt, [0x40, 0, 0, 0, 0]⟩ = panic := by decide +kernel
  cases p <;> simp only [kind, reduceCtorEq] at h3
  have := h4.2.2.2.2.1
  rw [hp] at this
  cases this

/-- **C84**, the part that holds in debug builds: every reported packet is complete and shows its
content, or it is the last one and extends to the end. Missing: the last one may be incomplete (see
the theorems below), and release builds accept packets whose Length is too small
(`C43_modes_differ`). -/
theorem C84_complete_or_last_partial (m : Mode) (buf : Buf) (hsl : SliceLen buf.length)
    (qs : List QuicPacket) (h : QuicPacket.new .debug buf = .ok (some qs)) (q : QuicPacket) (hq : q ∈ qs) :
    (∃ p bs, LongEnc p bs ∧ bs <+: q.packet ∧ q.kind = kind p ∧ Shows m q p) ∨
      (qs.getLast? = some q ∧ Ending q.packet q.kind) := by
  have hr := (C83_accepted_iff buf hsl qs).mp h
  clear h
  induction hr with
  | nil => cases hq
  | last h =>
    rw [List.mem_singleton.mp hq]
    exact .inr ⟨rfl, h⟩
  | @cons p bs rest qs h hr ih =>
    rcases List.mem_cons.mp hq with rfl | hq
    · exact .inl ⟨p, bs, h, List.prefix_append _ _, rfl, (new_long m h rest hsl).2⟩
    · rcases ih (slice_tail hsl) hq with h1 | ⟨h1, h2⟩
      · exact .inl h1
      · refine .inr ⟨?_, h2⟩
        rw [List.getLast?_cons, h1]; rfl

example := C84_complete_or_last_partial .debug sampleDatagram (by decide)
  [⟨.initial, sampleDatagram⟩, ⟨.oneRtt, sampleDatagram.drop 17⟩] (by decide +kernel)
  ⟨.oneRtt, sampleDatagram.drop 17⟩ (by simp)

/-- **C84**, 1-RTT packets of any length: `dest_id()` is cut at the end of the packet without notice,
`packet_number()` panics if the connection id is incomplete and is cut otherwise, `frames()` are the
bytes behind. -/
theorem C84_one_rtt (m : Mode) (buf : Buf) (h : Ending buf .oneRtt) (hsl : SliceLen buf.length) :
    QuicPacket.destId m ⟨.oneRtt, buf⟩ = .ok (bytesOf ((buf.drop 1).take 8)) ∧
    QuicPacket.packetNumber m ⟨.oneRtt, buf⟩ =
      (if 9 ≤ buf.length then .ok (some (beNat ((buf.drop 9).take (bitsAt buf 6 2 + 1)))) else panic) ∧
    QuicPacket.frames m ⟨.oneRtt, buf⟩ = .ok (some (buf.drop (10 + bitsAt buf 6 2))) ∧
    QuicPacket.version m ⟨.oneRtt, buf⟩ = .ok none ∧ QuicPacket.srcId m ⟨.oneRtt, buf⟩ = .ok none ∧
    QuicPacket.token m ⟨.oneRtt, buf⟩ = .ok none := by
  have h1 : 1 ≤ buf.length := by have := h.1; omega
  obtain ⟨g1, g2, g3⟩ := oneRtt_parts m h1 hsl
  refine ⟨g1, ?_, ?_, rfl, rfl, rfl⟩
  · split
    · exact g3 (by assumption)
    · exact g2 (by omega)
  · show some <$> Verif.oneRtt.payload m buf = _
    rw [oneRtt_payload m buf h1 hsl]; rfl

example := C84_one_rtt .debug [0x41, 1, 2, 3, 4, 5, 6, 7, 8, 9]
  ⟨by decide, by unfold ShortForm; decide +kernel⟩ (by decide)

/-- **C84**, Version Negotiation and Retry packets of any length (byte 5 is the length of the first
connection id): `dest_id()` is cut at the end of the packet without notice, `src_id()` panics if its
length byte is missing and is cut otherwise. -/
theorem C84_ids (m : Mode) (buf : Buf) (k : QuicKind) (hk : k = .versionNegotiation ∨ k = .retry)
    (h : Ending buf k) (hsl : SliceLen buf.length) (d : Nat) (hd : d = bitsAt buf 40 8) :
    QuicPacket.destId m ⟨k, buf⟩ = .ok (bytesOf ((buf.drop 6).take d)) ∧
    QuicPacket.srcId m ⟨k, buf⟩ =
      (if 7 + d ≤ buf.length then
        .ok (some (bytesOf ((buf.drop (7 + d)).take (bitsAt buf (8 * (6 + d)) 8)))) else panic) ∧
    QuicPacket.version m ⟨k, buf⟩ =
      .ok (if k = .retry then some (.nums [bitsAt buf 8 32]) else none) ∧
    QuicPacket.packetNumber m ⟨k, buf⟩ = .ok none ∧ QuicPacket.frames m ⟨k, buf⟩ = .ok none ∧
    QuicPacket.token m ⟨k, buf⟩ = .ok none := by
  subst hd
  have hmin : 7 ≤ buf.length := by rcases hk with rfl | rfl <;> exact h.1
  obtain ⟨g1, g2, g3⟩ := ids_parts hk m hmin hsl
  refine ⟨g1, ?_, ?_, ?_, ?_, ?_⟩
  · split
    · exact g3 (by assumption)
    · exact g2 (by omega)
  · rcases hk with rfl | rfl
    · rfl
    · show some <$> Verif.retry.get m buf 4 = _
      rw [layoutOk_get retry_layout (k := 4) rfl m buf (by rw [show Verif.retry.minSize = 7 by decide +kernel]; exact hmin)]
      rfl
  all_goals rcases hk with rfl | rfl <;> rfl

/-- A Retry packet whose connection id should have 9 bytes but has one: `dest_id()` returns it. -/
example : Ending [0xF0, 0, 0, 0, 1, 9, 7] .retry ∧
    QuicPacket.destId .debug ⟨.retry, [0xF0, 0, 0, 0, 1, 9, 7]⟩ = .ok (bytesOf [7]) ∧
    QuicPacket.srcId .debug ⟨.retry, [0xF0, 0, 0, 0, 1, 9, 7]⟩ = panic := by
  refine ⟨⟨by decide, by decide +kernel, by decide +kernel⟩, by decide +kernel, by decide +kernel⟩

example : Ending [0x41, 1, 2, 3, 4, 5, 6, 7, 8, 9] .oneRtt ∧
    QuicPacket.packetNumber .release ⟨.oneRtt, [0x41, 1, 2, 3, 4, 5, 6, 7, 8, 9]⟩ = .ok (some 9) := by
  refine ⟨⟨by decide, by unfold ShortForm; decide +kernel⟩, by decide +kernel⟩

end Verif.Props
