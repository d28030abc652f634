import Verif.Proofs.QuicLoop
import Verif.Spec.QuicApi

/-!
# QUIC packets (C09, C43 - C46)

Specification: `Verif/Spec/Quic.lean` (wire formats) and `Verif/Spec/QuicApi.lean` (accessors).
-/

namespace Verif.Props
open Verif Verif.Spec Verif.Spec.Quic

/-! ## C44 -/

/-- **C44**. A datagram made of well-formed coalesced packets is parsed into exactly these packets, in
order; the accessors show their content, and each starts with the bytes of its packet. -/
theorem C44_datagram_parsed (m : Mode) (ps : List Packet) (buf : Buf) (h : Datagram ps buf)
    (hsl : SliceLen buf.length) :
    ∃ qs, QuicPacket.new m buf = .ok (some qs) ∧ qs.length = ps.length ∧
      ∀ (i : Nat) (p : Packet) (q : QuicPacket), ps[i]? = some p → qs[i]? = some q →
        q.kind = kind p ∧ Shows m q p ∧ ∃ bs, (LongEnc p bs ∨ LastEnc p bs) ∧ bs <+: q.packet :=
  new_datagram m h hsl

/-- A coalesced datagram: an Initial packet with a one-byte token and a 1-RTT packet. -/
def sampleDatagram : Buf :=
  [0xC1, 0, 0, 0, 1, 2, 7, 8, 1, 9, 1, 0xAA, 4, 0x12, 0x34, 1, 1] ++
    [0x40, 1, 2, 3, 4, 5, 6, 7, 8, 0x77, 1]

/-- Its packets. -/
def samplePackets : List Packet :=
  [.initial 1 [7, 8] [9] [0xAA] [0x12, 0x34] [1, 1], .oneRtt [1, 2, 3, 4, 5, 6, 7, 8] [0x77] [1]]

theorem sample_datagram : Datagram samplePackets sampleDatagram :=
  .cons (.initial (version := 1) (reserved := 0) (tokenLen := [1]) (length := [4])
      ⟨by decide, by decide, by decide, by decide⟩ ⟨by decide, by decide⟩ (by decide)
      ⟨0, by decide, by decide, by decide, by decide⟩ ⟨0, by decide, by decide, by decide, by decide⟩)
    (.last (.oneRtt (flags := 0) (dcid := [1, 2, 3, 4, 5, 6, 7, 8]) (pn := [0x77]) (frames := [1])
      (by decide) ⟨by decide, by decide⟩ (by decide)))

/-- The hypotheses of `C44_datagram_parsed` hold of a datagram with two packets. -/
example : ∃ ps buf, Datagram ps buf ∧ SliceLen buf.length ∧ ps.length = 2 :=
  ⟨_, _, sample_datagram, by decide, rfl⟩

/-- The accessors on that datagram. -/
example : QuicPacket.new .debug sampleDatagram =
    .ok (some [⟨.initial, sampleDatagram⟩, ⟨.oneRtt, sampleDatagram.drop 17⟩]) ∧
    QuicPacket.packetNumber .debug ⟨.initial, sampleDatagram⟩ = .ok (some 0x1234) ∧
    QuicPacket.frames .debug ⟨.initial, sampleDatagram⟩ = .ok (some [1, 1]) ∧
    QuicPacket.token .debug ⟨.initial, sampleDatagram⟩ = .ok (some (.nums [0xAA])) := by
  decide +kernel

/-! ## C43 -/

/-- **C43** is false: a datagram that ends inside an Initial packet makes `QuicPacket::new` panic. -/
theorem C43_new_total_false :
    QuicPacket.new .debug [0xC0, 0, 0, 0, 1, 5, 0] = panic ∧
    QuicPacket.new .release [0xC0, 0, 0, 0, 1, 5, 0] = panic := by decide +kernel

/-- **C43**, exactly the inputs on which a debug build panics: some packets with a Length field (maybe
none), then at least 7 bytes that look like such a packet but are not one. Missing: the full claim,
since it is false (`C43_new_total_false`). -/
theorem C43_new_panics_exactly_partial (buf : Buf) (hsl : SliceLen buf.length) :
    QuicPacket.new .debug buf = panic ↔ LongThen Broken buf :=
  (new_panic_iff buf.length buf (Nat.le_refl _) hsl).1

/-- **C43**, when a debug build does not panic, a release build returns the same. -/
theorem C43_release_agrees (buf : Buf) (hsl : SliceLen buf.length)
    (h : QuicPacket.new .debug buf ≠ panic) :
    QuicPacket.new .release buf = QuicPacket.new .debug buf :=
  (new_panic_iff buf.length buf (Nat.le_refl _) hsl).2 h

example := C43_release_agrees sampleDatagram (by decide) (by decide +kernel)

/-- **C43**, release builds panic on no other inputs. -/
theorem C43_release_panics_less (buf : Buf) (hsl : SliceLen buf.length)
    (h : QuicPacket.new .release buf = panic) : LongThen Broken buf := by
  apply Classical.byContradiction
  intro hn
  have hd : QuicPacket.new .debug buf ≠ panic := fun hp =>
    hn ((C43_new_panics_exactly_partial buf hsl).mp hp)
  rw [C43_release_agrees buf hsl hd] at h
  exact hd h

example := C43_release_panics_less [0xC0, 0, 0, 0, 1, 5, 0] (by decide) (by decide +kernel)

/-- Release builds accept inputs on which debug builds panic: here the Length field is smaller than
the packet number. -/
theorem C43_modes_differ :
    QuicPacket.new .debug [0xC0, 0, 0, 0, 1, 0, 0, 0, 0, 0] = panic ∧
    QuicPacket.new .release [0xC0, 0, 0, 0, 1, 0, 0, 0, 0, 0] ≠ panic := by decide +kernel

/-- Non-vacuity: a broken packet behind a good one. -/
example : QuicPacket.new .debug
    ([0xE0, 0, 0, 0, 1, 0, 0, 1, 0x77] ++ [0xC0, 0, 0, 0, 1, 5, 0]) = panic := by decide +kernel

/-! ## C45 -/

/-- **C45**, first half: the 1-RTT packets are those with header form 0 and fixed bit 1. -/
theorem C45_one_rtt_iff (m : Mode) (buf : Buf) (hsl : SliceLen buf.length) (qs : List QuicPacket)
    (h : QuicPacket.new m buf = .ok (some qs)) (q : QuicPacket) (hq : q ∈ qs) :
    q.kind = .oneRtt ↔ bitsAt q.packet 0 1 = 0 ∧ bitsAt q.packet 1 1 = 1 := by
  obtain ⟨b, v, t, hbuf, -, hk, -⟩ := ((new_reported m _ buf (Nat.le_refl _) hsl).2 qs h).kinds q hq
  have hb := b.toNat_lt
  rw [QuicPacket.packet, hbuf, bitsAt_cons b _ (by omega), bitsAt_cons b _ (by omega)]
  have e1 : b.toNat / 2 ^ (8 - 0 - 1) % 2 ^ 1 = b.toNat / 128 := by
    simp only [Nat.reduceSub, Nat.reducePow]; omega
  have e2 : b.toNat / 2 ^ (8 - 1 - 1) % 2 ^ 1 = b.toNat / 64 % 2 := rfl
  rw [e1, e2]
  constructor
  · intro hk'
    rw [hk'] at hk
    unfold kindOf at hk
    split at hk
    · assumption
    · exfalso
      split at hk
      · cases hk
      · split at hk
        · cases hk
        · split at hk
          · cases hk
          · split at hk
            · cases hk
            · split at hk <;> cases hk
  · intro hc
    unfold kindOf at hk
    rw [if_pos hc] at hk
    exact (Option.some.inj hk).symm

example := C45_one_rtt_iff .debug sampleDatagram (by decide)
  [⟨.initial, sampleDatagram⟩, ⟨.oneRtt, sampleDatagram.drop 17⟩] (by decide +kernel)
  ⟨.oneRtt, sampleDatagram.drop 17⟩ (by simp)

/-- **C45**, second half is false: a packet with header form 0 is reported as Version Negotiation. -/
theorem C45_version_negotiation_false :
    QuicPacket.new .debug [0x00, 0, 0, 0, 0, 0, 0] =
      .ok (some [⟨.versionNegotiation, [0x00, 0, 0, 0, 0, 0, 0]⟩]) ∧
    bitsAt [0x00, 0, 0, 0, 0, 0, 0] 0 1 = 0 := by decide +kernel

/-- **C45**, what holds of the kinds: Version Negotiation exactly when the version is 0 and the
packet is not 1-RTT; otherwise header form, fixed bit and type are those of RFC 9000, except that the
header form of a packet with fixed bit 0 is not looked at. Missing: Version Negotiation implies header
form 1 (false, `C45_version_negotiation_false`). -/
theorem C45_kinds_partial (m : Mode) (buf : Buf) (hsl : SliceLen buf.length) (qs : List QuicPacket)
    (h : QuicPacket.new m buf = .ok (some qs)) (q : QuicPacket) (hq : q ∈ qs) :
    (q.kind = .versionNegotiation ↔ q.kind ≠ .oneRtt ∧ bitsAt q.packet 8 32 = 0) ∧
    (q.kind ≠ .oneRtt → q.kind ≠ .versionNegotiation →
      bitsAt q.packet 0 1 = 1 ∧ bitsAt q.packet 1 1 = 1 ∧
      ([QuicKind.initial, .zeroRtt, .handshake, .retry])[bitsAt q.packet 2 2]? = some q.kind) := by
  obtain ⟨b, v, t, hbuf, hv, hk, -⟩ := ((new_reported m _ buf (Nat.le_refl _) hsl).2 qs h).kinds q hq
  have hb := b.toNat_lt
  rw [QuicPacket.packet, hbuf, version_read b hv, bitsAt_cons b _ (by omega), bitsAt_cons b _ (by omega),
    bitsAt_cons b _ (by omega)]
  have e1 : b.toNat / 2 ^ (8 - 0 - 1) % 2 ^ 1 = b.toNat / 128 := by
    simp only [Nat.reduceSub, Nat.reducePow]; omega
  have e2 : b.toNat / 2 ^ (8 - 1 - 1) % 2 ^ 1 = b.toNat / 64 % 2 := rfl
  have e3 : b.toNat / 2 ^ (8 - 2 - 2) % 2 ^ 2 = b.toNat / 16 % 4 := rfl
  rw [e1, e2, e3]
  have hz : beNat v = 0 ↔ v = [0, 0, 0, 0] := by
    constructor
    · intro h0
      rw [← beBytes_beNat v, hv, h0]; rfl
    · intro h0; rw [h0]; rfl
  rw [hz]
  generalize q.kind = k at hk ⊢
  unfold kindOf at hk
  split at hk
  · cases hk; simp
  · split at hk
    · cases hk
      rename_i h0
      simp [h0]
    · rename_i h1 h2
      split at hk
      · cases hk
      · rename_i h3
        have hh : b.toNat / 128 = 1 ∧ b.toNat / 64 % 2 = 1 := by omega
        split at hk
        · rename_i h4; cases hk; simp [h2, hh, h4]
        · split at hk
          · rename_i h4; cases hk; simp [h2, hh, h4]
          · split at hk
            · rename_i h4; cases hk; simp [h2, hh, h4]
            · rename_i h4 h5 h6
              have h7 : b.toNat / 16 % 4 = 3 := by omega
              cases hk; simp [h2, hh, h7]

/-- The hypotheses hold of the packets of `sampleDatagram`. -/
example : ∃ qs, QuicPacket.new .debug sampleDatagram = .ok (some qs) ∧ qs.length = 2 := by
  obtain ⟨qs, h1, h2, -⟩ := C44_datagram_parsed .debug _ _ sample_datagram (by decide)
  exact ⟨qs, h1, h2⟩

/-! ## C46 -/

/-- **C46**, `QuicPacket::new` terminates on every input. -/
theorem C46_packet_new_terminates (m : Mode) (buf : Buf) (hsl : SliceLen buf.length) :
    QuicPacket.new m buf ≠ .error .hang :=
  (new_reported m _ buf (Nat.le_refl _) hsl).1

example := C46_packet_new_terminates .debug sampleDatagram (by decide)

/-- **C46**, the packets start inside the input, each at least 7 bytes (the fixed fields of a long
header) after the previous one; the first one starts where the input starts. -/
theorem C46_packets_consecutive (m : Mode) (buf : Buf) (hsl : SliceLen buf.length)
    (qs : List QuicPacket) (h : QuicPacket.new m buf = .ok (some qs)) :
    (∀ q ∈ qs, q.packet <:+ buf ∧ q.packet ≠ []) ∧
    qs.Pairwise (fun q q' => q'.packet <:+ q.packet.drop 7) ∧
    (∀ q, qs.head? = some q → q.packet = buf) := by
  obtain ⟨h1, h2, h3, h4⟩ := (new_reported m _ buf (Nat.le_refl _) hsl).2 qs h
  refine ⟨fun q hq => ⟨h2 q hq, ?_⟩, h3, h4⟩
  obtain ⟨b, v, t, hb, -⟩ := h1 q hq
  rw [QuicPacket.packet, hb]; simp

/-- Two packets, the second one 17 bytes after the first. -/
example : ∃ qs, QuicPacket.new .release sampleDatagram = .ok (some qs) ∧ qs.length = 2 := by
  obtain ⟨qs, h1, h2, -⟩ := C44_datagram_parsed .release _ _ sample_datagram (by decide)
  exact ⟨qs, h1, h2⟩

/-! ## C09 -/

/-- **C09**, QUIC 1-RTT packets: the payload starts after the first byte, the 8-byte connection id and
the packet number, and is empty when the packet ends before. -/
theorem C09_one_rtt (m : Mode) (buf : Buf) (h : oneRtt.new buf = some buf) (hsl : SliceLen buf.length) :
    oneRtt.payload m buf = .ok (buf.drop (1 + 8 + (bitsAt buf 6 2 + 1))) := by
  have hmin : 1 ≤ buf.length := by
    unfold Decl.new at h
    split at h
    · assumption
    · cases h
  rw [oneRtt_payload m buf hmin hsl]
  congr 2; omega

/-- A packet that ends inside the connection id, and one with payload. -/
example : oneRtt.payload .debug [0x41, 1, 2] = .ok [] ∧
    oneRtt.payload .debug [0x41, 1, 2, 3, 4, 5, 6, 7, 8, 9, 9, 5, 6] = .ok [5, 6] := by decide +kernel

end Verif.Props
