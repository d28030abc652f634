import Verif.Props.Modes
import Verif.Props.Ndp
import Verif.Proofs.ModesNdp

/-! # C74 for QUIC and neighbour discovery -/

namespace Verif.Props
open Verif Spec

/-- **C74** for QUIC frames. -/
theorem C74_quic_frames (k : FrameKind) (buf : Buf) (hs : SliceLen buf.length) : SameInBothBuilds k.decl buf := by
  have h := frame_fits k hs
  exact ⟨h.get hs, h.getRaw hs, h.set hs, fun v => fits_populate (fun _ => frame_fits k) v hs, h.fromPacket hs,
    h.packetSize hs, h.payload hs, h.payloadMut hs, h.debug hs⟩

example : ∃ v, (FrameKind.crypto).decl.fromPacket .debug [6, 0, 2, 8, 9, 7] = .ok v := ⟨_, by rfl⟩

/-- **C74** for version negotiation, retry and 1-RTT packets. -/
theorem C74_quic_packets (k : QuicKind) (hk : k = .versionNegotiation ∨ k = .retry ∨ k = .oneRtt) (buf : Buf)
    (hs : SliceLen buf.length) : SameInBothBuilds k.decl buf := by
  have hl : k.long = false := by rcases hk with rfl | rfl | rfl <;> rfl
  have h := quic_fits k hl hs
  exact ⟨h.get hs, h.getRaw hs, h.set hs, fun v => fits_populate (fun _ => quic_fits k hl) v hs, h.fromPacket hs,
    h.packetSize hs, h.payload hs, h.payloadMut hs, h.debug hs⟩

example := C74_quic_packets .oneRtt (.inr (.inr rfl)) (0x41 :: List.replicate 24 5) (by decide)

/-- All methods but `populate` do the same in both builds. -/
def SameButPopulate (d : Decl) (buf : Buf) : Prop :=
  (∀ k, d.get .debug buf k = d.get .release buf k) ∧
  (∀ k, d.getRaw .debug buf k = d.getRaw .release buf k) ∧
  (∀ k v, d.set .debug buf k v = d.set .release buf k v) ∧
  d.fromPacket .debug buf = d.fromPacket .release buf ∧
  d.packetSize .debug buf = d.packetSize .release buf ∧
  d.payload .debug buf = d.payload .release buf ∧
  (∀ new, d.payloadMutCopy .debug buf new = d.payloadMutCopy .release buf new) ∧
  d.debug .debug buf = d.debug .release buf

theorem FitsAt.same {d : Decl} {buf : Buf} (h : FitsAt d buf) (hs : SliceLen buf.length) : SameButPopulate d buf :=
  ⟨h.get hs, h.getRaw hs, h.set hs, h.fromPacket hs, h.packetSize hs, h.payload hs, h.payloadMut hs, h.debug hs⟩

/-- **C74** for initial, 0-RTT and handshake packets whose Length field covers at least the packet
number. Missing: other packets (`C43_modes_differ`), and `populate`. -/
theorem C74_quic_long_partial (buf : Buf) (hs : SliceLen buf.length) :
    (LengthCovers initial 12 buf → SameButPopulate initial buf) ∧
    (LengthCovers zeroRtt 10 buf → SameButPopulate zeroRtt buf) ∧
    (LengthCovers handshake 10 buf → SameButPopulate handshake buf) :=
  ⟨fun h => FitsAt.same (long_fits .initial rfl hs h) hs, fun h => FitsAt.same (long_fits .zeroRtt rfl hs h) hs,
    fun h => FitsAt.same (long_fits .handshake rfl hs h) hs⟩

/-- An initial packet of Length 3: a packet number of one byte and two bytes of frames. -/
def shortInitial : Buf := [0xC0, 0, 0, 0, 1, 0, 0, 0, 3, 7, 1, 1]

example : LengthCovers initial 12 shortInitial ∧ initial.get .debug shortInitial 14 = .ok (.nums [1, 1]) := by
  constructor
  · intro l v p hl hv hp
    have h1 : initial.getRaw .release shortInitial 12 = .ok [3] := by decide +kernel
    have h2 : initial.getRaw .release shortInitial 13 = .ok [7] := by decide +kernel
    rw [h1] at hl
    rw [h2] at hp
    cases hl
    cases hp
    obtain ⟨q, hq, h3, h4, h5⟩ := hv
    match q, hq with
    | 0, _ =>
      simp [beNat] at h5
      simp
      omega
    | 1, _ => simp at h3
    | 2, _ => simp at h3
    | 3, _ => simp at h3
  · decide +kernel

/-- C74: the fields up to the packet number of such a packet are the same in both builds whatever its
Length. -/
theorem C74_quic_long_front (buf : Buf) (hs : SliceLen buf.length) :
    ∀ e ∈ [(initial, 14), (zeroRtt, 12), (handshake, 12)], ∀ k < e.2,
      e.1.get .debug buf k = e.1.get .release buf k ∧ e.1.getRaw .debug buf k = e.1.getRaw .release buf k ∧
      ∀ v, e.1.set .debug buf k v = e.1.set .release buf k v := by
  refine List.forall_mem_cons.mpr ⟨fun k hk => long_front .initial rfl hs hk, ?_⟩
  refine List.forall_mem_cons.mpr ⟨fun k hk => long_front .zeroRtt rfl hs hk, ?_⟩
  refine List.forall_mem_cons.mpr ⟨fun k hk => long_front .handshake rfl hs hk, ?_⟩
  exact fun _ h => nomatch h

example : (initial.fields[13]?).map (·.name) = some "packet_number" ∧
    (zeroRtt.fields[11]?).map (·.name) = some "packet_number" ∧
    (handshake.fields[11]?).map (·.name) = some "packet_number" := by decide +kernel

/-- **C74** for an `NdpOption`: all methods (but `populate`) are the same in both builds if its length is
below 32. Otherwise its size and its data are not. -/
theorem C74_ndp_option_partial (t l : UInt8) (r : Buf) (hs : SliceLen (t :: l :: r).length) :
    (l.toNat < 32 → SameButPopulate ndpOption (t :: l :: r)) ∧
    (32 ≤ l.toNat → ndpOption.packetSize .debug (t :: l :: r) ≠ ndpOption.packetSize .release (t :: l :: r) ∧
      ndpOption.fromPacket .debug (t :: l :: r) ≠ ndpOption.fromPacket .release (t :: l :: r)) := by
  refine ⟨fun h => FitsAt.same (ndpOption_fits r h) hs, fun h => ⟨?_, ?_⟩⟩
  · rw [show ndpOption.packetSize .debug (t :: l :: r) = panic from ndp_size_panic r (by omega),
      show ndpOption.packetSize .release (t :: l :: r) = _ from ndp_size r (fun h => nomatch h)]
    exact fun h => nomatch h
  · rw [ndp_dec_panic r (by omega),
      show ndpOption.fromPacket .release (t :: l :: r) = _ from ndp_dec r (fun h => nomatch h)]
    exact fun h => nomatch h

example : SliceLen ([3, 31, 0] : Buf).length ∧ (31 : UInt8).toNat < 32 := by decide

/-- **C74** for neighbour discovery messages: everything but `options` is the same in both builds, and
`get_options()`, `from_packet()` and `{:?}` are the same exactly when the options can be read in debug
builds. Missing: `populate` and `set_options`, which are the same for options with all their data
(`C89_set_options`). -/
theorem C74_ndp_messages_partial {e : Decl × List Slot × Nat} (he : e ∈ ndpMessages) (buf : Buf)
    (hs : SliceLen buf.length) :
    (∀ k < optionsIdx e.2.1, e.1.get .debug buf k = e.1.get .release buf k ∧
      ∀ v, e.1.set .debug buf k v = e.1.set .release buf k v) ∧
    (∀ k, e.1.getRaw .debug buf k = e.1.getRaw .release buf k) ∧
    e.1.packetSize .debug buf = e.1.packetSize .release buf ∧
    e.1.payload .debug buf = e.1.payload .release buf ∧
    (∀ new, e.1.payloadMutCopy .debug buf new = e.1.payloadMutCopy .release buf new) ∧
    (e.2.2 ≤ buf.length →
      let readable := ∃ os, NdpOptions .debug (buf.drop e.2.2) os
      (e.1.get .debug buf (optionsIdx e.2.1) = e.1.get .release buf (optionsIdx e.2.1) ↔ readable) ∧
      (e.1.fromPacket .debug buf = e.1.fromPacket .release buf ↔ readable) ∧
      (e.1.debug .debug buf = e.1.debug .release buf ↔ readable)) := by
  have h := ndpMessages_shape he
  have hf := h.fits buf
  have hp : e.1.payloadIdx = some e.2.1.length ∧
      (e.1.upTo (optionsIdx e.2.1)).payloadIdx = some e.2.1.length := by
    simp only [ndpMessages, List.mem_cons, List.not_mem_nil, or_false] at he
    rcases he with rfl | rfl | rfl | rfl | rfl <;> decide +kernel
  have hpb : e.1.payloadBounds .debug buf = e.1.payloadBounds .release buf := by
    rw [← upTo_payloadBounds _ _ (Nat.lt_succ_self _) hp.1 hp.2, ← upTo_payloadBounds _ _ (Nat.lt_succ_self _) hp.1 hp.2]
    exact hf.payloadBounds hs
  refine ⟨fun k hk => ⟨?_, fun v => ?_⟩, fun k => ?_, ?_, ?_, fun new => ?_, fun hb => ?_⟩
  · rw [← upTo_get .debug _ hk, ← upTo_get .release _ hk]; exact hf.get hs k
  · rw [← upTo_set .debug _ _ hk, ← upTo_set .release _ _ hk]; exact hf.set hs k v
  · by_cases hk : k < optionsIdx e.2.1
    · rw [← upTo_getRaw .debug _ hk, ← upTo_getRaw .release _ hk]; exact hf.getRaw hs k
    · by_cases hk' : k = optionsIdx e.2.1
      · subst hk'
        rw [Decl.getRaw, Decl.getRaw, h.options]
        simp only [h.curOff, fieldLen]
        have := h.small
        unfold SliceLen at hs
        simp only [varSlice, ok_bind]
        rw [uadd_ok (by unfold usizeCard; omega), uadd_ok (by unfold usizeCard; omega)]
      · rw [Decl.getRaw, Decl.getRaw, List.getElem?_eq_none (by rw [h.count]; simp only [optionsIdx] at hk hk'; omega)]
  · rw [Decl.packetSize, Decl.packetSize, final_eq_before, final_eq_before, h.count, before_succ h.options,
      before_succ h.options]
    simp only [St.step, Ty.bits, Nat.add_zero, h.curOff]
  · rw [Decl.payload, Decl.payload, hpb]
  · rw [Decl.payloadMutCopy, Decl.payloadMutCopy, hpb]
  · obtain ⟨os, hr⟩ := C89_release_reads (buf.drop e.2.2)
    have hget := (C89_get_options he .release buf hs hb).1 os hr
    have hfrom := (C89_from_packet he .release buf hs hb).1 os hr
    by_cases hd : ∃ os, NdpOptions .debug (buf.drop e.2.2) os
    · obtain ⟨os', hd⟩ := hd
      have := ndp_unique (ndp_checked hd) hr
      subst this
      have hfrom' := (C89_from_packet he .debug buf hs hb).1 _ hd
      rw [hget, (C89_get_options he .debug buf hs hb).1 _ hd, hfrom.1, hfrom'.1, hfrom.2, hfrom'.2]
      exact ⟨⟨fun _ => ⟨_, hd⟩, fun _ => rfl⟩, ⟨fun _ => ⟨_, hd⟩, fun _ => rfl⟩, ⟨fun _ => ⟨_, hd⟩, fun _ => rfl⟩⟩
    · have hn := fun os h => hd ⟨os, h⟩
      have hfrom' := (C89_from_packet he .debug buf hs hb).2 hn
      rw [hget, (C89_get_options he .debug buf hs hb).2 hn, hfrom.1, hfrom'.1, hfrom.2, hfrom'.2]
      exact ⟨⟨fun h => (nomatch h), fun h => (hd h).elim⟩, ⟨fun h => (nomatch h), fun h => (hd h).elim⟩,
        ⟨fun h => (nomatch h), fun h => (hd h).elim⟩⟩

example : (routerSolicit, routerSolicitLayout, 8) ∈ ndpMessages ∧ SliceLen solicitation.length ∧
    8 ≤ solicitation.length := by
  refine ⟨by simp [ndpMessages], by decide, by decide⟩

end Verif.Props
