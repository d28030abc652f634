import Verif.Proofs.QuicRelease
import Verif.Props.QuicOutcomes

/-!
# QUIC datagrams in release builds (C87)

Specification: `LongHead`, `Next`, `ReleaseReports`, `ReleaseThen` and `ReleaseBroken` of
`Verif/Spec/QuicRelease.lean`.
-/

namespace Verif.Props
open Verif Verif.Spec Verif.Spec.Quic

/-- **C87** What `QuicPacket::new` returns in a release build. -/
theorem C87_outcome (buf : Buf) (hsl : SliceLen buf.length) :
    (∀ qs, QuicPacket.new .release buf = .ok (some qs) ↔ ReleaseReports buf qs) ∧
    (QuicPacket.new .release buf = .ok none ↔ ReleaseThen Refused buf) ∧
    (QuicPacket.new .release buf = panic ↔ ReleaseThen ReleaseBroken buf) ∧
    QuicPacket.new .release buf ≠ .error .hang := by
  refine ⟨fun qs => ⟨fun h => ?_, fun h => new_releaseReports h hsl⟩,
    ⟨fun h => ?_, fun h => new_releaseRefused h hsl⟩,
    ⟨fun h => ?_, fun h => new_releasePanics h hsl⟩, fun h => ?_⟩
  all_goals
    rcases release_total _ buf (Nat.le_refl _) with ⟨qs', h'⟩ | h' | h'
    · have := new_releaseReports h' hsl
      rw [h] at this
      cases this <;> exact h'
    · have := new_releaseRefused h' hsl
      rw [h] at this
      cases this <;> exact h'
    · have := new_releasePanics h' hsl
      rw [h] at this
      cases this <;> exact h'

example := C87_outcome [0xE3, 0, 0, 0, 1, 0, 0, 2, 0x77, 0x78, 0x79] (by decide)

/-- **C87** What the accessors of a packet with a Length field return in both builds, whatever the
value of that field: `frames()` panics if the packet number is incomplete or longer than the Length
field says, the other accessors do not panic. `body` are the bytes after the Length field. -/
theorem C87_accessors (m : Mode) (h : Head) (head body : Buf) (hh : LongHead h head)
    (hsl : SliceLen (head ++ body).length) :
    let q : QuicPacket := ⟨h.kind, head ++ body⟩
    q.version m = .ok (some (.nums [h.version])) ∧
    q.destId m = .ok (bytesOf h.dcid) ∧
    q.srcId m = .ok (some (bytesOf h.scid)) ∧
    q.token m = .ok (h.token.map bytesOf) ∧
    q.packetNumber m = .ok (some (beNat (body.take h.pnLen))) ∧
    q.frames m = if h.pnLen ≤ body.length ∧ h.pnLen ≤ h.length then
      .ok (some ((body.drop h.pnLen).take (h.length - h.pnLen))) else panic := by
  obtain ⟨b, v, t, -, -, -, -, -, hf⟩ := longHead_facts hh
  exact (hf m body hsl).2

/-- The Length field says 2, the packet number has 4 bytes. -/
example := C87_accessors .debug ⟨.handshake, 1, [], [], none, 4, 2⟩ [0xE3, 0, 0, 0, 1, 0, 0, 2]
  [0x77, 0x78, 0x79]
  (.handshake (reserved := 0) (length := [2]) (by unfold HeaderOk; decide) (by decide) (by decide)
    ⟨0, by decide, by decide, by decide, by decide⟩) (by decide)

/-- **C87** The two builds differ exactly on the datagrams on which a debug build panics and a
release build can go on to the end. -/
theorem C87_differs_iff (buf : Buf) (hsl : SliceLen buf.length) :
    QuicPacket.new .release buf ≠ QuicPacket.new .debug buf ↔
      LongThen Broken buf ∧ ¬ ReleaseThen ReleaseBroken buf := by
  have h1 := new_panic_iff _ buf (Nat.le_refl _) hsl
  have h2 := (C87_outcome buf hsl).2.2.1
  constructor
  · intro h
    have hd : QuicPacket.new .debug buf = panic := by
      by_cases hd : QuicPacket.new .debug buf = panic
      · exact hd
      · exact (h (h1.2 hd)).elim
    exact ⟨h1.1.mp hd, fun hr => h (by rw [h2.mpr hr, hd])⟩
  · rintro ⟨h3, h4⟩ h
    rw [h1.1.mpr h3] at h
    exact h4 (h2.mp h)

example : LongThen Broken [0xE3, 0, 0, 0, 1, 0, 0, 2, 0x77, 0x78, 0x79] :=
  ((C87_differs_iff _ (by decide)).mp (by decide +kernel)).1

/-- **C87** If one step differs, the Length field is smaller than the packet number: a packet a release
build goes on after is complete, or its Length field says less than the number of packet number bytes
that are there. -/
theorem C87_short_length (h : Head) (head body rest : Buf) (hh : LongHead h head)
    (hn : Next h body rest) :
    (∃ p bs, LongEnc p bs ∧ head ++ body = bs ++ rest) ∨ h.length < min h.pnLen body.length := by
  by_cases hlt : h.length < min h.pnLen body.length
  · exact .inr hlt
  refine .inl ?_
  rcases hn with ⟨h1, h2, rfl⟩ | ⟨h1, h2, -⟩
  · rw [Nat.min_eq_left h1] at hlt
    have e1 := drop_eq_append (rest := body) (n := h.pnLen) h1
    have e2 := drop_eq_append (rest := body.drop h.pnLen) (n := h.length - h.pnLen)
      (by rw [List.length_drop]; omega)
    have e3 : (body.drop h.pnLen).drop (h.length - h.pnLen) = body.drop h.length := by
      rw [List.drop_drop]; congr 1; omega
    rw [e3] at e2
    have hb : body = body.take h.pnLen ++ ((body.drop h.pnLen).take (h.length - h.pnLen) ++ body.drop h.length) := by
      rw [← e2.1]; exact e1.1
    generalize body.take h.pnLen = pn at e1 hb
    generalize (body.drop h.pnLen).take (h.length - h.pnLen) = frames at e2 hb
    generalize body.drop h.length = more at hb ⊢
    have hpn : pn.length = h.pnLen := e1.2
    have hl : h.length = pn.length + frames.length := by
      rw [e2.2, hpn]; omega
    rw [hb]
    cases hh with
    | initial hh hp hr htl hv =>
      simp only at hl hpn
      subst hl hpn
      exact ⟨_, _, .initial hh hp hr htl hv, by simp⟩
    | zeroRtt hh hp hr hv =>
      simp only at hl hpn
      subst hl hpn
      exact ⟨_, _, .zeroRtt hh hp hr hv, by simp⟩
    | handshake hh hp hr hv =>
      simp only at hl hpn
      subst hl hpn
      exact ⟨_, _, .handshake hh hp hr hv, by simp⟩
  · omega

example := C87_short_length ⟨.handshake, 1, [], [], none, 4, 2⟩ [0xE3, 0, 0, 0, 1, 0, 0, 2]
  [0x77, 0x78, 0x79] []
  (.handshake (reserved := 0) (length := [2]) (by unfold HeaderOk; decide) (by decide) (by decide)
    ⟨0, by decide, by decide, by decide, by decide⟩)
  (.inr ⟨by decide, by decide, by decide⟩)

/-- **C84**, the part that holds in release builds: every reported packet is complete and shows its
content, or it is the last one and extends to the end, or it has a Length field smaller than its packet
number and its `frames()` panics. -/
theorem C84_release_partial (m : Mode) (buf : Buf) (hsl : SliceLen buf.length)
    (qs : List QuicPacket) (h : QuicPacket.new .release buf = .ok (some qs)) (q : QuicPacket) (hq : q ∈ qs) :
    (∃ p bs, LongEnc p bs ∧ bs <+: q.packet ∧ q.kind = kind p ∧ Shows m q p) ∨
      (qs.getLast? = some q ∧ Ending q.packet q.kind) ∨
      ∃ hd head body, LongHead hd head ∧ q = ⟨hd.kind, head ++ body⟩ ∧
        hd.length < min hd.pnLen body.length ∧ q.frames m = panic := by
  have hr := ((C87_outcome buf hsl).1 qs).mp h
  clear h
  induction hr with
  | nil => cases hq
  | last h =>
    rw [List.mem_singleton.mp hq]
    exact .inr (.inl ⟨rfl, h⟩)
  | @cons hd head body rest qs h hn hr ih =>
    rcases List.mem_cons.mp hq with rfl | hq
    · rcases C87_short_length hd head body rest h hn with ⟨p, bs, hl, he⟩ | hs
      · have hk : hd.kind = kind p := by
          obtain ⟨b, v, t, e1, hv, -, hk, -⟩ := longHead_facts h
          obtain ⟨b', v', t', e1', hv', -, hk', -⟩ := long_facts hl
          rw [e1, e1'] at he
          simp only [List.cons_append, List.append_assoc, List.cons.injEq] at he
          rw [he.1, (List.append_inj he.2 (by rw [hv, hv'])).1, hk'] at hk
          exact (Option.some.inj hk).symm
        refine .inl ⟨p, bs, hl, ?_, hk, ?_⟩
        · rw [QuicPacket.packet, he]; exact List.prefix_append _ _
        · rw [he] at hsl ⊢
          rw [hk]; exact (new_long m hl rest hsl).2
      · refine .inr (.inr ⟨hd, head, body, h, rfl, hs, ?_⟩)
        rw [(C87_accessors m hd head body h hsl).2.2.2.2.2, if_neg (by omega)]
    · rcases ih (slice_next hn hsl) hq with h1 | ⟨h1, h2⟩ | h1
      · exact .inl h1
      · refine .inr (.inl ⟨?_, h2⟩)
        rw [List.getLast?_cons, h1]; rfl
      · exact .inr (.inr h1)

/-- A Handshake packet with a two byte packet number and Length 1: a debug build panics, a release
build takes the second byte of the packet number for the first byte of the next packet. -/
example : ReleaseReports ([0xE1, 0, 0, 0, 1, 0, 0, 1] ++ [0x77, 0x40, 1, 2, 3, 4])
      [⟨.handshake, [0xE1, 0, 0, 0, 1, 0, 0, 1, 0x77, 0x40, 1, 2, 3, 4]⟩, ⟨.oneRtt, [0x40, 1, 2, 3, 4]⟩] ∧
    QuicPacket.new .release [0xE1, 0, 0, 0, 1, 0, 0, 1, 0x77, 0x40, 1, 2, 3, 4] =
      .ok (some [⟨.handshake, [0xE1, 0, 0, 0, 1, 0, 0, 1, 0x77, 0x40, 1, 2, 3, 4]⟩,
        ⟨.oneRtt, [0x40, 1, 2, 3, 4]⟩]) ∧
    QuicPacket.new .debug [0xE1, 0, 0, 0, 1, 0, 0, 1, 0x77, 0x40, 1, 2, 3, 4] = panic := by
  have h : LongHead ⟨.handshake, 1, [], [], none, 2, 1⟩ [0xE1, 0, 0, 0, 1, 0, 0, 1] :=
    .handshake (reserved := 0) (length := [1]) ⟨by decide, by decide, by decide, by decide⟩
      ⟨by decide, by decide⟩ (by decide) ⟨0, by decide, by decide, by decide, by decide⟩
  refine ⟨.cons h (.inl ⟨by decide, by decide, rfl⟩) (.last (k := .oneRtt) ?_), by decide +kernel,
    by decide +kernel⟩
  exact ⟨by decide, by decide +kernel, by decide +kernel⟩

/-- Three of four bytes of the packet number and Length 2: a release build goes on one byte after the
second of them, which is the end. -/
example : Next ⟨.handshake, 1, [], [], none, 4, 2⟩ [0x77, 0x78, 0x79] [] ∧
    QuicPacket.new .release [0xE3, 0, 0, 0, 1, 0, 0, 2, 0x77, 0x78, 0x79] =
      .ok (some [⟨.handshake, [0xE3, 0, 0, 0, 1, 0, 0, 2, 0x77, 0x78, 0x79]⟩]) :=
  ⟨.inr ⟨by decide, by decide, rfl⟩, by decide +kernel⟩

end Verif.Props
