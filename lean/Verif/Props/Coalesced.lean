import Verif.Spec.Coalesced
import Verif.Props.QuicOutcomes
import Verif.Props.QuicRewrite

/-!
# C128: the packets of a datagram do not depend on those behind them

`withTail`, `SameAnswers` and `after` are in `Spec/Coalesced`.
-/

set_option autoImplicit false

namespace Verif.Props
open Spec Spec.Quic

/-- **C128** as stated: if a datagram `front ++ r` is parsed into the packets `pre` and a packet that begins with
`r`, then `front` with any other bytes `r'` is parsed into the same packets `pre`, with the same answers, and
the packets of `r'`. -/
def C128_statement : Prop :=
  ∀ (m : Mode) (front r r' : Buf) (pre qs : List QuicPacket) (q : QuicPacket),
    SliceLen (front ++ r).length → SliceLen (front ++ r').length →
    QuicPacket.new m (front ++ r) = .ok (some (pre ++ q :: qs)) → q.packet = r →
    QuicPacket.new m (front ++ r') = after (pre.map (withTail r r')) (QuicPacket.new m r') ∧
      ∀ x ∈ pre, SameAnswers m x (withTail r r' x)

theorem reports_head {buf : Buf} {q : QuicPacket} {qs : List QuicPacket} (h : Reports buf (q :: qs)) :
    q.packet = buf := by
  cases h <;> rfl

theorem reports_suffix {buf : Buf} {qs : List QuicPacket} (h : Reports buf qs) : ∀ q ∈ qs, q.packet <:+ buf := by
  induction h with
  | nil => simp
  | last h => intro q hq; rw [List.mem_singleton.mp hq]; exact List.suffix_refl _
  | cons h hr ih =>
    intro q hq
    rcases List.mem_cons.mp hq with rfl | hq
    · exact List.suffix_refl _
    · exact (ih q hq).trans (List.suffix_append _ _)

theorem shows_same {m : Mode} {q q' : QuicPacket} {p : Packet} (hk : q'.kind = q.kind) (h : Shows m q p)
    (h' : Shows m q' p) : SameAnswers m q q' := by
  have key : ∀ {v : Option Nat} {d : Buf} {s t : Option Buf} {n : Option Nat} {f : Option Buf},
      Accessors m q v d s t n f → Accessors m q' v d s t n f → SameAnswers m q q' := by
    rintro v d s t n f ⟨a1, a2, a3, a4, a5, a6⟩ ⟨b1, b2, b3, b4, b5, b6⟩
    exact ⟨hk, by rw [a1, b1], by rw [a4, b4], by rw [a5, b5], by rw [a2, b2], by rw [a3, b3], by rw [a6, b6]⟩
  cases p with
  | initial => exact key h h'
  | zeroRtt => exact key h h'
  | handshake => exact key h h'
  | retry => exact key h.1 h'.1
  | versionNegotiation => exact key h.1 h'.1
  | oneRtt => exact key h h'

/-- **C128** for datagrams that a debug build parses: other bytes behind a packet change neither the packets
before them nor their answers, in any build. Missing: packets that only a release build accepts. -/
theorem C128_tail_partial (m : Mode) (front r r' : Buf) (pre qs : List QuicPacket) (q : QuicPacket)
    (hsl : SliceLen (front ++ r).length) (hsl' : SliceLen (front ++ r').length)
    (h : QuicPacket.new .debug (front ++ r) = .ok (some (pre ++ q :: qs))) (hq : q.packet = r) :
    QuicPacket.new m (front ++ r') = after (pre.map (withTail r r')) (QuicPacket.new m r') ∧
      ∀ x ∈ pre, SameAnswers m x (withTail r r' x) := by
  have hr := (C83_accepted_iff _ hsl _).mp h
  clear h
  induction pre generalizing front with
  | nil =>
    have := reports_head hr
    rw [hq] at this
    have : front = [] := by
      have h2 := congrArg List.length this
      rw [List.length_append] at h2
      exact List.length_eq_zero_iff.mp (by omega)
    subst this
    refine ⟨?_, by simp⟩
    rw [List.nil_append, List.map_nil]
    unfold after
    split
    · rename_i heq; rw [heq]; rfl
    · rfl
  | cons x pre ih =>
    generalize hb : front ++ r = buf at hr
    rw [List.cons_append] at hr
    generalize hL : x :: (pre ++ q :: qs) = L at hr
    cases hr with
    | nil => cases hL
    | last h => simp at hL
    | @cons p bs rest qs' hl hr' =>
      obtain ⟨rfl, rfl⟩ := List.cons.inj hL
      have hs : r <:+ rest := hq ▸ reports_suffix hr' q (by simp)
      obtain ⟨front', rfl⟩ := hs
      rw [← List.append_assoc] at hb
      have hf : front = bs ++ front' := List.append_cancel_right hb
      subst hf
      rw [List.append_assoc] at hsl hsl' ⊢
      obtain ⟨i1, i2⟩ := ih front' (slice_tail hsl) (slice_tail hsl') hr'
      have ht : withTail r r' ⟨kind p, bs ++ (front' ++ r)⟩ = ⟨kind p, bs ++ (front' ++ r')⟩ := by
        simp only [withTail, QuicPacket.packet, QuicPacket.mk.injEq, true_and]
        rw [← List.append_assoc, List.length_append, Nat.add_sub_cancel, List.take_left, List.append_assoc]
      refine ⟨?_, ?_⟩
      · rw [(new_long m hl _ hsl').1, i1, List.map_cons, ht]
        cases hn : QuicPacket.new m r' with
        | error e => rfl
        | ok o =>
          cases o with
          | none => rfl
          | some l => rfl
      · intro y hy
        rcases List.mem_cons.mp hy with rfl | hy
        · rw [ht]
          exact shows_same rfl (new_long m hl _ hsl).2 (new_long m hl _ hsl').2
        · exact i2 y hy

/-- C128 is false in release builds: with a Length of 0 the packet number is the first byte of the next packet. -/
theorem C128_false : ¬ C128_statement := by
  intro h
  have := (h .release (overlapping.take 9) (overlapping.drop 9) (0x41 :: overlapping.drop 10)
    [⟨.initial, overlapping⟩] [] ⟨.oneRtt, overlapping.drop 9⟩ (by unfold SliceLen; decide) (by unfold SliceLen; decide)
    (by decide +kernel) rfl).2 _ (List.mem_singleton.mpr rfl)
  exact absurd this.2.2.2.1 (by decide +kernel)

/-- **C128**: setting a field of bytes of any packet of a datagram leaves the packets before and behind it as
they are; the packets before it give the same answers. -/
theorem C128_rewrite_partial (m : Mode) (front r r' : Buf) (pre qs : List QuicPacket) (q : QuicPacket)
    (hm : m = .debug ∨ ¬ LongHeader q.kind.decl) (k : Nat) (f : Field) (old bs : Buf)
    (hsl : SliceLen (front ++ r).length)
    (h : QuicPacket.new .debug (front ++ r) = .ok (some (pre ++ q :: qs))) (hq : q.packet = r)
    (hf : q.kind.decl.fields[k]? = some f) (hsome : f.len.isSome = true) (hname : f.name ∈ byteFields)
    (hg : q.kind.decl.get m r k = .ok (bytesOf old)) (hset : q.kind.decl.set m r k (bytesOf bs) = .ok r') :
    QuicPacket.new m (front ++ r') = .ok (some (pre.map (withTail r r') ++ ⟨q.kind, r'⟩ :: qs)) ∧
      ∀ x ∈ pre, SameAnswers m x (withTail r r' x) := by
  have hall : QuicPacket.new m (front ++ r) = .ok (some (pre ++ q :: qs)) :=
    new_reports m ((C83_accepted_iff _ hsl _).mp h) hsl
  have hr : QuicPacket.new m r = .ok (some (q :: qs)) := by
    have ht := (C128_tail_partial m front r r pre qs q hsl hsl h hq).1
    rw [hall] at ht
    cases hn : QuicPacket.new m r with
    | error e => rw [hn] at ht; cases ht
    | ok o =>
      cases o with
      | none => rw [hn] at ht; cases ht
      | some l =>
        rw [hn] at ht
        have := Option.some.inj (Except.ok.inj ht)
        rw [(List.append_inj this (by simp)).2]
  have hlen : r'.length = r.length := by
    obtain ⟨_, _, -, -, h, -⟩ := C20_quic _ (.inl ⟨q.kind, rfl⟩) m r r' k f _ (slice_tail hsl) hf hsome hset
    exact h
  have hsl' : SliceLen (front ++ r').length := by
    rw [List.length_append] at hsl ⊢
    rw [hlen]; exact hsl
  obtain ⟨h1, h2⟩ := C128_tail_partial m front r r' pre qs q hsl hsl' h hq
  refine ⟨?_, h2⟩
  rw [h1, C106_packets_partial m r r' q qs hm k f old bs (slice_tail hsl) hr hf hsome hname hg hset]
  rfl

/-- An Initial packet, then a 1-RTT packet or nothing. -/
example : QuicPacket.new .release (sampleDatagram.take 17) = .ok (some [⟨.initial, sampleDatagram.take 17⟩]) := by
  have := (C128_tail_partial .release (sampleDatagram.take 17) (sampleDatagram.drop 17) [] [⟨.initial, sampleDatagram⟩] []
    ⟨.oneRtt, sampleDatagram.drop 17⟩ (by unfold SliceLen; decide) (by unfold SliceLen; decide) (by decide +kernel) rfl).1
  exact this

/-- The connection id of the second packet is set. -/
example := C128_rewrite_partial .debug (sampleDatagram.take 17) (sampleDatagram.drop 17)
  [0x40, 8, 7, 6, 5, 4, 3, 2, 1, 0x77, 1] [⟨.initial, sampleDatagram⟩] [] ⟨.oneRtt, sampleDatagram.drop 17⟩ (.inl rfl) 6
  (fbytes "dest_id" (lenConst 8)) [1, 2, 3, 4, 5, 6, 7, 8] [8, 7, 6, 5, 4, 3, 2, 1] (by unfold SliceLen; decide)
  (by decide +kernel) rfl rfl rfl (by decide) (by decide +kernel) (by decide +kernel)

end Verif.Props
