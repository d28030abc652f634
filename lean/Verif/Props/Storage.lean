import Verif.Proofs.Storage

/-!
# C100: indexing of packet storage
-/

namespace Verif.Props
open Verif

/-- **C100**, reading one byte: a position inside the storage gives the byte at that position, any
other position a panic; owned and borrowed, immutable and mutable storage alike. -/
theorem C100_index (p : PacketData) (q : MutPacketData) (i : Nat) :
    (∀ b, p.indexAt i = .ok b ↔ p.asSlice[i]? = some b) ∧
    (p.indexAt i = .error .panic ↔ p.len ≤ i) ∧
    (∀ b, q.indexAt i = .ok b ↔ q.asSlice[i]? = some b) ∧
    (q.indexAt i = .error .panic ↔ q.len ≤ i) := by
  have key : ∀ s : Buf, (∀ b, index s i = .ok b ↔ s[i]? = some b) ∧
      (index s i = .error .panic ↔ s.length ≤ i) := by
    intro s
    rw [← List.getElem?_eq_none_iff]
    unfold index panic
    cases s[i]? <;> simp
  exact ⟨(key _).1, (key _).2, (key _).1, (key _).2⟩

example : (PacketData.owned [7, 8, 9]).indexAt 2 = .ok 9 ∧
    (MutPacketData.borrowed [7, 8, 9]).indexAt 3 = .error .panic := by decide

/-- **C100**, reading a range: a range inside the storage gives the bytes that stand there, any
other range (one that ends before it starts included) a panic. -/
theorem C100_range (p : PacketData) (q : MutPacketData) (r : Span) :
    (∀ s, p.indexSpan r = .ok s ↔
      r.Within p.len ∧ StandsAt s p.asSlice r.lo (r.hi p.len)) ∧
    (p.indexSpan r = .error .panic ↔ ¬ r.Within p.len) ∧
    (∀ s, q.indexSpan r = .ok s ↔
      r.Within q.len ∧ StandsAt s q.asSlice r.lo (r.hi q.len)) ∧
    (q.indexSpan r = .error .panic ↔ ¬ r.Within q.len) := by
  have key : ∀ w : Buf, (∀ s, sliceSpan w r = .ok s ↔
      r.Within w.length ∧ StandsAt s w r.lo (r.hi w.length)) ∧
      (sliceSpan w r = .error .panic ↔ ¬ r.Within w.length) := by
    intro w
    by_cases h : r.Within w.length
    · rw [sliceSpan_within w r h]
      refine ⟨fun s => ⟨fun e => ?_, fun e => ?_⟩, by simp [h]⟩
      · cases e; exact ⟨h, standsAt_slice _ _ _ h⟩
      · rw [standsAt_unique e.2 (standsAt_slice _ _ _ h)]
    · rw [sliceSpan_without w r h]
      exact ⟨fun s => ⟨fun e => (by cases e), fun e => absurd e.1 h⟩, by simp [h, panic]⟩
  exact ⟨(key _).1, (key _).2, (key _).1, (key _).2⟩

example : (PacketData.borrowed [7, 8, 9, 10]).indexSpan (.range 1 3) = .ok [8, 9] ∧
    (PacketData.borrowed [7, 8, 9, 10]).indexSpan (.range 3 1) = .error .panic ∧
    (MutPacketData.owned [7, 8, 9, 10]).indexSpan (.from 2) = .ok [9, 10] ∧
    (MutPacketData.owned [7, 8, 9, 10]).indexSpan (.to 5) = .error .panic ∧
    (Span.range 1 3).Within 4 ∧ ¬ (Span.range 3 1).Within 4 := by decide

/-- **C100**, writing one byte: inside the storage it changes that byte and nothing else; outside it
panics. -/
theorem C100_index_mut (p : MutPacketData) (i : Nat) (b : UInt8) :
    (i < p.len → ∃ p', p.setAt i b = .ok p' ∧ SameKind p p' ∧
      ReplacedAt p.asSlice p'.asSlice [b] i) ∧
    (p.len ≤ i → p.setAt i b = .error .panic) := by
  refine ⟨fun h => ⟨p.withSlice (p.asSlice.set i b), ?_, sameKind_withSlice _ _, ?_⟩, fun h => ?_⟩
  · unfold MutPacketData.setAt setIndex
    unfold MutPacketData.len at h
    rw [if_pos h]; rfl
  · rw [asSlice_withSlice]
    refine ⟨by simp, fun j => ?_⟩
    rw [List.getElem?_set]
    unfold MutPacketData.len at h
    by_cases e : i = j
    · subst e; simp [h]
    · rw [if_neg e, if_neg (by simp; omega)]
  · unfold MutPacketData.setAt setIndex
    unfold MutPacketData.len at h
    rw [if_neg (by omega)]; rfl

example : (MutPacketData.owned [7, 8, 9]).setAt 1 200 = .ok (.owned [7, 200, 9]) ∧
    (MutPacketData.borrowed [7, 8, 9]).setAt 3 200 = .error .panic := by decide

/-- **C100**, writing a range: inside the storage, bytes as many as the range has take the place of
those that stood there and nothing else changes; a range that is not inside panics. -/
theorem C100_range_mut (p : MutPacketData) (r : Span) (new : Buf) :
    (r.Within p.len → new.length = r.hi p.len - r.lo →
      ∃ p', p.setSpan r new = .ok p' ∧ SameKind p p' ∧
        ReplacedAt p.asSlice p'.asSlice new r.lo) ∧
    (¬ r.Within p.len → p.setSpan r new = .error .panic) := by
  unfold MutPacketData.len
  refine ⟨fun h hn => ?_, fun h => ?_⟩
  · have hb := h
    obtain ⟨h1, h2⟩ := hb
    have key : Verif.setSpan p.asSlice r new =
        .ok (p.asSlice.take r.lo ++ new ++ p.asSlice.drop (r.lo + new.length)) := by
      unfold Verif.setSpan
      rw [sliceSpan_within _ _ h]
      show (if _ then _ else _) = _
      rw [if_pos (by simp; omega)]
      cases r <;> simp only [Span.lo, Span.hi] at h1 h2 hn ⊢
      · unfold copyInto; rw [if_pos (by omega)]
      · unfold copyInto; rw [if_pos (by omega)]
      · unfold copyInto; rw [if_pos (by omega)]
      · rw [List.drop_eq_nil_of_le (by omega)]; simp
    refine ⟨_, by unfold MutPacketData.setSpan; rw [key]; rfl, sameKind_withSlice _ _, ?_⟩
    rw [asSlice_withSlice]
    exact replacedAt_copy _ _ _ (by omega)
  · unfold MutPacketData.setSpan Verif.setSpan
    rw [sliceSpan_without _ _ h]; rfl

example : (MutPacketData.borrowed [7, 8, 9, 10]).setSpan (.range 1 3) [1, 2] =
      .ok (.borrowed [7, 1, 2, 10]) ∧
    (MutPacketData.owned [7, 8, 9, 10]).setSpan (.from 2) [1, 2] = .ok (.owned [7, 8, 1, 2]) ∧
    (MutPacketData.owned [7, 8, 9, 10]).setSpan (.range 3 2) [] = .error .panic := by decide

/-- **C100**: making the storage immutable keeps its bytes, their number, and whether they are
owned. -/
theorem C100_to_immutable (p : MutPacketData) :
    p.toImmutable.asSlice = p.asSlice ∧ p.toImmutable.len = p.len ∧
    ((∃ d, p = .owned d ∧ p.toImmutable = .owned d) ∨
      (∃ d, p = .borrowed d ∧ p.toImmutable = .borrowed d)) := by
  cases p with
  | owned d => exact ⟨rfl, rfl, .inl ⟨d, rfl, rfl⟩⟩
  | borrowed d => exact ⟨rfl, rfl, .inr ⟨d, rfl, rfl⟩⟩

example : (MutPacketData.owned [1, 2]).toImmutable = .owned [1, 2] ∧
    (MutPacketData.borrowed [1, 2]).toImmutable = .borrowed [1, 2] := by decide

end Verif.Props
