import Verif.Spec.Storage

/-! # Lemmas about indexing -/

namespace Verif

theorem sliceSpan_within (buf : Buf) (r : Span) (h : r.Within buf.length) :
    sliceSpan buf r = .ok ((buf.take (r.hi buf.length)).drop r.lo) := by
  obtain ⟨h1, h2⟩ := h
  cases r <;> simp only [Span.lo, Span.hi] at h1 h2 <;>
    simp [sliceSpan, slice, sliceFrom, Span.lo, Span.hi, h1, h2]

theorem sliceSpan_without (buf : Buf) (r : Span) (h : ¬ r.Within buf.length) :
    sliceSpan buf r = panic := by
  unfold Span.Within at h
  cases r <;> simp only [Span.lo, Span.hi] at h <;> simp [sliceSpan, slice, sliceFrom] <;> omega

theorem standsAt_slice (buf : Buf) (lo hi : Nat) (h : lo ≤ hi ∧ hi ≤ buf.length) :
    StandsAt ((buf.take hi).drop lo) buf lo hi := by
  refine ⟨by simp; omega, fun k hk => ?_⟩
  simp at hk
  rw [List.getElem?_drop, List.getElem?_take, if_pos (by omega)]

theorem standsAt_unique {p q w : Buf} {lo hi : Nat} (h : StandsAt p w lo hi)
    (h' : StandsAt q w lo hi) : p = q := by
  apply List.ext_getElem?
  intro k
  by_cases hk : k < p.length
  · rw [h.2 k hk, h'.2 k (by rw [h'.1, ← h.1]; exact hk)]
  · rw [List.getElem?_eq_none (by omega), List.getElem?_eq_none (by rw [h'.1, ← h.1]; omega)]

theorem asSlice_withSlice (p : MutPacketData) (s : Buf) : (p.withSlice s).asSlice = s := by
  cases p <;> rfl

theorem sameKind_withSlice (p : MutPacketData) (s : Buf) : SameKind p (p.withSlice s) := by
  cases p <;> trivial

theorem replacedAt_copy (buf new : Buf) (a : Nat) (h : a + new.length ≤ buf.length) :
    ReplacedAt buf (buf.take a ++ new ++ buf.drop (a + new.length)) new a := by
  refine ⟨by simp; omega, fun j => ?_⟩
  by_cases h1 : j < a
  · rw [if_neg (by omega), List.append_assoc, List.getElem?_append_left (by simp; omega),
      List.getElem?_take, if_pos h1]
  · by_cases h2 : j < a + new.length
    · rw [if_pos (by omega), List.getElem?_append_left (by simp; omega),
        List.getElem?_append_right (by simp; omega)]
      congr 1; simp; omega
    · rw [if_neg (by omega), List.getElem?_append_right (by simp; omega), List.getElem?_drop]
      congr 1; simp; omega

end Verif
