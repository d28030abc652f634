import Verif.Model.Memory

/-! # Slices inside slices -/

namespace Verif.Spec

/-- The addresses of `s` are among those of `t`. -/
def Within (s t : Slice) : Prop := s.base = t.base ∧ t.off ≤ s.off ∧ s.off + s.len ≤ t.off + t.len

/-- No address belongs to both slices. -/
def Disjoint (s t : Slice) : Prop := s.base ≠ t.base ∨ s.off + s.len ≤ t.off ∨ t.off + t.len ≤ s.off

/-- A slice of a live object. -/
def Live (mem : Mem) (s : Slice) : Prop := ∃ b, mem s.base = some b ∧ s.off + s.len ≤ b.length

/-- What the address-level functions report, with the bytes the addresses hold. -/
def quicView (mem : Mem) (q : QuicRef) : QuicKind × Option Buf := (q.kind, mem.load q.data.asSlice)

/-- The same for frames. -/
def frameView (mem : Mem) (f : FrameRef) : FrameKind × Option Buf × Nat :=
  (f.kind, mem.load f.data.asSlice, f.count)

end Verif.Spec
