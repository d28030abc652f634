import Verif.Model.Storage

/-!
# What an index selects

The positions of a buffer of `n` bytes that an index names: `lo`, `lo + 1`, ..., up to but not
including `hi`.
-/

namespace Verif

/-- The first position named by a range: where it starts, or the beginning. -/
def Span.lo : Span → Nat
  | .range a _ => a
  | .to _ => 0
  | .from a => a
  | .full => 0

/-- The position after the last one named by a range: where it ends, or the end of the buffer. -/
def Span.hi (n : Nat) : Span → Nat
  | .range _ b => b
  | .to b => b
  | .from _ => n
  | .full => n

/-- The range lies within a buffer of `n` bytes. -/
def Span.Within (r : Span) (n : Nat) : Prop := r.lo ≤ r.hi n ∧ r.hi n ≤ n

instance (r : Span) (n : Nat) : Decidable (r.Within n) := by unfold Span.Within; infer_instance

/-- `part` is what stands in `whole` from position `lo` up to `hi`. -/
def StandsAt (part whole : Buf) (lo hi : Nat) : Prop :=
  part.length = hi - lo ∧ ∀ k, k < part.length → part[k]? = whole[lo + k]?

/-- `after` is `before` with the bytes from position `lo` on replaced by `new`. -/
def ReplacedAt (before after new : Buf) (lo : Nat) : Prop :=
  after.length = before.length ∧
    ∀ j, after[j]? =
      if lo ≤ j ∧ j < lo + new.length then new[j - lo]? else before[j]?

/-- The same kind of storage: both own their bytes or both borrow them. -/
def SameKind : MutPacketData → MutPacketData → Prop
  | .owned _, .owned _ => True
  | .borrowed _, .borrowed _ => True
  | _, _ => False

end Verif
