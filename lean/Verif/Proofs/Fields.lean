import Verif.Proofs.LittleEndian

/-! # Lemmas on integer field accessors -/

namespace Verif
open Spec

theorem accepted_iff (n : Nat) (e : Endianness) (s : Nat) :
    Prim.accepted ⟨n, e⟩ s = true ↔ fits s n := by
  unfold Prim.accepted
  exact operations_isSome_iff s n e

theorem inBuffer_bytes {buf : Buf} {co s n : Nat} (h : fits s n) (hb : InBuffer buf co s n) :
    co + numBytes s n ≤ buf.length := by
  have := numBytes_bounds h
  unfold InBuffer at hb
  omega

/-- Effect of the setter on the bit sequence: the field's digits are replaced, nothing else. -/
theorem setter_effect (n s co v : Nat) (buf : Buf)
    (hacc : Prim.accepted ⟨n, .big⟩ s = true) (hbuf : InBuffer buf co s n) :
    ∃ new, setPrim ⟨n, .big⟩ s buf co v = .ok new ∧ new.length = buf.length ∧
      bitsOf new = (bitsOf buf).take (8 * co + s) ++ toBits n v ++
        (bitsOf buf).drop (8 * co + s + n) :=
  setPrim_big ((accepted_iff _ _ _).mp hacc) buf co v
    (inBuffer_bytes ((accepted_iff _ _ _).mp hacc) hbuf)

theorem bitSlice_mid (a b c : List Bool) : bitSlice (a ++ b ++ c) a.length b.length = b := by
  unfold bitSlice
  rw [List.append_assoc, List.drop_left, List.take_left]

theorem storageWidth_le (n : Nat) : storageWidth n ≤ 64 := by
  unfold storageWidth; (repeat' split) <;> omega

/-- The widths C04 speaks of, by their bytes. -/
theorem symmetric_iff {s n : Nat} (h : fits s n) :
    (s + n ≤ 8 ∨ (2 * s + n) % 8 = 0) ↔ (numBytes s n = 1 ∨ n + 2 * s = 8 * numBytes s n) := by
  have := numBytes_bounds h
  unfold fits at h
  omega

end Verif
