import Verif.Proofs.MacAddrOrd

/-! # The order of MAC addresses (C107) -/

namespace Verif.Props
open Spec

/-- **C107**: addresses are compared as the 48-bit numbers their bytes spell, highest byte first. -/
theorem C107_number (a b : MacAddr) : a.cmp b = compare (beNat a.toBytes) (beNat b.toBytes) :=
  cmp_number a b

example : MacAddr.cmp ⟨0, 1, 255, 255, 255, 255⟩ ⟨0, 2, 0, 0, 0, 0⟩ = .lt := by decide
example : MacAddr.cmp ⟨0, 1, 0, 0, 0, 7⟩ ⟨0, 1, 0, 0, 0, 6⟩ = .gt := by decide

/-- **C107**: sorting addresses sorts their bytes in the order of dictionaries. -/
theorem C107_bytes (a b : MacAddr) : a.cmp b = .lt ↔ a.toBytes < b.toBytes := cmp_bytes a b

/-- **C107**: sorting addresses sorts their texts in the order of dictionaries. -/
theorem C107_text (a b : MacAddr) : a.cmp b = .lt ↔ a.display < b.display := cmp_text a b

example : "0a:00:00:00:00:09".toList < "0a:00:00:00:00:0a".toList :=
  (C107_text ⟨10, 0, 0, 0, 0, 9⟩ ⟨10, 0, 0, 0, 0, 10⟩).1 (by decide)

/-- **C107**: `cmp` agrees with `==`, and `partial_cmp`, `<`, `<=` with `cmp`. -/
theorem C107_consistent (a b : MacAddr) :
    (a.cmp b = .eq ↔ a = b) ∧ a.partialCmp b = some (a.cmp b) ∧ b.cmp a = (a.cmp b).swap ∧
    (a.lt b = true ↔ beNat a.toBytes < beNat b.toBytes) ∧
    (a.le b = true ↔ beNat a.toBytes ≤ beNat b.toBytes) :=
  ⟨cmp_eq a b, rfl, cmp_swap a b, lt_number a b, le_number a b⟩

example : MacAddr.le ⟨1, 0, 0, 0, 0, 0⟩ ⟨1, 0, 0, 0, 0, 0⟩ = true := by decide

/-- **C107**: the order is total and transitive, between `zero()` and `broadcast()`. -/
theorem C107_total (a b c : MacAddr) :
    (a.le b = true ∨ b.le a = true) ∧ (a.le b = true → b.le c = true → a.le c = true) ∧
    (a.le b = true → b.le a = true → a = b) ∧
    MacAddr.zero.le a = true ∧ (∃ top, MacAddr.broadcast = some top ∧ a.le top = true) := by
  refine ⟨?_, ?_, ?_, ?_, ⟨_, rfl, ?_⟩⟩
  · rw [le_number, le_number]; omega
  · rw [le_number, le_number, le_number]; omega
  · rw [le_number, le_number]; intro h h'; exact number_inj (by omega)
  · rw [le_number]; exact Nat.zero_le _
  · rw [le_number]; have := beNat_lt a.toBytes
    show beNat a.toBytes ≤ 281474976710655
    simp only [MacAddr.toBytes, List.length_cons, List.length_nil] at this
    simp only [MacAddr.toBytes]; omega

example : MacAddr.le ⟨9, 9, 9, 9, 9, 9⟩ ⟨255, 255, 255, 255, 255, 255⟩ = true := by decide

/-- **C107**: `max` and `min` return one of their arguments each, the larger and the smaller. -/
theorem C107_max_min (a b : MacAddr) :
    beNat (a.max b).toBytes = Nat.max (beNat a.toBytes) (beNat b.toBytes) ∧
    beNat (a.min b).toBytes = Nat.min (beNat a.toBytes) (beNat b.toBytes) ∧
    ((a.max b = a ∧ a.min b = b) ∨ (a.max b = b ∧ a.min b = a)) := by
  have hl := lt_number b a
  unfold MacAddr.max MacAddr.min
  by_cases h : b.lt a = true
  · have := hl.1 h
    simp only [h, if_true, and_self, true_or, and_true, Nat.max_def, Nat.min_def]
    constructor <;> split <;> omega
  · have : ¬ beNat b.toBytes < beNat a.toBytes := fun hh => h (hl.2 hh)
    simp only [h, Bool.false_eq_true, if_false, and_self, or_true, and_true, Nat.max_def, Nat.min_def]
    constructor <;> split <;> omega

example : MacAddr.max ⟨1, 0, 0, 0, 0, 0⟩ ⟨0, 9, 9, 9, 9, 9⟩ = ⟨1, 0, 0, 0, 0, 0⟩ := by decide

end Verif.Props
