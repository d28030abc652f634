import Verif.Proofs.CodeRun
import Verif.Spec.CodeText

/-! # What the macro's operations and type names look like -/

namespace Verif
open CodeText

theorem nameOk_buffer {name : String} (h : name ∈ bufferNames) : ∃ P, NameOk name.toList P := by
  unfold bufferNames at h
  rcases List.mem_cons.mp h with rfl | h
  · exact ⟨_, nameOk_packet⟩
  rcases List.mem_cons.mp h with rfl | h
  · exact ⟨_, nameOk_self⟩
  rcases List.mem_cons.mp h with rfl | h
  · exact ⟨_, nameOk_underscore⟩
  · cases h

theorem typeName_facts : ∀ x ∈ typeNames, typeWidth x.1.toList = some x.2 ∧
    (x.1.toList ≠ [] ∧ ∀ c ∈ x.1.toList, LengthText.isWord c = true) := by decide +kernel

/-- The facts about operations that the texts depend on. -/
theorem ops_facts {s n : Nat} {e : Endianness} {ops : List GetOperation}
    (h : operations s n e = some ops) :
    ops.length ≤ 9 ∧ ops ≠ [] ∧ (∀ op ∈ ops, GetOk op ∧ op.mask < 256) ∧
      ∀ op ∈ toMutator ops, SetOk op ∧ op.saveMask < 256 := by
  have hk := operations_opsOk h
  simp only [opsOk, Bool.and_eq_true, List.all_eq_true, decide_eq_true_eq, Bool.not_eq_true',
    List.isEmpty_eq_false_iff] at hk
  obtain ⟨⟨h1, h2⟩, h3⟩ := hk
  refine ⟨h1, h2, fun op ho => ?_, fun op ho => ?_⟩
  · obtain ⟨⟨⟨⟨⟨a, b⟩, c⟩, d⟩, _⟩, _⟩ := h3 op ho
    exact ⟨⟨⟨by omega, by omega⟩, c, by omega⟩, d⟩
  · obtain ⟨g, hg, rfl⟩ := List.mem_map.mp ho
    obtain ⟨⟨⟨⟨⟨a, b⟩, c⟩, d⟩, e1⟩, f1⟩ := h3 g hg
    have hsv : g.toMutator.saveMask = 255 - g.mask := rfl
    refine ⟨⟨⟨?_, ?_⟩, ⟨e1, f1⟩, ?_⟩, ?_⟩
    · show g.shiftr - g.shiftl < 256; omega
    · show g.shiftl - g.shiftr < 256; omega
    · rw [hsv]; omega
    · rw [hsv]; omega

theorem valueMasks_shift (e : Expr) (l r : Nat) : valueMasks (shiftExpr e l r) = valueMasks e := by
  unfold shiftExpr
  split
  · rfl
  · split
    · show valueMasks e ++ [] = _
      rw [List.append_nil]
    · show valueMasks e ++ [] = _
      rw [List.append_nil]

theorem valueMasks_value (op : SetOperation) :
    valueMasks (valueExpr op) = if op.valueMask ≠ 0xFF then [op.valueMask] else [] := by
  unfold valueExpr
  split
  · rw [valueMasks_shift]; rfl
  · unfold shiftExpr
    split
    · rfl
    · split <;> rfl

theorem valueMasks_set (op : SetOperation) (idx : Nat) :
    valueMasks (setExpr op idx) = if op.valueMask ≠ 0xFF then [op.valueMask] else [] := by
  rw [← valueMasks_value]
  unfold setExpr
  split
  · rfl
  · rfl

theorem blockMasks_set : ∀ (ops : List SetOperation) (idx : Nat),
    blockMasks ⟨setStmts idx ops, none⟩ =
      ops.flatMap fun op => if op.valueMask ≠ 0xFF then [op.valueMask] else []
  | [], _ => rfl
  | op :: ops, idx => by
    have ih := blockMasks_set ops (idx + 1)
    unfold blockMasks at ih ⊢
    simp only at ih ⊢
    rw [setStmts, List.flatMap_cons, List.flatMap_cons, ih]
    simp only [valueMasks_set]

theorem literals_table : (typeNames.all fun x => match parseTy x.1.toList with
    | none => false
    | some (n, e, _) => (List.range 8).all fun s => match operations s n e with
      | none => true
      | some ops => (toMutator ops).any (fun op => decide (op.valueMask ≠ 0xFF ∧ 2 ^ x.2 ≤ op.valueMask)) ==
          decide (e ≠ .big ∧ (n = 16 ∨ n = 32) ∧ 5 ≤ s)) = true := by decide +kernel

end Verif
