import Verif.Spec.Constants
import Verif.Proofs.Protocols
import Verif.Proofs.Addresses
import Verif.Model.Primitive
import Verif.Props.Vectors
import Verif.Props.Macro

/-! # Lemmas for C90 and C91 -/

namespace Verif
open Spec Props

/-- The field is a plain integer of `n` bits at bit `start`, and the constant has the value of bit
`bit` of that field. -/
def flagOk (f : Flag) (c : Const) : Bool :=
  f.decl.accepted &&
  match f.decl.fields[f.no]? with
  | some g => match g.ty with
    | .prim p => plainTy g.ty && (f.decl.fields.take (f.no + 1)).all isFixed &&
      decide (fixedBits (f.decl.fields.take f.no) ≤ f.bit) &&
      decide (f.bit < fixedBits (f.decl.fields.take f.no) + p.size) &&
      c.value == 2 ^ (fixedBits (f.decl.fields.take f.no) + p.size - 1 - f.bit)
    | _ => false
  | none => false

theorem and_two_pow_ne (v j : Nat) : v &&& 2 ^ j ≠ 0 ↔ v.testBit j = true := by
  constructor
  · intro h
    cases ht : v.testBit j with
    | true => rfl
    | false =>
      refine absurd (Nat.eq_of_testBit_eq fun i => ?_) h
      rw [Nat.testBit_and, Nat.testBit_two_pow, Nat.zero_testBit]
      by_cases hi : j = i
      · rw [← hi, ht]; rfl
      · simp [hi]
  · intro h h0
    have := congrArg (Nat.testBit · j) h0
    simp [Nat.testBit_and, h] at this

theorem bits_set_mid (l : List Bool) (s n v b : Nat) (hs : s + n ≤ l.length) (h1 : s ≤ b) (h2 : b < s + n)
    (hv : v = ofBits (bitSlice l s n)) :
    l.take s ++ toBits n (v ||| 2 ^ (s + n - 1 - b)) ++ l.drop (s + n) = l.set b true := by
  have hsl : (bitSlice l s n).length = n := by simp [bitSlice]; omega
  have hb : toBits n v = bitSlice l s n := by
    have := toBits_ofBits (bitSlice l s n)
    rwa [hsl, ← hv] at this
  apply List.ext_getElem?
  intro i
  rw [List.getElem?_set]
  by_cases hi : i < s
  · rw [List.append_assoc, List.getElem?_append_left (by simp; omega), List.getElem?_take_of_lt hi,
      if_neg (by omega)]
  · by_cases hi2 : i < s + n
    · rw [List.getElem?_append_left (by simp; omega), List.getElem?_append_right (by simp; omega)]
      have hl : (l.take s).length = s := by simp; omega
      rw [hl, toBits_getElem? _ _ _ (by omega), Nat.testBit_or, Nat.testBit_two_pow]
      have hg : some (v.testBit (n - 1 - (i - s))) = l[i]? := by
        rw [← toBits_getElem? n v (i - s) (by omega), hb, bitSlice, List.getElem?_take_of_lt (by omega),
          List.getElem?_drop]
        congr 1; omega
      by_cases hib : b = i
      · rw [if_pos hib, if_pos (by omega)]
        have : s + n - 1 - b = n - 1 - (i - s) := by omega
        simp [this]
      · rw [if_neg hib, ← hg]
        have : ¬ (s + n - 1 - b = n - 1 - (i - s)) := by omega
        simp [this]
    · rw [List.getElem?_append_right (by simp; omega), if_neg (by omega), List.getElem?_drop]
      congr 1
      simp; omega

/-- Everything C90 needs to know about field `k` of a struct of the crate. -/
def typedFieldOk (fs : List RawField) (d : Decl) (k : Nat) : Bool :=
  match fs[k]?, d.fields[k]? with
  | some rf, some f =>
    match f.ty with
    | .misc ps =>
      plainTy f.ty && (d.fields.take (k + 1)).all isFixed &&
      (fieldTypes.any fun t => t.name.toList == rf.ty &&
        (fieldTypes.all fun t' => t'.name.toList != rf.ty || t' == t) &&
        (rf.attrs.any fun a => match a with
          | .list (some "construct_with") items =>
            items.map (fun i => i.bind rustWidth) == t.args.map (fun a => rustWidth a.toList)
          | _ => false) &&
        t.tuple.map (fun a => rustWidth a.toList) == t.args.map (fun a => rustWidth a.toList) &&
        (t.args.map fun a => rustWidth a.toList).all (·.isSome) &&
        t.args.length == ps.length &&
        (ps.zip t.args).all (fun x => match rustWidth x.2.toList with
          | some w => decide (x.1.size ≤ w)
          | none => false)) &&
      (ps.length != 1 || allConstants.all fun c =>
        c.ty.toList != rf.ty || ps.all fun p => decide (c.value < 2 ^ p.size))
    | _ => true
  | _, _ => true

theorem crate_typedFields : (crateSources.all fun e =>
    (List.range e.2.2.fields.length).all fun k => typedFieldOk e.2.1 e.2.2 k) = true := by decide +kernel

theorem typedField {e : String × List RawField × Decl} (he : e ∈ crateSources) {k : Nat} {rf : RawField}
    {f : Field} {ps : List Prim} (hr : e.2.1[k]? = some rf) (hf : e.2.2.fields[k]? = some f)
    (ht : f.ty = .misc ps) :
    (plainTy f.ty = true ∧ (e.2.2.fields.take (k + 1)).all isFixed = true) ∧
    (∃ t ∈ fieldTypes, t.name.toList = rf.ty ∧ (∀ t' ∈ fieldTypes, t'.name.toList = rf.ty → t' = t) ∧
      (∃ items, Meta.list (some "construct_with") items ∈ rf.attrs ∧
        items.map (fun i => i.bind rustWidth) = t.args.map (fun a => rustWidth a.toList)) ∧
      t.tuple.map (fun a => rustWidth a.toList) = t.args.map (fun a => rustWidth a.toList) ∧
      (∀ a ∈ t.args, (rustWidth a.toList).isSome = true) ∧ t.args.length = ps.length ∧
      ∀ x ∈ ps.zip t.args, ∃ w, rustWidth x.2.toList = some w ∧ x.1.size ≤ w) ∧
    (ps.length = 1 → ∀ c ∈ allConstants, c.ty.toList = rf.ty → ∀ p ∈ ps, c.value < 2 ^ p.size) := by
  have hk := List.all_eq_true.mp (List.all_eq_true.mp crate_typedFields e he) k
    (List.mem_range.mpr (List.getElem?_eq_some_iff.mp hf).1)
  unfold typedFieldOk at hk
  rw [hr, hf] at hk
  simp only [ht, Bool.and_eq_true] at hk
  obtain ⟨⟨⟨h1, h2⟩, h3⟩, h4⟩ := hk
  refine ⟨⟨by rw [ht]; exact h1, h2⟩, ?_, ?_⟩
  · obtain ⟨t, htm, h3⟩ := List.any_eq_true.mp h3
    simp only [Bool.and_eq_true, beq_iff_eq, List.all_eq_true, Bool.or_eq_true, bne_iff_ne, ne_eq] at h3
    obtain ⟨⟨⟨⟨⟨⟨a1, a2⟩, a3⟩, a4⟩, a5⟩, a6⟩, a7⟩ := h3
    refine ⟨t, htm, a1, fun t' ht' hn => (a2 t' ht').resolve_left (fun h => h hn), ?_, a4, ?_, a6, ?_⟩
    · obtain ⟨a, ha, h⟩ := List.any_eq_true.mp a3
      split at h
      · exact ⟨_, ha, eq_of_beq h⟩
      · cases h
    · intro a ha
      exact a5 _ (List.mem_map.mpr ⟨a, ha, rfl⟩)
    · intro x hx
      have := a7 x hx
      split at this
      · rename_i w hw; exact ⟨w, hw, of_decide_eq_true this⟩
      · cases this
  · intro hl c hc hty p hp
    rcases Bool.or_eq_true _ _ |>.mp h4 with h | h
    · simp [hl] at h
    · have := List.all_eq_true.mp h c hc
      rcases Bool.or_eq_true _ _ |>.mp this with h | h
      · simp [hty] at h
      · exact of_decide_eq_true (List.all_eq_true.mp h p hp)

end Verif
