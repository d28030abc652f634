import Verif.Model.Types
import Verif.Model.Parse

/-! # C69: the integer type names -/

namespace Verif

/-- The width of the smallest of `u8`, `u16`, `u32`, `u64` that holds `n` bits is `w`. -/
def Smallest (n w : Nat) : Prop :=
  w ∈ [8, 16, 32, 64] ∧ n ≤ w ∧ ∀ w' ∈ [8, 16, 32, 64], n ≤ w' → w ≤ w'

instance (n w : Nat) : Decidable (Smallest n w) := inferInstanceAs (Decidable (_ ∧ _ ∧ _))

/-- C69: every type name of the crate is read by the macro as an integer type, and stands for the
smallest Rust integer that holds it, which is the one the generated code is modelled with. -/
theorem C69_names (name : String) (w : Nat) (h : (name, w) ∈ builtinTypes ++ typeAliases) :
    ∃ n e spec, parseTy name.toList = some (n, e, spec) ∧ Smallest n w ∧ storageWidth n = w := by
  have key : ∀ x ∈ builtinTypes ++ typeAliases, ∀ r, parseTy x.1.toList = r →
      r.isSome = true ∧ ∀ t, r = some t → Smallest t.1 x.2 ∧ storageWidth t.1 = x.2 := by
    have : ∀ x ∈ builtinTypes ++ typeAliases, (parseTy x.1.toList).isSome = true ∧
        Smallest ((parseTy x.1.toList).map (·.1)).get! x.2 ∧
        storageWidth ((parseTy x.1.toList).map (·.1)).get! = x.2 := by decide +kernel
    intro x hx r hr
    subst hr
    obtain ⟨h1, h2, h3⟩ := this x hx
    refine ⟨h1, fun t ht => ?_⟩
    rw [ht] at h2 h3
    exact ⟨h2, h3⟩
  obtain ⟨h1, h2⟩ := key (name, w) h _ rfl
  cases hp : parseTy name.toList with
  | none => rw [hp] at h1; cases h1
  | some t =>
    obtain ⟨n, e, spec⟩ := t
    exact ⟨n, e, spec, rfl, h2 _ hp⟩

example : ("u12be", 16) ∈ builtinTypes ++ typeAliases := by decide +kernel

/-- C69: every width has a name: `u1` to `u8` without byte order, `u9be`, `u9le`, `u9he` to `u64be`,
`u64le`, `u64he` with; and no name has two meanings. -/
theorem C69_complete :
    (∀ n, 1 ≤ n → n ≤ 64 → ∀ e : Endianness, (n ≤ 8 → e = .big) →
      ∃ name w, (name, w) ∈ builtinTypes ++ typeAliases ∧
        parseTy name.toList = some (n, e, if n ≤ 8 then .no else .yes)) ∧
    (builtinTypes ++ typeAliases).Pairwise fun a b => a.1 ≠ b.1 := by
  refine ⟨?_, by decide +kernel⟩
  have key : ((List.range 65).all fun n => [Endianness.big, .little, .host].all fun e =>
      n == 0 || (n ≤ 8 && e != .big) || (builtinTypes ++ typeAliases).any fun x =>
        parseTy x.1.toList == some (n, e, if n ≤ 8 then .no else .yes)) = true := by decide +kernel
  intro n h1 h2 e he
  have k1 := List.all_eq_true.mp (List.all_eq_true.mp key n (by simp; omega)) e (by cases e <;> simp)
  have hn : (n == 0) = false := by simp; omega
  have hne : (decide (n ≤ 8) && e != .big) = false := by
    by_cases h8 : n ≤ 8
    · simp [he h8]
    · simp [h8]
  rw [hn, hne, Bool.false_or, Bool.false_or] at k1
  obtain ⟨x, hx, hp⟩ := List.any_eq_true.mp k1
  have hp := eq_of_beq hp
  exact ⟨x.1, x.2, hx, hp⟩

example : parseTy "u9he".toList = some (9, .host, .yes) := by decide +kernel

/-- C69: the macro reads more names than are defined: `u4be` is one of them. -/
theorem C69_undefined : parseTy "u4be".toList = some (4, .big, .yes) ∧
    ∀ w, ("u4be", w) ∉ builtinTypes ++ typeAliases := by
  refine ⟨by decide +kernel, fun w h => ?_⟩
  have : "u4be" ∈ (builtinTypes ++ typeAliases).map (·.1) := List.mem_map.mpr ⟨_, h, rfl⟩
  revert this
  decide +kernel

end Verif
