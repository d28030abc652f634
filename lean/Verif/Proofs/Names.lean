import Verif.Model.Names

/-! # Facts about match-arm tables -/

namespace Verif

theorem matchName_of_not_mem : ∀ (arms : List (Nat × String)) (v : Nat),
    v ∉ arms.map Prod.fst → matchName arms v = "unknown"
  | [], _, _ => rfl
  | (c, n) :: arms, v, h => by
    simp only [List.map_cons, List.mem_cons, not_or] at h
    simp only [matchName, if_neg h.1]
    exact matchName_of_not_mem arms v h.2

theorem matchName_mem : ∀ (arms : List (Nat × String)) (v : Nat),
    v ∈ arms.map Prod.fst → (v, matchName arms v) ∈ arms
  | [], _, h => by cases h
  | (c, n) :: arms, v, h => by
    by_cases hv : v = c
    · subst hv; simp [matchName]
    · simp only [List.map_cons, List.mem_cons] at h
      simp only [matchName, if_neg hv]
      exact List.mem_cons_of_mem _ (matchName_mem arms v (h.resolve_left hv))

/-- What has to be checked of the two tables: the values with an arm are the values with a constant,
each arm prints the name of a constant with that value, none prints `unknown`. -/
def TablesAgree (consts : List (String × Nat)) (arms : List (Nat × String)) : Prop :=
  (∀ c ∈ consts, c.2 ∈ arms.map Prod.fst) ∧
    (∀ a ∈ arms, (a.2, a.1) ∈ consts) ∧ "unknown" ∉ consts.map Prod.fst

instance (consts arms) : Decidable (TablesAgree consts arms) := by
  unfold TablesAgree; infer_instance

theorem tables_named {consts arms} (h : TablesAgree consts arms) {n v} (hm : (n, v) ∈ consts) :
    (matchName arms v, v) ∈ consts :=
  h.2.1 _ (matchName_mem arms v (h.1 _ hm))

theorem tables_unknown {consts arms} (h : TablesAgree consts arms) (v : Nat) :
    matchName arms v = "unknown" ↔ ∀ n, (n, v) ∉ consts := by
  constructor
  · intro hu n hm
    have := tables_named h hm
    rw [hu] at this
    exact h.2.2 (List.mem_map_of_mem (f := Prod.fst) this)
  · intro hn
    apply matchName_of_not_mem
    intro hm
    exact hn _ (h.2.1 _ (matchName_mem arms v hm))

end Verif
