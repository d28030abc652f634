import Verif.Spec.CallCount
import Verif.Proofs.Running

/-!
# Lemmas about the number of getters called
-/

set_option autoImplicit false

namespace Verif
open Spec LengthText

theorem count_val (I : Meaning RunVal) (inside : String → Nat) (e : RExpr) :
    (e.value (countMeaning I inside)).val = e.value I := by
  induction e <;> simp_all [RExpr.value, countMeaning]

theorem also_le (x y : Counted) : x.also y ≤ x.calls + y.calls := by
  unfold Counted.also; split <;> omega

theorem count_le (I : Meaning RunVal) {inside inside' : String → Nat} (h : ∀ n, inside n ≤ inside' n) (e : RExpr) :
    (e.value (countMeaning I inside)).calls ≤ e.value (callMeaning inside') := by
  induction e with
  | name n => exact Nat.le_refl _
  | int t => exact Nat.le_refl _
  | call f x ih => exact ih
  | call0 f => exact Nat.le_refl _
  | mac f => exact Nat.le_refl _
  | method x f ih =>
    simp only [RExpr.value, countMeaning, callMeaning]
    simp only [countMeaning, callMeaning] at ih
    refine Nat.add_le_add ih ?_
    cases hg : getterName f with
    | none => split <;> simp_all
    | some n =>
      have := h n
      split
      · rename_i heq; cases heq; simpa using this
      · omega
  | methodArg x f y ihx ihy => exact Nat.le_trans (also_le _ _) (Nat.add_le_add ihx ihy)
  | field x t ih => exact ih
  | cast x t ih => exact ih
  | bin c x y ihx ihy => exact Nat.le_trans (also_le _ _) (Nat.add_le_add ihx ihy)
  | rest x ih => exact ih
  | ref x ih => exact ih
  | ite c x y ihc ihx ihy =>
    simp only [RExpr.value, countMeaning, callMeaning]
    simp only [countMeaning, callMeaning] at ihc ihx ihy
    split <;> omega

/-! ## Exact numbers -/

/-- A value that is not a failure. -/
def RunVal.Good : RunVal → Prop
  | .self => True
  | .val (.ok _) => True
  | .args (.ok _) (.ok _) => True
  | _ => False

theorem good_not_failed {v : RunVal} (h : RunVal.Good v) : v.failed = false := by
  unfold RunVal.Good at h
  split at h <;> first | rfl | exact h.elim

theorem also_good {x y : Counted} (h : RunVal.Good x.val) : x.also y = x.calls + y.calls := by
  simp [Counted.also, good_not_failed h]

theorem good_bind {α : Type} {r : Res α} {k : α → Res RVal} (h : RunVal.Good (.val (r >>= k))) : ∃ a, r = .ok a := by
  cases r with
  | ok a => exact ⟨a, rfl⟩
  | error e => exact h.elim

theorem good_map {α : Type} {r : Res α} {k : α → Res Nat} (h : RunVal.Good (.usize (r >>= k))) : ∃ a, r = .ok a := by
  cases r with
  | ok a => exact ⟨a, rfl⟩
  | error e => exact h.elim

theorem count_eq (m : Mode) (d : Decl) (buf : Buf) (inside : String → Nat) (e : RExpr) (hn : e.value noIf = true)
    (hg : RunVal.Good (e.value (packetMeaning m d buf))) :
    (e.value (countMeaning (packetMeaning m d buf) inside)).calls = e.value (callMeaning inside) := by
  induction e with
  | name n => rfl
  | int t => rfl
  | call0 f => rfl
  | mac f => rfl
  | call f x ih =>
    refine ih hn ?_
    simp only [RExpr.value, packetMeaning] at hg
    simp only [packetMeaning]
    split at hg
    · rename_i r heq
      obtain ⟨a, rfl⟩ := good_bind hg
      rw [heq]; trivial
    · rename_i a b heq
      obtain ⟨x, rfl⟩ := good_bind hg
      obtain ⟨y, rfl⟩ := good_bind (r := b) (k := fun y => apply2 f x y) hg
      rw [heq]; trivial
    · exact hg.elim
  | method x f ih =>
    have hx : RunVal.Good (x.value (packetMeaning m d buf)) ∧
        (x.value (packetMeaning m d buf) = .self ∨ getterName f = none) := by
      simp only [RExpr.value, packetMeaning] at hg
      simp only [packetMeaning]
      split at hg
      · rename_i heq; rw [heq]; exact ⟨trivial, .inl rfl⟩
      · rename_i r heq
        obtain ⟨a, rfl⟩ := good_bind hg
        rw [heq]
        refine ⟨trivial, .inr ?_⟩
        have h2 : RunVal.Good (.val (applyMethod0 f a)) := hg
        unfold applyMethod0 at h2
        split at h2
        · split at h2
          · rename_i h; rw [h]; decide
          · split at h2
            · rename_i h; rw [h]; decide
            · exact h2.elim
        · split at h2
          · rename_i h; rw [h]; decide
          · exact h2.elim
        · exact h2.elim
      · exact hg.elim
    have h1 := ih hn hx.1
    simp only [RExpr.value, countMeaning, callMeaning]
    simp only [countMeaning, callMeaning] at h1
    rw [h1]
    congr 1
    have hv := count_val (packetMeaning m d buf) inside x
    simp only [countMeaning] at hv
    rcases hx.2 with h | h
    · rw [hv, h]
      cases getterName f <;> rfl
    · rw [h]
      split
      · rename_i heq; cases heq
      · rfl
  | methodArg x f y ihx ihy =>
    simp only [RExpr.value, noIf, Bool.and_eq_true] at hn
    have hxy : RunVal.Good (x.value (packetMeaning m d buf)) ∧ RunVal.Good (y.value (packetMeaning m d buf)) := by
      simp only [RExpr.value, packetMeaning] at hg
      simp only [packetMeaning]
      split at hg
      · rename_i r s h1 h2
        obtain ⟨a, rfl⟩ := good_bind hg
        obtain ⟨b, rfl⟩ := good_bind (r := s) (k := fun y => applyMethod1 f a y) hg
        rw [h1, h2]; exact ⟨trivial, trivial⟩
      · exact hg.elim
    have h1 := ihx hn.1 hxy.1
    have h2 := ihy hn.2 hxy.2
    show Counted.also _ _ = _
    rw [also_good (by rw [count_val]; exact hxy.1), h1, h2]
    rfl
  | field x t ih =>
    refine ih hn ?_
    simp only [RExpr.value, packetMeaning] at hg
    simp only [packetMeaning]
    split at hg
    · rename_i r heq
      split at hg
      · obtain ⟨a, rfl⟩ := good_bind hg
        rw [heq]; trivial
      · exact hg.elim
    · exact hg.elim
  | cast x t ih =>
    refine ih hn ?_
    simp only [RExpr.value, packetMeaning] at hg
    simp only [packetMeaning]
    split at hg
    · rename_i r heq
      split at hg
      · obtain ⟨a, rfl⟩ := good_map hg
        rw [heq]; trivial
      · exact hg.elim
    · exact hg.elim
  | bin c x y ihx ihy =>
    simp only [RExpr.value, noIf, Bool.and_eq_true] at hn
    have hxy : RunVal.Good (x.value (packetMeaning m d buf)) ∧ RunVal.Good (y.value (packetMeaning m d buf)) := by
      simp only [RExpr.value, packetMeaning] at hg
      simp only [packetMeaning]
      split at hg
      · rename_i r s h1 h2
        rw [h1, h2]
        split at hg
        · cases r <;> cases s <;> first | exact ⟨trivial, trivial⟩ | exact hg.elim
        · split at hg
          · obtain ⟨a, rfl⟩ := good_bind hg
            cases s with
            | ok b => exact ⟨trivial, trivial⟩
            | error e => exact hg.elim
          · exact hg.elim
      · exact hg.elim
    have h1 := ihx hn.1 hxy.1
    have h2 := ihy hn.2 hxy.2
    show Counted.also _ _ = _
    rw [also_good (by rw [count_val]; exact hxy.1), h1, h2]
    rfl
  | rest x ih =>
    refine ih hn ?_
    simp only [RExpr.value, packetMeaning] at hg
    simp only [packetMeaning]
    split at hg
    · rename_i r heq
      obtain ⟨a, rfl⟩ := good_bind hg
      rw [heq]; trivial
    · exact hg.elim
  | ref x ih => exact ih hn hg
  | ite c x y ihc ihx ihy => cases hn

/-! ## Positions -/

theorem position_sum (c : String → Nat) (bits : Nat) (ls : List Nat) :
    Spec.position (callMeaning c) bits ls = ls.sum := by
  have : ∀ (ls : List Nat) (a : Nat), ls.foldl ((callMeaning c).op '+') a = a + ls.sum := by
    intro ls
    induction ls with
    | nil => simp
    | cons x ls ih =>
      intro a
      rw [List.foldl_cons, ih, List.sum_cons]
      simp only [callMeaning]
      omega
  rw [Spec.position, this]
  simp [callMeaning]

theorem lengthsFrom_width (c : String → Nat) (fields : List RawField) (w w' : RawField → Nat)
    (len : RawField → Option RExpr) (fs : List RawField) (b b' : Nat) (ls : List Nat) :
    lengthsFrom (callMeaning c) fields w len b ls fs = lengthsFrom (callMeaning c) fields w' len b' ls fs := by
  induction fs generalizing b b' ls with
  | nil => rfl
  | cons f fs ih =>
    simp only [lengthsFrom, position_sum]
    exact ih _ _ _

theorem positionOf_calls (c : String → Nat) (fields : List RawField) (w : RawField → Nat)
    (len : RawField → Option RExpr) (k : Nat) :
    positionOf (callMeaning c) fields w len k = positionCalls c fields len k := by
  simp only [positionCalls, positionOf, position_sum]
  rw [lengthsFrom_width c fields w (fun _ => 0)]

theorem positionCalls_zero (c : String → Nat) (fields : List RawField) (len : RawField → Option RExpr) :
    positionCalls c fields len 0 = 0 := by
  simp [positionCalls, positionOf, position_sum, lengthsFrom]

theorem positionCalls_succ (c : String → Nat) (fields : List RawField) (len : RawField → Option RExpr) {k : Nat}
    {f : RawField} (hf : fields[k]? = some f) :
    positionCalls c fields len (k + 1) = positionCalls c fields len k + lengthCalls c fields len k f := by
  obtain ⟨hk, rfl⟩ := List.getElem?_eq_some_iff.mp hf
  simp only [positionCalls, positionOf, lengthCalls]
  rw [position_sum, position_sum, List.take_succ_eq_append_getElem hk, lengthsFrom_append, List.sum_append, position_sum]
  congr 1
  cases len fields[k] <;> simp

theorem value_noIf (e : RExpr) (names : List String) (h : e.value noIf = true) :
    e.value ((noIf.withDots true).withFields names) = true := by
  induction e with
  | name n => simp only [RExpr.value, Meaning.withFields, Meaning.withDots, noIf]; split <;> (try split) <;> rfl
  | int t => rfl
  | call0 f => rfl
  | mac f => rfl
  | call f x ih => exact ih h
  | method x f ih => exact ih h
  | field x t ih => exact ih h
  | cast x t ih => exact ih h
  | rest x ih => exact ih h
  | ref x ih => exact ih h
  | methodArg x f y ihx ihy =>
    simp only [RExpr.value, noIf, Bool.and_eq_true] at h
    have h1 := ihx h.1
    have h2 := ihy h.2
    simp only [RExpr.value, Meaning.withFields, Meaning.withDots, noIf] at h1 h2 ⊢
    rw [h1, h2]; rfl
  | bin c x y ihx ihy =>
    simp only [RExpr.value, noIf, Bool.and_eq_true] at h
    have h1 := ihx h.1
    have h2 := ihy h.2
    simp only [RExpr.value, Meaning.withFields, Meaning.withDots, noIf] at h1 h2 ⊢
    rw [h1, h2]; rfl
  | ite c x y ihc ihx ihy => cases h

theorem position_noIf (bits : Nat) (ls : List Bool) (h : ∀ b ∈ ls, b = true) : Spec.position noIf bits ls = true := by
  have : ∀ (ls : List Bool), (∀ b ∈ ls, b = true) → ls.foldl (noIf.op '+') true = true := by
    intro ls
    induction ls with
    | nil => intro _; rfl
    | cons b ls ih =>
      intro h
      rw [List.foldl_cons, h b List.mem_cons_self]
      exact ih fun b hb => h b (List.mem_cons_of_mem _ hb)
  exact this ls h

theorem positionOf_noIf (fields : List RawField) (w : RawField → Nat) (len : RawField → Option RExpr) (k : Nat)
    (h : ∀ f ∈ fields.take k, ∀ x, len f = some x → x.value noIf = true) :
    positionOf noIf fields w len k = true := by
  refine position_noIf _ _ ?_
  have : ∀ (fs : List RawField) (bits : Nat) (ls : List Bool), (∀ f ∈ fs, ∀ x, len f = some x → x.value noIf = true) →
      (∀ b ∈ ls, b = true) → ∀ b ∈ lengthsFrom noIf fields w len bits ls fs, b = true := by
    intro fs
    induction fs with
    | nil => intro _ ls _ h; exact h
    | cons f fs ih =>
      intro bits ls hf hls
      refine ih _ _ (fun g hg => hf g (List.mem_cons_of_mem _ hg)) fun b hb => ?_
      rcases List.mem_append.mp hb with hb | hb
      · exact hls b hb
      · cases hl : len f with
        | none => rw [hl] at hb; cases hb
        | some x =>
          rw [hl] at hb
          simp only [Option.map_some, Option.toList_some, List.mem_singleton] at hb
          rw [hb, position_noIf _ _ hls]
          exact value_noIf x _ (hf f List.mem_cons_self x hl)
  exact this _ _ _ h (by simp)

/-! ## What the numbers depend on -/

theorem getterName_get (n : String) : getterName ("get_" ++ n) = some n := by
  simp [getterName, String.toList_append]

theorem value_agree {c c' : String → Nat} {names : List String} {p : Nat} (e : RExpr)
    (h : ∀ n ∈ mentions names e, c n = c' n) :
    e.value (((callMeaning c).withDots p).withFields names) =
      e.value (((callMeaning c').withDots p).withFields names) := by
  induction e with
  | name n =>
    by_cases hn : n ∈ names
    · have := h n (by simp [mentions, hn])
      simp [RExpr.value, Meaning.withFields, Meaning.withDots, callMeaning, getterName_get, this]
    · simp [RExpr.value, Meaning.withFields, Meaning.withDots, callMeaning, hn]
  | int t => rfl
  | call0 f => rfl
  | mac f => rfl
  | call f x ih => exact ih h
  | field x t ih => exact ih h
  | cast x t ih => exact ih h
  | rest x ih => exact ih h
  | ref x ih => exact ih h
  | method x f ih =>
    have h1 := ih fun n hn => h n (by simp [mentions, hn])
    simp only [RExpr.value, Meaning.withFields, Meaning.withDots, callMeaning] at h1 ⊢
    rw [h1]
    cases hg : getterName f with
    | none => rfl
    | some n => simp [h n (by simp [mentions, hg])]
  | methodArg x f y ihx ihy =>
    have h1 := ihx fun n hn => h n (by simp [mentions, hn])
    have h2 := ihy fun n hn => h n (by simp [mentions, hn])
    simp only [RExpr.value, Meaning.withFields, Meaning.withDots, callMeaning] at h1 h2 ⊢
    rw [h1, h2]
  | bin o x y ihx ihy =>
    have h1 := ihx fun n hn => h n (by simp [mentions, hn])
    have h2 := ihy fun n hn => h n (by simp [mentions, hn])
    simp only [RExpr.value, Meaning.withFields, Meaning.withDots, callMeaning] at h1 h2 ⊢
    rw [h1, h2]
  | ite b x y ihb ihx ihy =>
    have h0 := ihb fun n hn => h n (by simp [mentions, hn])
    have h1 := ihx fun n hn => h n (by simp [mentions, hn])
    have h2 := ihy fun n hn => h n (by simp [mentions, hn])
    simp only [RExpr.value, Meaning.withFields, Meaning.withDots, callMeaning] at h0 h1 h2 ⊢
    rw [h0, h1, h2]

theorem lengthCalls_agree {c c' : String → Nat} {fields : List RawField} {len : RawField → Option RExpr} {k : Nat}
    {f : RawField} (hp : positionCalls c fields len k = positionCalls c' fields len k)
    (h : ∀ e, len f = some e → ∀ n ∈ mentions (fieldNames fields f.name) e, c n = c' n) :
    lengthCalls c fields len k f = lengthCalls c' fields len k f := by
  unfold lengthCalls
  cases hl : len f with
  | none => rfl
  | some e =>
    simp only [lengthValue, hp]
    exact value_agree e (h e hl)

/-- Both numbers are determined up to a field by the numbers of the fields before it. -/
theorem positionCalls_agree {c c' : String → Nat} {fields : List RawField} {len : RawField → Option RExpr}
    (hb : LooksBack fields len) {K : Nat}
    (h : ∀ j < K, ∀ f n, fields[j]? = some f → f.name = some n → c n = c' n) :
    ∀ k ≤ K, positionCalls c fields len k = positionCalls c' fields len k ∧
      ∀ f, fields[k]? = some f → lengthCalls c fields len k f = lengthCalls c' fields len k f := by
  have hl : ∀ k ≤ K, positionCalls c fields len k = positionCalls c' fields len k →
      ∀ f, fields[k]? = some f → lengthCalls c fields len k f = lengthCalls c' fields len k f := by
    intro k hk hp f hf
    refine lengthCalls_agree hp fun e he n hn => ?_
    obtain ⟨j, g, hj, hg, hgn⟩ := hb k f e hf he n hn
    exact h j (by omega) g n hg hgn
  intro k
  induction k with
  | zero => intro hk; exact ⟨by rw [positionCalls_zero, positionCalls_zero], hl 0 hk (by rw [positionCalls_zero, positionCalls_zero])⟩
  | succ k ih =>
    intro hk
    have hp : positionCalls c fields len (k + 1) = positionCalls c' fields len (k + 1) := by
      obtain ⟨h1, h2⟩ := ih (by omega)
      cases hf : fields[k]? with
      | some f => rw [positionCalls_succ _ _ _ hf, positionCalls_succ _ _ _ hf, h1, h2 f hf]
      | none =>
        have : fields.length ≤ k := by simpa using hf
        simp only [positionCalls, positionOf] at h1 ⊢
        rw [List.take_of_length_le (by omega)] at h1 ⊢
        exact h1
    exact ⟨hp, hl _ hk hp⟩

/-- Only one count of the calls is right. -/
theorem callsInside_unique {fields : List RawField} {tys : List Ty} {len : RawField → Option RExpr}
    (hb : LooksBack fields len) (htys : tys.length = fields.length) {c c' : String → Nat}
    (hc : CallsInside fields tys len c) (hc' : CallsInside fields tys len c') (k : Nat) (f : RawField) (n : String)
    (hf : fields[k]? = some f) (hn : f.name = some n) : c n = c' n := by
  induction k using Nat.strongRecOn generalizing f n with
  | _ k ih =>
    obtain ⟨hk, -⟩ := List.getElem?_eq_some_iff.mp hf
    have hty : tys[k]? = some (tys[k]'(by omega)) := List.getElem?_eq_getElem (by omega)
    obtain ⟨h1, h2⟩ := positionCalls_agree hb (c := c) (c' := c') (K := k) (fun j hj f n => ih j hj f n) k (Nat.le_refl _)
    rw [hc k f n _ hf hn hty, hc' k f n _ hf hn hty, h1, h2 f hf]

end Verif
