import Verif.Spec.ApiNames

/-! # Lemmas about the generated names -/

namespace Verif
open Spec

theorem pairwise_of_mem {α : Type} {R : α → α → Prop} (hs : ∀ a b, R a b → R b a) :
    ∀ {l : List α}, l.Pairwise R → ∀ {a b}, a ∈ l → b ∈ l → a ≠ b → R a b
  | [], _, _, _, ha, _, _ => by cases ha
  | x :: xs, h, a, b, ha, hb, hab => by
    obtain ⟨h1, h2⟩ := List.pairwise_cons.mp h
    rcases List.mem_cons.mp ha with rfl | ha'
    · rcases List.mem_cons.mp hb with rfl | hb'
      · exact absurd rfl hab
      · exact h1 b hb'
    · rcases List.mem_cons.mp hb with rfl | hb'
      · exact hs _ _ (h1 a ha')
      · exact pairwise_of_mem hs h2 ha' hb' hab

theorem listed_iff (s : Shape) : s.kind.isVec = true ↔ Listed s := by
  unfold Listed
  cases s.kind <;> simp [Kind.isVec]

theorem mem_accessor (s : Shape) (x : List Char) : x ∈ accessorNames s ↔
    (Listed s ∧ s.payload = false ∧ x = "get_".toList ++ (s.name.toList ++ "_raw".toList)) ∨
    x = "get_".toList ++ s.name.toList ∨
    (s.kind = .vecPkt ∧ x = "get_".toList ++ (s.name.toList ++ "_iter".toList)) := by
  unfold accessorNames
  rw [← listed_iff]
  cases h : s.kind.isVec <;> cases hp : s.payload <;> by_cases hk : s.kind = .vecPkt <;>
    simp [hk]

theorem mem_mutator (s : Shape) (x : List Char) : x ∈ mutatorNames s ↔
    (Listed s ∧ s.payload = false ∧ x = "get_".toList ++ (s.name.toList ++ "_raw_mut".toList)) ∨
    x = "set_".toList ++ s.name.toList := by
  unfold mutatorNames
  rw [← listed_iff]
  cases h : s.kind.isVec <;> cases hp : s.payload <;> simp

/-- Texts that end in different characters differ. -/
theorem ends_ne {a b p q : List Char} {c d : Char} (h : c ≠ d) : a ++ (p ++ [c]) ≠ b ++ (q ++ [d]) := by
  intro e
  have := congrArg List.getLast? e
  rw [← List.append_assoc, ← List.append_assoc, List.getLast?_concat, List.getLast?_concat] at this
  exact h (Option.some.inj this)

theorem raw_ne_iter (a b : List Char) : a ++ "_raw".toList ≠ b ++ "_iter".toList :=
  ends_ne (p := "_ra".toList) (q := "_ite".toList) (by decide)

theorem raw_ne_mut (a b : List Char) : a ++ "_raw".toList ≠ b ++ "_raw_mut".toList :=
  ends_ne (p := "_ra".toList) (q := "_raw_mu".toList) (by decide)

theorem iter_ne_mut (a b : List Char) : a ++ "_iter".toList ≠ b ++ "_raw_mut".toList :=
  ends_ne (p := "_ite".toList) (q := "_raw_mu".toList) (by decide)

theorem self_ne_append (a b : List Char) (h : b ≠ []) : a ≠ a ++ b := by
  intro e
  have := congrArg List.length e
  rw [List.length_append] at this
  have : b.length ≠ 0 := fun e => h (List.eq_nil_of_length_eq_zero e)
  omega

theorem get_ne_set (a b : List Char) : "get_".toList ++ a ≠ "set_".toList ++ b := by
  intro e
  have := congrArg List.head? e
  simp at this

theorem name_append (f v : String) (t : String) :
    f = v ++ t ↔ f.toList = v.toList ++ t.toList := by
  rw [← String.toList_append, String.toList_inj]

/-- Two fields without a clash between them have different accessors. -/
theorem accessors_apart {a b : Shape} (hn : a.name ≠ b.name) :
    (∀ x ∈ accessorNames a, ∀ y ∈ accessorNames b, x ≠ y) ↔
      ¬ ((Listed a ∧ a.payload = false ∧ b.name = a.name ++ "_raw") ∨
        (a.kind = .vecPkt ∧ b.name = a.name ++ "_iter") ∨
        (Listed b ∧ b.payload = false ∧ a.name = b.name ++ "_raw") ∨
        (b.kind = .vecPkt ∧ a.name = b.name ++ "_iter")) := by
  have hn' : a.name.toList ≠ b.name.toList := fun e => hn (String.toList_inj.mp e)
  simp only [name_append]
  constructor
  · rintro h (⟨h1, h2, h3⟩ | ⟨h1, h3⟩ | ⟨h1, h2, h3⟩ | ⟨h1, h3⟩)
    · exact h _ ((mem_accessor _ _).mpr (.inl ⟨h1, h2, rfl⟩)) _
        ((mem_accessor _ _).mpr (.inr (.inl rfl))) (by rw [h3])
    · exact h _ ((mem_accessor _ _).mpr (.inr (.inr ⟨h1, rfl⟩))) _
        ((mem_accessor _ _).mpr (.inr (.inl rfl))) (by rw [h3])
    · exact h _ ((mem_accessor _ _).mpr (.inr (.inl rfl))) _
        ((mem_accessor _ _).mpr (.inl ⟨h1, h2, rfl⟩)) (by rw [h3])
    · exact h _ ((mem_accessor _ _).mpr (.inr (.inl rfl))) _
        ((mem_accessor _ _).mpr (.inr (.inr ⟨h1, rfl⟩))) (by rw [h3])
  · intro h x hx y hy e
    subst e
    rcases (mem_accessor _ _).mp hx with ⟨h1, h2, h3⟩ | h3 | ⟨h1, h3⟩ <;>
    rcases (mem_accessor _ _).mp hy with ⟨g1, g2, g3⟩ | g3 | ⟨g1, g3⟩ <;>
    have e := h3.symm.trans g3 <;> replace e := List.append_cancel_left e
    · exact hn' (List.append_cancel_right e)
    · exact h (.inl ⟨h1, h2, e.symm⟩)
    · exact raw_ne_iter _ _ e
    · exact h (.inr (.inr (.inl ⟨g1, g2, e⟩)))
    · exact hn' e
    · exact h (.inr (.inr (.inr ⟨g1, e⟩)))
    · exact raw_ne_iter _ _ e.symm
    · exact h (.inr (.inl ⟨h1, e.symm⟩))
    · exact hn' (List.append_cancel_right e)

theorem accessors_self (s : Shape) : (accessorNames s).Pairwise (· ≠ ·) := by
  have h1 : "get_".toList ++ s.name.toList ++ "_raw".toList ≠ "get_".toList ++ s.name.toList :=
    fun e => self_ne_append _ "_raw".toList (by simp) e.symm
  have h2 : "get_".toList ++ s.name.toList ≠ "get_".toList ++ s.name.toList ++ "_iter".toList :=
    self_ne_append _ _ (by simp)
  have h3 : "get_".toList ++ s.name.toList ++ "_raw".toList ≠
      "get_".toList ++ s.name.toList ++ "_iter".toList := raw_ne_iter _ _
  unfold accessorNames
  generalize "get_".toList ++ s.name.toList ++ "_raw".toList = r at *
  generalize "get_".toList ++ s.name.toList ++ "_iter".toList = i at *
  generalize "get_".toList ++ s.name.toList = g at *
  split <;> split <;> simp [h1, h2, h3]

theorem mutators_self (s : Shape) : (mutatorNames s).Pairwise (· ≠ ·) := by
  have h1 : "get_".toList ++ s.name.toList ++ "_raw_mut".toList ≠ "set_".toList ++ s.name.toList := by
    rw [List.append_assoc]; exact get_ne_set _ _
  unfold mutatorNames
  generalize "get_".toList ++ s.name.toList ++ "_raw_mut".toList = r at *
  generalize "set_".toList ++ s.name.toList = g at *
  split <;> simp [h1]

theorem mutators_apart {a b : Shape} (hn : a.name ≠ b.name) :
    ∀ x ∈ mutatorNames a, ∀ y ∈ mutatorNames b, x ≠ y := by
  have hn' : a.name.toList ≠ b.name.toList := fun e => hn (String.toList_inj.mp e)
  intro x hx y hy e
  subst e
  rcases (mem_mutator _ _).mp hx with ⟨-, -, h3⟩ | h3 <;>
  rcases (mem_mutator _ _).mp hy with ⟨-, -, g3⟩ | g3 <;>
  have e := h3.symm.trans g3
  · exact hn' (List.append_cancel_right (List.append_cancel_left e))
  · exact get_ne_set _ _ e
  · exact get_ne_set _ _ e.symm
  · exact hn' (List.append_cancel_left e)

/-- An accessor of one field is a mutator of another only by the suffix `_raw_mut`. -/
theorem accessor_mutator {a b : Shape} :
    (∀ x ∈ accessorNames a, ∀ y ∈ mutatorNames b, x ≠ y) ↔
      ¬ (Listed b ∧ b.payload = false ∧ a.name = b.name ++ "_raw_mut") := by
  simp only [name_append]
  constructor
  · rintro h ⟨h1, h2, h3⟩
    exact h _ ((mem_accessor _ _).mpr (.inr (.inl rfl))) _
      ((mem_mutator _ _).mpr (.inl ⟨h1, h2, rfl⟩)) (by rw [h3])
  · intro h x hx y hy e
    subst e
    rcases (mem_accessor _ _).mp hx with ⟨h1, h2, h3⟩ | h3 | ⟨h1, h3⟩ <;>
    rcases (mem_mutator _ _).mp hy with ⟨g1, g2, g3⟩ | g3 <;>
    have e := h3.symm.trans g3
    · exact raw_ne_mut _ _ (List.append_cancel_left e)
    · exact get_ne_set _ _ e
    · exact h ⟨g1, g2, List.append_cancel_left e⟩
    · exact get_ne_set _ _ e
    · exact iter_ne_mut _ _ (List.append_cancel_left e)
    · exact get_ne_set _ _ e

/-- The names of the methods that do not depend on the fields. -/
def fixedNames (mutable : Bool) : List (List Char) :=
  ["new".toList, "owned".toList, "to_immutable".toList, "consume_to_immutable".toList,
    "minimum_packet_size".toList, "packet_size".toList] ++
  (if mutable then ["populate".toList] else [])

theorem fixed_self (mutable : Bool) : (fixedNames mutable).Pairwise (· ≠ ·) := by
  cases mutable <;> decide

theorem fixed_head (mutable : Bool) :
    ∀ x ∈ fixedNames mutable, x.head? ≠ some 'g' ∧ x.head? ≠ some 's' := by
  cases mutable <;> decide

theorem field_head {s : Shape} {x : List Char} (h : x ∈ accessorNames s ∨ x ∈ mutatorNames s) :
    x.head? = some 'g' ∨ x.head? = some 's' := by
  rw [mem_accessor, mem_mutator] at h
  rcases h with (⟨-, -, rfl⟩ | rfl | ⟨-, rfl⟩) | ⟨-, -, rfl⟩ | rfl <;> simp

theorem methodNames_eq (mutable : Bool) (ss : List Shape) :
    methodNames mutable ss =
      fixedNames mutable ++ (ss.flatMap accessorNames ++
        (if mutable then ss.flatMap mutatorNames else [])) := by
  unfold methodNames fixedNames
  simp only [List.append_assoc]

theorem names_ne {ss : List Shape} (hn : (ss.map (·.name)).Nodup) :
    ss.Pairwise fun a b => a.name ≠ b.name := List.pairwise_map.mp hn

theorem ne_suffix (a b : Shape) (t : String) (ht : t.toList ≠ []) (h : b.name = a.name ++ t) :
    a.name ≠ b.name := by
  intro e
  rw [name_append, ← e] at h
  exact self_ne_append _ _ ht h

theorem methods_iff (mutable : Bool) (ss : List Shape) (hn : (ss.map (·.name)).Nodup) :
    (methodNames mutable ss).Nodup ↔ ¬ Clash mutable ss := by
  have hp := names_ne hn
  rw [methodNames_eq]
  unfold List.Nodup
  rw [List.pairwise_append, List.pairwise_append]
  constructor
  · rintro ⟨-, ⟨ha, hm, ham⟩, -⟩ ⟨v, hv, f, hf, h⟩
    have ha' := (List.pairwise_flatMap.mp ha).2
    have hap : ∀ a ∈ ss, ∀ b ∈ ss, a.name ≠ b.name →
        ∀ x ∈ accessorNames a, ∀ y ∈ accessorNames b, x ≠ y := by
      intro a hma b hmb hne
      exact pairwise_of_mem (fun _ _ h x hx y hy e => h y hy x hx e.symm) ha' hma hmb
        (fun e => hne (by rw [e]))
    rcases h with ⟨h1, h2, h3⟩ | ⟨h1, h3⟩ | ⟨hmut, h1, h2, h3⟩
    · have hne := ne_suffix v f "_raw" (by simp) h3
      exact (accessors_apart hne).mp (hap v hv f hf hne) (.inl ⟨h1, h2, h3⟩)
    · have hne := ne_suffix v f "_iter" (by simp) h3
      exact (accessors_apart hne).mp (hap v hv f hf hne) (.inr (.inl ⟨h1, h3⟩))
    · rw [if_pos hmut] at ham
      refine (accessor_mutator (a := f) (b := v)).mp (fun x hx y hy => ?_) ⟨h1, h2, h3⟩
      exact ham x (List.mem_flatMap.mpr ⟨f, hf, hx⟩) y (List.mem_flatMap.mpr ⟨v, hv, hy⟩)
  · intro hc
    have hacc : (ss.flatMap accessorNames).Pairwise (· ≠ ·) := by
      refine List.pairwise_flatMap.mpr ⟨fun a _ => accessors_self a, ?_⟩
      refine List.Pairwise.imp_of_mem (fun {a b} hma hmb hne => ?_) hp
      refine (accessors_apart hne).mpr ?_
      rintro (⟨h1, h2, h3⟩ | ⟨h1, h3⟩ | ⟨h1, h2, h3⟩ | ⟨h1, h3⟩)
      · exact hc ⟨a, hma, b, hmb, .inl ⟨h1, h2, h3⟩⟩
      · exact hc ⟨a, hma, b, hmb, .inr (.inl ⟨h1, h3⟩)⟩
      · exact hc ⟨b, hmb, a, hma, .inl ⟨h1, h2, h3⟩⟩
      · exact hc ⟨b, hmb, a, hma, .inr (.inl ⟨h1, h3⟩)⟩
    refine ⟨fixed_self _, ⟨hacc, ?_, ?_⟩, ?_⟩
    · split
      · exact List.pairwise_flatMap.mpr ⟨fun a _ => mutators_self a,
          hp.imp fun hne => mutators_apart hne⟩
      · exact List.Pairwise.nil
    · intro x hx y hy
      split at hy
      · rename_i hmut
        obtain ⟨a, hma, hx⟩ := List.mem_flatMap.mp hx
        obtain ⟨b, hmb, hy⟩ := List.mem_flatMap.mp hy
        refine accessor_mutator.mpr ?_ x hx y hy
        rintro ⟨h1, h2, h3⟩
        exact hc ⟨b, hmb, a, hma, .inr (.inr ⟨hmut, h1, h2, h3⟩)⟩
      · cases hy
    · intro x hx y hy e
      subst e
      obtain ⟨h1, h2⟩ := fixed_head _ x hx
      have : x.head? = some 'g' ∨ x.head? = some 's' := by
        rcases List.mem_append.mp hy with hy | hy
        · obtain ⟨a, -, hy⟩ := List.mem_flatMap.mp hy
          exact field_head (.inl hy)
        · split at hy
          · obtain ⟨a, -, hy⟩ := List.mem_flatMap.mp hy
            exact field_head (.inr hy)
          · cases hy
      exact this.elim h1 h2

/-! ## Types -/

theorem mem_apiTypeNames (b x : List Char) : x ∈ apiTypeNames b ↔
    x = b ∨ x = b ++ "Packet".toList ∨ x = "Mutable".toList ++ (b ++ "Packet".toList) ∨
      x = b ++ "Iterable".toList := by
  unfold apiTypeNames packetTypeName packetTypeNameMut
  rw [List.append_assoc]
  simp only [List.mem_cons, List.not_mem_nil, or_false]

theorem packet_ne_iterable (a b : List Char) : a ++ "Packet".toList ≠ b ++ "Iterable".toList := by
  rw [show "Packet".toList = "Packe".toList ++ ['t'] by decide,
    show "Iterable".toList = "Iterabl".toList ++ ['e'] by decide]
  exact ends_ne (by decide)

theorem mutable_packet (a b : List Char) :
    a ++ "Packet".toList = "Mutable".toList ++ (b ++ "Packet".toList) ↔ a = "Mutable".toList ++ b := by
  rw [← List.append_assoc]
  exact ⟨List.append_cancel_right, fun h => by rw [h]⟩

theorem mutable_packet_ne_iterable (a b : List Char) :
    "Mutable".toList ++ (a ++ "Packet".toList) ≠ b ++ "Iterable".toList := by
  rw [← List.append_assoc]; exact packet_ne_iterable _ _

theorem types_self (b : List Char) : (apiTypeNames b).Pairwise (· ≠ ·) := by
  have len : ∀ x y : List Char, x.length ≠ y.length → x ≠ y := fun x y h e => h (by rw [e])
  unfold apiTypeNames packetTypeName packetTypeNameMut
  simp only [List.pairwise_cons, List.mem_cons, List.not_mem_nil, or_false, forall_eq_or_imp,
    forall_eq, false_implies, implies_true, List.Pairwise.nil, and_true]
  refine ⟨⟨?_, ?_, ?_⟩, ⟨?_, ?_⟩, ?_⟩ <;> apply len <;> simp <;> omega

theorem types_apart {a b : List Char} (hn : a ≠ b) :
    (∀ x ∈ apiTypeNames a, ∀ y ∈ apiTypeNames b, x ≠ y) ↔ ¬ (
      (b = a ++ "Packet".toList ∨ b = a ++ "Iterable".toList ∨
        b = "Mutable".toList ++ (a ++ "Packet".toList) ∨ b = "Mutable".toList ++ a) ∨
      (a = b ++ "Packet".toList ∨ a = b ++ "Iterable".toList ∨
        a = "Mutable".toList ++ (b ++ "Packet".toList) ∨ a = "Mutable".toList ++ b)) := by
  constructor
  · intro h
    have h' : ∀ x, x ∈ apiTypeNames a → x ∈ apiTypeNames b → False := fun x hx hy => h x hx x hy rfl
    simp only [mem_apiTypeNames] at h'
    rintro ((e | e | e | e) | (e | e | e | e))
    · exact h' b (.inr (.inl e)) (.inl rfl)
    · exact h' b (.inr (.inr (.inr e))) (.inl rfl)
    · exact h' b (.inr (.inr (.inl e))) (.inl rfl)
    · exact h' (b ++ "Packet".toList) (.inr (.inr (.inl (by rw [e, List.append_assoc])))) (.inr (.inl rfl))
    · exact h' a (.inl rfl) (.inr (.inl e))
    · exact h' a (.inl rfl) (.inr (.inr (.inr e)))
    · exact h' a (.inl rfl) (.inr (.inr (.inl e)))
    · exact h' (a ++ "Packet".toList) (.inr (.inl rfl)) (.inr (.inr (.inl (by rw [e, List.append_assoc]))))
  · intro h x hx y hy e
    subst e
    rw [mem_apiTypeNames] at hx hy
    rcases hx with h3 | h3 | h3 | h3 <;> rcases hy with g3 | g3 | g3 | g3 <;>
    have e := h3.symm.trans g3
    · exact hn e
    · exact h (.inr (.inl e))
    · exact h (.inr (.inr (.inr (.inl e))))
    · exact h (.inr (.inr (.inl e)))
    · exact h (.inl (.inl e.symm))
    · exact hn (List.append_cancel_right e)
    · exact h (.inr (.inr (.inr (.inr ((mutable_packet _ _).mp e)))))
    · exact packet_ne_iterable _ _ e
    · exact h (.inl (.inr (.inr (.inl e.symm))))
    · exact h (.inl (.inr (.inr (.inr ((mutable_packet _ _).mp e.symm)))))
    · exact hn (List.append_cancel_right (List.append_cancel_left e))
    · exact mutable_packet_ne_iterable _ _ e
    · exact h (.inl (.inr (.inl e.symm)))
    · exact packet_ne_iterable _ _ e.symm
    · exact mutable_packet_ne_iterable _ _ e.symm
    · exact hn (List.append_cancel_right e)

theorem types_iff (bases : List (List Char)) (hn : bases.Nodup) :
    (bases.flatMap apiTypeNames).Nodup ↔ ¬ TypeClash bases := by
  unfold List.Nodup TypeClash
  rw [List.pairwise_flatMap]
  simp only [List.append_assoc]
  constructor
  · rintro ⟨-, h⟩ ⟨a, ha, b, hb, hc⟩
    have hne : a ≠ b := by
      intro e
      subst e
      rcases hc with e | e | e | e <;> replace e := congrArg List.length e <;> simp at e <;> omega
    have := pairwise_of_mem (fun _ _ h x hx y hy e => h y hy x hx e.symm) h ha hb hne
    exact (types_apart hne).mp this (.inl hc)
  · intro hc
    refine ⟨fun b _ => types_self b, List.Pairwise.imp_of_mem (fun {a b} ha hb hne => ?_) hn⟩
    refine (types_apart hne).mpr ?_
    rintro (h | h)
    · exact hc ⟨a, ha, b, hb, h⟩
    · exact hc ⟨b, hb, a, ha, h⟩

end Verif
