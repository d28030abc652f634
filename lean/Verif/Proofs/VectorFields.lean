import Verif.Proofs.Instances

/-! Helper lemmas for the theorems about vector fields and iterators. -/

namespace Verif
open Spec

theorem within_bits {buf new : Buf} {P Q i : Nat} (h : Within buf new P Q) (hi : i < P ∨ Q ≤ i) :
    (bitsOf new)[i]? = (bitsOf buf)[i]? := by
  rcases hi with hi | hi
  · have := congrArg (·[i]?) h.2.1
    simpa only [List.getElem?_take_of_lt hi] using this
  · have := congrArg (·[i - Q]?) h.2.2
    simpa only [List.getElem?_drop, show Q + (i - Q) = i by omega] using this

theorem getElem?_of_take_drop {a b : Buf} {co e i : Nat} (h1 : a.take co = b.take co)
    (h2 : a.drop e = b.drop e) (hi : i < co ∨ e ≤ i) : a[i]? = b[i]? := by
  rcases hi with hi | hi
  · have := congrArg (·[i]?) h1
    simpa only [List.getElem?_take_of_lt hi] using this
  · have := congrArg (·[i - e]?) h2
    simpa only [List.getElem?_drop, show e + (i - e) = i by omega] using this

/-- The bytes-in-place copy. -/
theorem copyInto_inv {buf new x : Buf} {a : Nat} (h : copyInto buf a x = .ok new) :
    a + x.length ≤ buf.length ∧ new.length = buf.length ∧ new.take a = buf.take a ∧
      (new.drop a).take x.length = x ∧ new.drop (a + x.length) = buf.drop (a + x.length) := by
  rw [copyInto] at h
  split at h
  · rename_i hle
    cases h
    have hl : (buf.take a).length = a := by rw [List.length_take]; omega
    refine ⟨hle, ?_, ?_, ?_, ?_⟩
    · simp only [List.length_append, List.length_take, List.length_drop]; omega
    · rw [List.append_assoc, List.take_append_of_le_length (by omega), List.take_take, Nat.min_self]
    · rw [List.append_assoc, List.drop_append, List.drop_eq_nil_of_le (by omega), hl, Nat.sub_self,
        List.drop_zero, List.nil_append, List.take_append_of_le_length (by omega), List.take_length]
    · rw [List.drop_append, List.length_append, hl, Nat.sub_self, List.drop_zero,
        List.drop_eq_nil_of_le (by rw [List.length_append]; omega), List.nil_append]
  · simp at h

theorem setElems_within {p : Prim} (hacc : Prim.accepted ⟨p.size, .big⟩ 0 = true) (vs : List Nat)
    {co : Nat} {buf new : Buf} (h : setElems p co vs buf = .ok new) :
    new.length = buf.length ∧ (bitsOf new).take (8 * co) = (bitsOf buf).take (8 * co) := by
  induction vs generalizing co buf with
  | nil => cases h; exact ⟨rfl, rfl⟩
  | cons v vs ih =>
    rw [setElems, bind_eq_ok] at h
    obtain ⟨b1, h1, h2⟩ := h
    obtain ⟨g1, g2, g3⟩ := setPrim_inv (p := ⟨p.size, .big⟩) rfl hacc h1
    have w := within_of_bits (toBits_length _ _) g1 g2 g3
    obtain ⟨i1, i2⟩ := ih h2
    exact ⟨i1.trans w.1, (take_mono i2 (by omega)).trans w.2.1⟩

theorem getElems_step {p : Prim} (hs : 16 ≤ p.size) (packet : Buf) (n co : Nat) (vs : List Nat)
    (hn : 0 < n) (h : getElems p packet n co = .ok vs) : co + 2 * n ≤ packet.length := by
  induction n generalizing co vs with
  | zero => omega
  | succ n ih =>
    rw [getElems, bind_eq_ok] at h
    obtain ⟨v, hv, h⟩ := h
    rw [bind_eq_ok] at h
    obtain ⟨vs', hvs, -⟩ := h
    have := (getPrim_inv hv).2.1
    by_cases h0 : n = 0
    · subst h0; omega
    · have := ih _ _ (by omega) hvs
      have : 2 ≤ p.size / 8 := by omega
      omega

theorem getElems_wide {p : Prim} (hs : 16 ≤ p.size) (packet : Buf) (vs : List Nat) :
    getElems p packet packet.length 0 = .ok vs ↔ packet = [] ∧ vs = [] := by
  constructor
  · intro h
    by_cases h0 : 0 < packet.length
    · have := getElems_step hs packet _ _ _ h0 h
      omega
    · have : packet = [] := List.eq_nil_of_length_eq_zero (by omega)
      subst this
      cases h
      exact ⟨rfl, rfl⟩
  · rintro ⟨rfl, rfl⟩; rfl

theorem items_tiles {c : Codec} {m : Mode} (fuel : Nat) (buf : Buf) (ps : List Buf)
    (hfuel : buf.length ≤ fuel) (h : c.items m fuel buf = .ok ps) :
    Tiles (c.packetSize m) c.minSize buf ps := by
  induction fuel generalizing buf ps with
  | zero =>
    simp only [Codec.items, Except.ok.injEq] at h
    subst h
    exact .stop (.inl (by omega))
  | succ fuel ih =>
    rw [Codec.items, next_eq] at h
    split at h
    · rename_i hc
      cases hn : c.packetSize m buf with
      | error e => rw [hn] at h; simp at h
      | ok n =>
        rw [hn] at h
        simp only [ok_map, ok_bind] at h
        split at h
        · rename_i hlt
          rw [bind_eq_ok] at h
          obtain ⟨l, hl, he⟩ := h
          cases he
          exact .next hc.1 hc.2 hn (ih _ _ (by omega) hl)
        · simp at h
    · rename_i hc
      simp only [ok_bind, Except.ok.injEq] at h
      subst h
      exact .stop (by omega)

theorem flatMap_toBits_length (n : Nat) (ns : List Nat) :
    (ns.flatMap (toBits n)).length = n * ns.length := by
  induction ns with
  | nil => rfl
  | cons a ns ih =>
    simp only [List.flatMap_cons, List.length_append, toBits_length, ih, List.length_cons, Nat.mul_add]
    omega

/-- Only `Vec<u8>` vectors. -/
theorem enc_length_bytes (E : Nat → Wire) (i : Nat) (fs : List Field) (vs : List Val)
    (ht : typedFields E i fs vs) (hv : ∀ f ∈ fs, ∀ c, f.ty ≠ .vecPkt c)
    (h8 : ∀ f ∈ fs, ∀ p, f.ty = .vecPrim p → p.size = 8) :
    (encFields E i fs vs).length =
      bitsSum fs + 8 * (List.zipWith (fun f v => structLen f.ty v) fs vs).sum := by
  induction fs generalizing i vs with
  | nil => cases vs with
    | nil => simp [encFields, bitsSum]
    | cons _ _ => simp [typedFields] at ht
  | cons f fs ih => cases vs with
    | nil => simp [typedFields] at ht
    | cons v vs =>
      simp only [typedFields] at ht
      have := ih (i + 1) vs ht.2 (fun g hg => hv g (by simp [hg])) (fun g hg => h8 g (by simp [hg]))
      simp only [encFields, List.length_append, List.zipWith_cons_cons, List.sum_cons, bitsSum,
        List.map_cons] at this ⊢
      rw [this]
      have hf : (encField (E i) f.ty v).length = f.ty.bits + 8 * structLen f.ty v := by
        have ht1 := ht.1
        cases hty : f.ty with
        | vecPkt c => exact absurd hty (hv f (by simp) c)
        | vecPrim p =>
          rw [hty] at ht1
          cases v <;> simp only [typed] at ht1
          have hp := h8 f (by simp) p hty
          simp only [encField, structLen, Ty.bits, hp, Nat.zero_add]
          exact flatMap_toBits_length _ _
        | prim p =>
          rw [hty] at ht1
          have := encField_fixed_length ht1 rfl
          cases v <;> simp only [typed] at ht1
          simpa [structLen] using this
        | misc args =>
          rw [hty] at ht1
          have := encField_fixed_length ht1 rfl
          cases v <;> simp only [typed] at ht1
          simpa [structLen] using this
      rw [hf]; omega

/-- The same with nested packets. -/
theorem enc_length_nested (E : Nat → Wire) (i : Nat) (fs : List Field) (vs : List Val)
    (ht : typedFields E i fs vs) (h8 : ∀ f ∈ fs, ∀ p, f.ty = .vecPrim p → p.size = 8) :
    (encFields E i fs vs).length + 8 * nestedCount fs vs =
      bitsSum fs + 8 * (List.zipWith (fun f v => structLen f.ty v) fs vs).sum + 8 * nestedBytes E i fs vs := by
  induction fs generalizing i vs with
  | nil => cases vs with
    | nil => simp [encFields, bitsSum, nestedCount, nestedBytes]
    | cons _ _ => simp [typedFields] at ht
  | cons f fs ih => cases vs with
    | nil => simp [typedFields] at ht
    | cons v vs =>
      simp only [typedFields] at ht
      have hrest := ih (i + 1) vs ht.2 (fun g hg => h8 g (by simp [hg]))
      by_cases hv : ∃ c, f.ty = .vecPkt c
      · obtain ⟨c, hc⟩ := hv
        have ht1 := ht.1
        rw [hc] at ht1
        cases v with
        | list ws =>
          simp only [encFields, List.length_append, List.zipWith_cons_cons, List.sum_cons, bitsSum,
            List.map_cons, hc, encField, structLen, Ty.bits, nestedCount, nestedBytes, bitsOf_length] at hrest ⊢
          omega
        | num _ => simp [typed] at ht1
        | nums _ => simp [typed] at ht1
      · have hf := enc_length_bytes E i [f] [v] ⟨ht.1, by simp [typedFields]⟩
          (fun g hg c hc => by rw [List.mem_singleton] at hg; subst hg; exact hv ⟨c, hc⟩)
          (fun g hg => by rw [List.mem_singleton] at hg; subst hg; exact h8 _ (by simp))
        have hn : nestedCount (f :: fs) (v :: vs) = nestedCount fs vs ∧
            nestedBytes E i (f :: fs) (v :: vs) = nestedBytes E (i + 1) fs vs := by
          cases hty : f.ty with
          | vecPkt c => exact (hv ⟨c, hty⟩).elim
          | vecPrim _ => simp [nestedCount, nestedBytes, hty]
          | prim _ => simp [nestedCount, nestedBytes, hty]
          | misc _ => simp [nestedCount, nestedBytes, hty]
        simp only [encFields, List.length_append, List.zipWith_cons_cons, List.sum_cons, bitsSum,
          List.map_cons, List.append_nil, List.zipWith_nil_right, List.sum_nil, List.map_nil] at hrest hf ⊢
        rw [hn.1, hn.2]
        omega

/-- Replace bits `[P, P + e.length)`. -/
def splice (l : List Bool) (P : Nat) (e : List Bool) : List Bool :=
  l.take P ++ e ++ l.drop (P + e.length)

theorem splice_getElem? (l : List Bool) (P : Nat) (e : List Bool) (h : P + e.length ≤ l.length) (i : Nat) :
    (splice l P e)[i]? = if P ≤ i ∧ i < P + e.length then e[i - P]? else l[i]? := by
  have hl : (l.take P).length = P := by rw [List.length_take]; omega
  unfold splice
  split
  · rename_i hi
    rw [List.append_assoc, List.getElem?_append_right (by omega), hl,
      List.getElem?_append_left (by omega)]
  · rename_i hi
    by_cases h1 : i < P
    · rw [List.append_assoc, List.getElem?_append_left (by omega), List.getElem?_take_of_lt h1]
    · rw [List.getElem?_append_right (by rw [List.length_append]; omega), List.length_append, hl,
        List.getElem?_drop]
      congr 1; omega

theorem splice_comm (l : List Bool) (P Q : Nat) (e e' : List Bool) (h : P + e.length ≤ Q)
    (h' : Q + e'.length ≤ l.length) : splice (splice l P e) Q e' = splice (splice l Q e') P e := by
  have h1 : (splice l P e).length = l.length := by
    simp only [splice, List.length_append, List.length_take, List.length_drop]; omega
  have h2 : (splice l Q e').length = l.length := by
    simp only [splice, List.length_append, List.length_take, List.length_drop]; omega
  apply List.ext_getElem?
  intro i
  rw [splice_getElem? _ _ _ (by omega), splice_getElem? _ _ _ (by omega),
    splice_getElem? _ _ _ (by omega), splice_getElem? _ _ _ (by omega)]
  repeat' split
  all_goals first | rfl | omega

end Verif
