import Verif.Proofs.Sizes

/-! Setters write inside their field only, for arbitrary values and buffers. -/

namespace Verif
open Spec

/-- Two buffers of the same length with the same first `P` bits. -/
def Agree (a b : Buf) (P : Nat) : Prop :=
  a.length = b.length ∧ (bitsOf a).take P = (bitsOf b).take P

theorem Agree.refl (a : Buf) (P : Nat) : Agree a a P := ⟨rfl, rfl⟩

theorem Agree.symm {a b : Buf} {P : Nat} (h : Agree a b P) : Agree b a P := ⟨h.1.symm, h.2.symm⟩

theorem Agree.trans {a b c : Buf} {P : Nat} (h : Agree a b P) (h' : Agree b c P) : Agree a c P :=
  ⟨h.1.trans h'.1, h.2.trans h'.2⟩

theorem Agree.mono {a b : Buf} {P Q : Nat} (h : Agree a b P) (hq : Q ≤ P) : Agree a b Q := by
  refine ⟨h.1, ?_⟩
  have := congrArg (List.take Q) h.2
  rwa [List.take_take, List.take_take, Nat.min_eq_left hq] at this

theorem Agree.eq {a b : Buf} {P : Nat} (h : Agree a b P) (hp : 8 * a.length ≤ P) : a = b := by
  apply bitsOf_inj
  have := h.2
  rwa [List.take_of_length_le (by rw [bitsOf_length]; omega),
    List.take_of_length_le (by rw [bitsOf_length]; have := h.1; omega)] at this

theorem Agree.bitSlice {a b : Buf} {P s n : Nat} (h : Agree a b P) (hs : s + n ≤ P) :
    bitSlice (bitsOf a) s n = bitSlice (bitsOf b) s n := by
  unfold Spec.bitSlice
  have := congrArg (fun l => (List.drop s l).take n) h.2
  simp only [List.drop_take, List.take_take] at this
  rwa [Nat.min_eq_left (by omega)] at this

theorem Agree.bytes {a b : Buf} {P x n : Nat} (h : Agree a b P) (hs : 8 * (x + n) ≤ P) :
    (a.drop x).take n = (b.drop x).take n := by
  apply bitsOf_inj
  rw [bitsOf_take, bitsOf_take, bitsOf_drop, bitsOf_drop]
  exact h.bitSlice (s := 8 * x) (n := 8 * n) (by omega)

/-- Two buffers, possibly of different lengths, that both have `P` bits and begin with the same `P`
bits. -/
def SameBits (a b : Buf) (P : Nat) : Prop :=
  P ≤ 8 * a.length ∧ P ≤ 8 * b.length ∧ (bitsOf a).take P = (bitsOf b).take P

theorem Agree.same {a b : Buf} {P : Nat} (h : Agree a b P) (hP : P ≤ 8 * a.length) : SameBits a b P :=
  ⟨hP, by have := h.1; omega, h.2⟩

theorem SameBits.symm {a b : Buf} {P : Nat} (h : SameBits a b P) : SameBits b a P :=
  ⟨h.2.1, h.1, h.2.2.symm⟩

theorem SameBits.mono {a b : Buf} {P Q : Nat} (h : SameBits a b P) (hq : Q ≤ P) : SameBits a b Q := by
  refine ⟨Nat.le_trans hq h.1, Nat.le_trans hq h.2.1, ?_⟩
  have := congrArg (List.take Q) h.2.2
  rwa [List.take_take, List.take_take, Nat.min_eq_left hq] at this

theorem SameBits.bitSlice {a b : Buf} {P s n : Nat} (h : SameBits a b P) (hs : s + n ≤ P) :
    bitSlice (bitsOf a) s n = bitSlice (bitsOf b) s n := by
  unfold Spec.bitSlice
  have := congrArg (fun l => (List.drop s l).take n) h.2.2
  simp only [List.drop_take, List.take_take] at this
  rwa [Nat.min_eq_left (by omega)] at this

theorem SameBits.bytes {a b : Buf} {P x n : Nat} (h : SameBits a b P) (hs : 8 * (x + n) ≤ P) :
    (a.drop x).take n = (b.drop x).take n := by
  apply bitsOf_inj
  rw [bitsOf_take, bitsOf_take, bitsOf_drop, bitsOf_drop]
  exact h.bitSlice (s := 8 * x) (n := 8 * n) (by omega)

theorem getPrim_stable {p : Prim} (hp : p.endian = .big) {s : Nat} (hacc : p.accepted s = true)
    {a b : Buf} {P co : Nat} (h : SameBits a b P) (hP : 8 * co + s + p.size ≤ P) :
    getPrim p s a co = getPrim p s b co := by
  obtain ⟨n, e⟩ := p
  dsimp only at hp hP
  subst hp
  have hf : fits s n := accepted_fits hacc
  have hnb := numBytes_bounds hf
  have hla := h.1
  have hlb := h.2.1
  rw [getPrim_big hf a co (by omega), getPrim_big hf b co (by omega), h.bitSlice (by omega)]

theorem getArgs_stable {m : Mode} {sizes : List Nat} {a b : Buf} {P : Nat} (h : SameBits a b P)
    (hsl : SliceLen a.length) (args : List Prim) (bit : Nat)
    (hbig : args.all (·.endian == .big) = true) (hacc : acceptedArgs bit args = true)
    (hP : bit + 8 * sizes.sum + (args.map (·.size)).sum ≤ P) :
    getArgs m (sizes.map .ok) a bit args = getArgs m (sizes.map .ok) b bit args := by
  induction args generalizing bit with
  | nil => rfl
  | cons p ps ih =>
    simp only [acceptedArgs, Bool.and_eq_true] at hacc
    simp only [List.all_cons, Bool.and_eq_true, beq_iff_eq] at hbig
    simp only [List.map_cons, List.sum_cons] at hP
    unfold SliceLen at hsl
    have hla := h.1
    have hco : curOff m bit (sizes.map .ok) = .ok (bit / 8 + sizes.sum) :=
      curOff_ok (by unfold usizeCard; omega)
    rw [getArgs, getArgs, hco, ok_bind, ok_bind,
      getPrim_stable hbig.1 hacc.1 h (by omega), ih (bit + p.size) hbig.2 hacc.2 (by omega)]

/-- Bit position of the next field. -/
def St.pos (st : St) (sizes : List Nat) : Nat := st.bit + 8 * sizes.sum

theorem run_lens_prefix (m : Mode) (buf : Buf) (fs : List Field) (st : St) :
    ∃ more, (St.run m buf st fs).lens = st.lens ++ more := by
  induction fs generalizing st with
  | nil => exact ⟨[], by simp [St.run]⟩
  | cons f fs ih =>
    obtain ⟨more, hm⟩ := ih (st.step m buf f)
    have hs : St.run m buf st (f :: fs) = St.run m buf (st.step m buf f) fs := rfl
    rw [hs, hm]
    simp only [St.step]
    cases f.len with
    | none => exact ⟨more, rfl⟩
    | some e => exact ⟨lenExpr m buf st e :: more, by simp⟩

theorem map_ok_append {l : List (Res Nat)} {a : List (Res Nat)} {sizes : List Nat}
    (h : sizes.map .ok = l ++ a) : ∃ s t, l = s.map .ok ∧ a = t.map .ok ∧ sizes = s ++ t := by
  obtain ⟨s, t, h1, h2, h3⟩ := List.map_eq_append_iff.mp h
  exact ⟨s, t, h2.symm, h3.symm, h1⟩

theorem map_ok_inj {a b : List Nat} (h : a.map (Except.ok (ε := Fail)) = b.map .ok) : a = b :=
  List.map_inj_right (fun _ _ h => by cases h; rfl) |>.mp h

/-- The loop's state depends only on the bytes of the fields passed. -/
theorem run_stable {m : Mode} {a b : Buf} (hsl : SliceLen a.length) (fs : List Field)
    (bit : Nat) (sizes more : List Nat) (vals : List (Res Val)) (hreg : regularFields bit fs = true)
    (hclosed : closedFields fs) (hloc : localLens fs)
    (hlens : (St.run m a ⟨bit, sizes.map .ok, vals⟩ fs).lens = (sizes ++ more).map .ok)
    {P : Nat} (hP : bit + bitsSum fs + 8 * (sizes ++ more).sum ≤ P)
    (h : SameBits a b P) :
    St.run m a ⟨bit, sizes.map .ok, vals⟩ fs = St.run m b ⟨bit, sizes.map .ok, vals⟩ fs := by
  induction fs generalizing bit sizes vals more with
  | nil => rfl
  | cons f fs ih =>
    simp only [regularFields, Bool.and_eq_true] at hreg
    obtain ⟨⟨⟨hplain, hacc⟩, hshape⟩, hregs⟩ := hreg
    have hs : ∀ c st, St.run m c st (f :: fs) = St.run m c (st.step m c f) fs := fun _ _ => rfl
    rw [hs] at hlens
    rw [hs, hs]
    simp only [bitsSum, List.map_cons, List.sum_cons, List.sum_append] at hP
    have hsl' := hsl
    unfold SliceLen at hsl'
    have hPl := h.1
    have hPb := h.2.1
    have hco : curOff m bit (sizes.map .ok) = .ok (bit / 8 + sizes.sum) :=
      curOff_ok (by unfold usizeCard; omega)
    by_cases hvec : f.ty.isVec = true
    · -- a vector with a length
      rw [if_pos hvec] at hshape
      simp only [Bool.and_eq_true, beq_iff_eq] at hshape
      have hsome := hclosed f (by simp) hvec
      obtain ⟨e, he⟩ := Option.isSome_iff_exists.mp hsome
      have heloc := hloc f (by simp) e he
      obtain ⟨x, hx⟩ := run_lens_prefix m a fs (St.step m a ⟨bit, sizes.map .ok, vals⟩ f)
      rw [hlens] at hx
      have hstl : (St.step m a ⟨bit, sizes.map .ok, vals⟩ f).lens =
          sizes.map .ok ++ [lenExpr m a ⟨bit, sizes.map .ok, vals⟩ e] := by
        simp only [St.step, he]
      rw [hstl, List.map_append, List.append_assoc] at hx
      have hx2 := List.append_cancel_left hx
      obtain ⟨s, t, h1, h2, h3⟩ := map_ok_append hx2
      obtain ⟨l, rfl⟩ : ∃ l, s = [l] := by
        cases s with
        | nil => simp at h1
        | cons l s => cases s with
          | nil => exact ⟨l, rfl⟩
          | cons _ _ => simp at h1
      simp only [List.map_cons, List.map_nil, List.cons.injEq, and_true] at h1
      subst h3
      simp only [List.cons_append, List.nil_append, List.sum_cons] at hP
      have hlb : lenExpr m b ⟨bit, sizes.map .ok, vals⟩ e = .ok l := by
        rw [← h1, lenExpr, lenExpr]; exact heloc _ _ _ _
      have hbits := isVec_bits hvec
      have hstep : ∀ c, lenExpr m c ⟨bit, sizes.map .ok, vals⟩ e = .ok l →
          St.step m c ⟨bit, sizes.map .ok, vals⟩ f =
            ⟨bit, (sizes ++ [l]).map .ok,
              vals ++ [getField m c bit (sizes.map .ok) (.ok l) f.ty]⟩ := by
        intro c hc
        simp [St.step, he, fieldLen, hc, hbits]
      have hgf : getField m a bit (sizes.map .ok) (.ok l) f.ty =
          getField m b bit (sizes.map .ok) (.ok l) f.ty := by
        have hvs : varSlice m a (.ok (bit / 8 + sizes.sum)) (.ok l) =
            varSlice m b (.ok (bit / 8 + sizes.sum)) (.ok l) := by
          rw [varSlice_ok (by unfold usizeCard; omega) (by omega),
            varSlice_ok (by unfold usizeCard; omega) (by omega), h.bytes (by omega)]
        cases hty : f.ty with
        | prim p => rw [hty] at hvec; simp [Ty.isVec] at hvec
        | misc args => rw [hty] at hvec; simp [Ty.isVec] at hvec
        | vecPrim p => rw [getField, getField, hco, hvs]
        | vecPkt c => rw [getField, getField, hco, hvs]
      rw [hstep a h1.symm.symm] at hlens
      rw [hstep a h1, hstep b hlb, hgf]
      rw [hgf] at hlens
      refine ih bit (sizes ++ [l]) t _ (by rw [hbits] at hregs; exact hregs)
        (fun g hg => hclosed g (by simp [hg])) (fun g hg => hloc g (by simp [hg])) ?_ ?_
      · simpa [List.append_assoc] using hlens
      · simp only [List.sum_append, List.sum_cons, List.sum_nil, bitsSum]; omega
    · have hv : f.ty.isVec = false := by simpa using hvec
      rw [if_neg (by simp [hv])] at hshape
      have hnone : f.len = none := by simpa using hshape
      have hstep : ∀ c, St.step m c ⟨bit, sizes.map .ok, vals⟩ f =
            ⟨bit + f.ty.bits, sizes.map .ok,
              vals ++ [getField m c bit (sizes.map .ok) (.ok c.length) f.ty]⟩ := by
        intro c
        simp [St.step, hnone, fieldLen]
      have hgf : getField m a bit (sizes.map .ok) (.ok a.length) f.ty =
          getField m b bit (sizes.map .ok) (.ok b.length) f.ty := by
        cases hty : f.ty with
        | prim p =>
          rw [hty] at hplain hacc hP
          simp only [plainTy, beq_iff_eq] at hplain
          simp only [Ty.bits] at hP
          simp only [Ty.accepted] at hacc
          rw [getField, getField, hco, ok_bind, ok_bind, getPrim_stable hplain hacc h (by omega)]
        | misc args =>
          rw [hty] at hplain hacc hP
          simp only [plainTy] at hplain
          simp only [Ty.bits] at hP
          simp only [Ty.accepted, Bool.and_eq_true] at hacc
          rw [getField, getField, getArgs_stable h hsl args bit hplain hacc.2 (by omega)]
        | vecPrim p => rw [hty] at hv; simp [Ty.isVec] at hv
        | vecPkt c => rw [hty] at hv; simp [Ty.isVec] at hv
      rw [hstep a] at hlens
      rw [hstep a, hstep b, hgf]
      rw [hgf] at hlens
      exact ih (bit + f.ty.bits) sizes more _ hregs (fun g hg => hclosed g (by simp [hg]))
        (fun g hg => hloc g (by simp [hg])) hlens (by simp only [List.sum_append, bitsSum]; omega)

/-- The state before a field depends only on the bits before that field. -/
theorem before_stable {m : Mode} {d : Decl} (hreg : regular d = true) (hloc : localLens d.fields)
    {a b : Buf} (hsl : SliceLen a.length) {k : Nat} {sizes : List Nat}
    (hclosed : closedFields (d.fields.take k))
    (hlens : (d.before m a k).lens = sizes.map .ok)
    (h : Agree a b (bitsSum (d.fields.take k) + 8 * sizes.sum)) :
    d.before m a k = d.before m b k := by
  by_cases hP : bitsSum (d.fields.take k) + 8 * sizes.sum ≤ 8 * a.length
  · have hr : regularFields 0 (d.fields.take k) = true := regularFields_take hreg k
    exact run_stable (m := m) hsl (d.fields.take k) 0 [] sizes [] hr hclosed
      (fun f hf => hloc f (List.mem_of_mem_take hf)) hlens (by simp) (h.same hP)
  · rw [h.eq (by omega)]

/-! ## Setters -/

theorem curOff_inv {m : Mode} {bit co : Nat} {sizes : List Nat}
    (hnw : m = .debug ∨ bit / 8 + sizes.sum < 2 ^ 63)
    (h : curOff m bit (sizes.map .ok) = .ok co) : co = bit / 8 + sizes.sum := by
  rcases hnw with rfl | hnw
  · exact foldlM_uadd_debug h
  · rw [curOff_ok (by unfold usizeCard; omega)] at h
    cases h; rfl

theorem uadd_inv {m : Mode} {a b c : Nat} (hnw : m = .debug ∨ a + b < 2 ^ 64)
    (h : uadd m a b = .ok c) : c = a + b := by
  unfold uadd at h
  split at h
  · cases h; rfl
  · rcases hnw with rfl | hnw
    · simp at h
    · unfold usizeCard at *; omega

theorem setPrim_inv {p : Prim} (hp : p.endian = .big) {s : Nat} (hacc : p.accepted s = true)
    {buf new : Buf} {co v : Nat} (h : setPrim p s buf co v = .ok new) :
    8 * co + s + p.size ≤ 8 * buf.length ∧ new.length = buf.length ∧
      bitsOf new = (bitsOf buf).take (8 * co + s) ++ toBits p.size v ++
        (bitsOf buf).drop (8 * co + s + p.size) := by
  obtain ⟨n, e⟩ := p
  dsimp only at hp ⊢
  subst hp
  have hf : fits s n := accepted_fits hacc
  have hnb := numBytes_bounds hf
  have hb : co + numBytes s n ≤ buf.length := by
    apply Decidable.byContradiction
    intro hc
    have hne : (List.range (numBytes s n)).map (opBE s n) ≠ [] := by
      have := hf.2.1
      simp only [ne_eq, List.map_eq_nil_iff, List.range_eq_nil]; omega
    simp only [setPrim, operations_big hf, setOps] at h
    exact setOpsFrom_panic _ _ _ _ _ _ (by simpa [toMutator] using hne)
      (by simp [toMutator]; omega) _ h
  obtain ⟨new', h1, h2, h3⟩ := setPrim_big hf buf co v hb
  rw [h1] at h
  cases h
  exact ⟨by omega, h2, h3⟩

/-- `new` is `buf` with changes only in the bits `[P, Q)`. -/
def Within (buf new : Buf) (P Q : Nat) : Prop :=
  new.length = buf.length ∧ (bitsOf new).take P = (bitsOf buf).take P ∧
    (bitsOf new).drop Q = (bitsOf buf).drop Q

theorem Within.refl (buf : Buf) (P Q : Nat) : Within buf buf P Q := ⟨rfl, rfl, rfl⟩

theorem Within.agree {buf new : Buf} {P Q : Nat} (h : Within buf new P Q) : Agree buf new P :=
  ⟨h.1.symm, h.2.1.symm⟩

theorem take_mono {l l' : List Bool} {P P' : Nat} (h : l.take P = l'.take P) (hp : P' ≤ P) :
    l.take P' = l'.take P' := by
  have := congrArg (List.take P') h
  rwa [List.take_take, List.take_take, Nat.min_eq_left hp] at this

theorem drop_mono {l l' : List Bool} {Q Q' : Nat} (h : l.drop Q = l'.drop Q) (hq : Q ≤ Q') :
    l.drop Q' = l'.drop Q' := by
  have := congrArg (List.drop (Q' - Q)) h
  rwa [List.drop_drop, List.drop_drop, show Q + (Q' - Q) = Q' by omega] at this

theorem Within.mono {buf new : Buf} {P Q P' Q' : Nat} (h : Within buf new P Q) (hp : P' ≤ P)
    (hq : Q ≤ Q') : Within buf new P' Q' :=
  ⟨h.1, take_mono h.2.1 hp, drop_mono h.2.2 hq⟩

theorem Within.trans {a b c : Buf} {P Q : Nat} (h : Within a b P Q) (h' : Within b c P Q) :
    Within a c P Q :=
  ⟨h'.1.trans h.1, h'.2.1.trans h.2.1, h'.2.2.trans h.2.2⟩

theorem within_of_bits {buf new : Buf} {P n : Nat} {mid : List Bool} (hm : mid.length = n)
    (hP : P + n ≤ 8 * buf.length) (hl : new.length = buf.length)
    (h : bitsOf new = (bitsOf buf).take P ++ mid ++ (bitsOf buf).drop (P + n)) :
    Within buf new P (P + n) := by
  have hlen : ((bitsOf buf).take P).length = P := by rw [List.length_take, bitsOf_length]; omega
  refine ⟨hl, ?_, ?_⟩
  · rw [h, List.append_assoc, List.take_append_of_le_length (by omega), List.take_take, Nat.min_self]
  · rw [h, List.drop_append, List.length_append, hlen, hm, Nat.sub_self, List.drop_zero,
      List.drop_eq_nil_of_le (by rw [List.length_append]; omega), List.nil_append]

theorem setArgs_within {m : Mode} {lensOf : Buf → List (Res Nat)} {sizes : List Nat} {P : Nat}
    {buf0 : Buf} (hlens : ∀ b, Agree buf0 b P → lensOf b = sizes.map .ok)
    (args : List Prim) (vs : List Nat) (hlen : vs.length = args.length)
    (hbig : args.all (·.endian == .big) = true) (bit : Nat)
    (hacc : acceptedArgs bit args = true)
    (hnw : m = .debug ∨ (bit + (args.map (·.size)).sum) / 8 + sizes.sum < 2 ^ 63)
    {buf new : Buf} (hag : Agree buf0 buf P)
    (hP : P ≤ bit + 8 * sizes.sum) (h : setArgs m lensOf bit args vs buf = .ok new) :
    Within buf new (bit + 8 * sizes.sum) (bit + 8 * sizes.sum + (args.map (·.size)).sum) := by
  induction args generalizing vs bit buf with
  | nil => rw [setArgs.eq_def] at h; cases h; exact Within.refl _ _ _
  | cons p ps ih =>
    cases vs with
    | nil => simp at hlen
    | cons v vs =>
      simp only [List.all_cons, Bool.and_eq_true, beq_iff_eq] at hbig
      simp only [acceptedArgs, Bool.and_eq_true] at hacc
      simp only [List.map_cons, List.sum_cons] at hnw ⊢
      rw [setArgs, hlens buf hag, bind_eq_ok] at h
      obtain ⟨co, hco, h⟩ := h
      have := curOff_inv (hnw.imp_right fun h => by omega) hco
      subst this
      rw [bind_eq_ok] at h
      obtain ⟨b1, h1, h2⟩ := h
      obtain ⟨g1, g2, g3⟩ := setPrim_inv hbig.1 hacc.1 h1
      have w1 := within_of_bits (toBits_length _ _) g1 g2 g3
      rw [show 8 * (bit / 8 + sizes.sum) + bit % 8 = bit + 8 * sizes.sum by omega] at w1
      have := ih vs (by simpa using hlen) hbig.2 (bit + p.size) hacc.2
        (hnw.imp_right fun h => by omega) (buf := b1) (hag.trans (w1.agree.mono hP)) (by omega) h2
      exact (w1.mono (Nat.le_refl _) (by omega)).trans (this.mono (by omega) (by omega))

theorem setPackets_within {m : Mode} {c : Codec} (hc : ConfinedC m c) {endOff : Nat} (vs : List Val)
    {cur : Nat} {buf new : Buf} (hsl : SliceLen buf.length)
    (h : setPackets m c endOff cur vs buf = .ok new) :
    new.length = buf.length ∧ new.take cur = buf.take cur ∧ new.drop endOff = buf.drop endOff := by
  induction vs generalizing cur buf with
  | nil => rw [setPackets] at h; cases h; exact ⟨rfl, rfl, rfl⟩
  | cons v vs ih =>
    rw [setPackets, bind_eq_ok] at h
    obtain ⟨sub, h1, h2⟩ := h
    have hcur : cur ≤ buf.length ∧ sub = buf.drop cur := by
      rw [sliceFrom] at h1; split at h1
      · cases h1; exact ⟨by assumption, rfl⟩
      · simp at h1
    obtain ⟨hcur, rfl⟩ := hcur
    split at h2
    · rw [bind_eq_ok] at h2
      obtain ⟨sub', h3, h4⟩ := h2
      dsimp only at h4
      rw [bind_eq_ok] at h4
      obtain ⟨size, h5, h6⟩ := h4
      rw [bind_eq_ok] at h6
      obtain ⟨cur', h7, h8⟩ := h6
      split at h8
      · rename_i hend
        unfold SliceLen at hsl
        obtain ⟨g1, g2⟩ := hc.1 _ v sub' size
          (by unfold SliceLen; rw [List.length_drop]; omega) h3 h5
        have hc' : cur' = cur + size := uadd_inv
          (hc.2.imp_right fun hh => by have := hh _ _ h5; omega) h7
        subst hc'
        rw [List.length_drop] at g1
        have hbl : (buf.take cur ++ sub').length = buf.length := by
          rw [List.length_append, List.length_take]; omega
        obtain ⟨i1, i2, i3⟩ := ih (by rw [hbl]; exact hsl) h8
        have htl : (buf.take cur).length = cur := by rw [List.length_take]; omega
        refine ⟨by omega, ?_, ?_⟩
        · have h9 := congrArg (List.take cur) i2
          rw [List.take_take, List.take_take, Nat.min_eq_left (by omega)] at h9
          rw [h9, List.take_append_of_le_length (by omega), List.take_take, Nat.min_self]
        · rw [i3, List.drop_append, htl, List.drop_eq_nil_of_le (by omega), List.nil_append]
          have h10 := congrArg (List.drop (endOff - cur - size)) g2
          rw [List.drop_drop, List.drop_drop, List.drop_drop] at h10
          rw [show size + (endOff - cur - size) = endOff - cur by omega,
            show cur + (endOff - cur) = endOff by omega] at h10
          exact h10
      · simp at h8
    · simp at h2

/-- A setter changes only its own field. -/
theorem set_within {m : Mode} {d : Decl} (hreg : regular d = true) (hloc : localLens d.fields)
    (hnw : NoWrap m d) (helem : ∀ f ∈ d.fields, ∀ c, f.ty = .vecPkt c → ConfinedC m c)
    {buf new : Buf} (hsl : SliceLen buf.length) {k : Nat} {f : Field} {v : Val}
    (hf : d.fields[k]? = some f) (h : d.set m buf k v = .ok new) :
    ∃ (sizes : List Nat) (sz : Nat), (d.before m buf k).lens = sizes.map .ok ∧
      (f.len = none → f.ty.isVec = false → sz = 0) ∧
      (∀ e, f.len = some e → lenExpr m buf (d.before m buf k) e = .ok sz) ∧
      Within buf new (bitsSum (d.fields.take k) + 8 * sizes.sum)
        (bitsSum (d.fields.take k) + 8 * sizes.sum + f.ty.bits + 8 * sz) := by
  have hk : k < d.fields.length := (List.getElem?_eq_some_iff.mp hf).1
  have hregk := regularFields_drop hreg k
  rw [Nat.zero_add, drop_of_getElem? hf] at hregk
  simp only [regularFields, Bool.and_eq_true] at hregk
  obtain ⟨⟨⟨hplain, hacc⟩, hshape⟩, -⟩ := hregk
  have hcl := closedFields_take hreg hk
  have hbf := bitsSum_field_le hf
  have hdb : d.bits = bitsSum d.fields := rfl
  have hbit := before_bit d m buf k
  rw [Decl.set, hf] at h
  dsimp only at h
  have hoff : ∀ co, curOff m (d.before m buf k).bit (d.before m buf k).lens = .ok co →
      ∃ sizes : List Nat, (d.before m buf k).lens = sizes.map .ok ∧
        co = bitsSum (d.fields.take k) / 8 + sizes.sum ∧
        (m = .debug ∨ d.bits / 8 + sizes.sum < 2 ^ 63) := by
    intro co hco
    obtain ⟨sizes, hs⟩ := foldlM_uadd_ok hco
    rw [hs, hbit] at hco
    have hn : m = .debug ∨ d.bits / 8 + sizes.sum < 2 ^ 63 := hnw.lens.imp_right fun hh => hh buf k sizes hs
    exact ⟨sizes, hs, curOff_inv (hn.imp_right fun h => by omega) hco, hn⟩
  cases hty : f.ty with
  | prim p =>
    rw [hty] at h hplain hacc hbf hshape
    cases v <;> simp only [] at h <;> first | (simp at h; done) | skip
    rename_i n
    rw [bind_eq_ok] at h
    obtain ⟨co, hco, h⟩ := h
    obtain ⟨sizes, hs, rfl, -⟩ := hoff co hco
    simp only [plainTy, beq_iff_eq] at hplain
    simp only [Ty.accepted] at hacc
    have hnone : f.len = none := by simpa [Ty.isVec] using hshape
    refine ⟨sizes, 0, hs, fun _ _ => rfl, (fun e he => by rw [hnone] at he; cases he), ?_⟩
    rw [hbit] at h
    obtain ⟨g1, g2, g3⟩ := setPrim_inv hplain hacc h
    have w := within_of_bits (toBits_length _ _) g1 g2 g3
    refine w.mono (by omega) ?_
    simp only [Ty.bits]; omega
  | misc args =>
    rw [hty] at h hplain hacc hbf hshape
    cases v <;> simp only [] at h <;> first | (simp at h; done) | skip
    rename_i ns
    simp only [plainTy] at hplain
    simp only [Ty.accepted, Bool.and_eq_true] at hacc
    have hnone : f.len = none := by simpa [Ty.isVec] using hshape
    split at h
    · rename_i hlen
      have hne : ∃ co, curOff m (d.before m buf k).bit (d.before m buf k).lens = .ok co := by
        cases args with
        | nil => simp at hacc
        | cons p ps => cases ns with
          | nil => simp at hlen
          | cons n ns =>
            rw [setArgs, bind_eq_ok] at h
            obtain ⟨co, hco, -⟩ := h
            exact ⟨co, hco⟩
      obtain ⟨co, hco⟩ := hne
      obtain ⟨sizes, hs, -, hn⟩ := hoff co hco
      refine ⟨sizes, 0, hs, fun _ _ => rfl, (fun e he => by rw [hnone] at he; cases he), ?_⟩
      rw [hbit] at h
      simp only [Ty.bits] at hbf ⊢
      exact setArgs_within (P := bitsSum (d.fields.take k) + 8 * sizes.sum) (buf0 := buf)
        (fun b hb => by rw [← before_stable hreg hloc hsl hcl hs hb, hs]) args ns hlen hplain _
        hacc.2 (hn.imp_right fun h => by omega) (Agree.refl _ _) (Nat.le_refl _) h
    · simp at h
  | vecPrim p =>
    rw [hty] at h hplain hacc hshape
    cases v <;> simp only [] at h <;> first | (simp at h; done) | skip
    rename_i ns
    simp only [plainTy, beq_iff_eq] at hplain
    rw [if_pos (by rfl)] at hshape
    simp only [Bool.and_eq_true, beq_iff_eq] at hshape
    rw [bind_eq_ok] at h
    obtain ⟨co, hco, h⟩ := h
    obtain ⟨sizes, hs, rfl, -⟩ := hoff co hco
    have key : ∀ sz, ns.length ≤ sz →
        copyInto buf (bitsSum (d.fields.take k) / 8 + sizes.sum) (ns.map UInt8.ofNat) = .ok new →
        Within buf new (bitsSum (d.fields.take k) + 8 * sizes.sum)
          (bitsSum (d.fields.take k) + 8 * sizes.sum + (Ty.vecPrim p).bits + 8 * sz) := by
      intro sz hsz hcp
      rw [copyInto] at hcp
      split at hcp
      · rename_i hle
        cases hcp
        rw [List.length_map] at hle
        have hP : 8 * (bitsSum (d.fields.take k) / 8 + sizes.sum) =
            bitsSum (d.fields.take k) + 8 * sizes.sum := by omega
        have w := within_of_bits (buf := buf) (new := buf.take (bitsSum (d.fields.take k) / 8 + sizes.sum) ++
            ns.map UInt8.ofNat ++ buf.drop (bitsSum (d.fields.take k) / 8 + sizes.sum +
              (ns.map UInt8.ofNat).length)) (P := bitsSum (d.fields.take k) + 8 * sizes.sum)
          (n := 8 * ns.length) (mid := bitsOf (ns.map UInt8.ofNat))
          (by rw [bitsOf_length, List.length_map]) (by omega)
          (by simp only [List.length_append, List.length_take, List.length_drop, List.length_map]; omega)
          (by rw [bitsOf_append, bitsOf_append, bitsOf_take, bitsOf_drop, List.length_map, hP,
                Nat.mul_add 8 (_ + _), hP])
        exact w.mono (Nat.le_refl _) (by simp only [Ty.bits]; omega)
      · simp at hcp
    rw [if_pos hplain] at h
    cases he : f.len with
    | none =>
      rw [he] at h
      refine ⟨sizes, ns.length, hs, (fun _ hv => by simp [Ty.isVec] at hv),
        (fun e he' => by cases he'), key _ (Nat.le_refl _) (by simpa using h)⟩
    | some e =>
      rw [he] at h
      dsimp only at h
      rw [bind_eq_ok] at h
      obtain ⟨len, hlen, h⟩ := h
      split at h
      · rename_i hle
        refine ⟨sizes, len, hs, (fun hn => by cases hn),
          (fun e' he' => by cases he'; exact hlen), key _ hle (by simpa using h)⟩
      · simp at h
  | vecPkt c =>
    rw [hty] at h hplain hacc hshape
    cases v <;> simp only [] at h <;> first | (simp at h; done) | skip
    rename_i vs
    rw [if_pos (by rfl)] at hshape
    simp only [Bool.and_eq_true, beq_iff_eq] at hshape
    rw [bind_eq_ok] at h
    obtain ⟨co, hco, h⟩ := h
    obtain ⟨sizes, hs, rfl, -⟩ := hoff co hco
    rw [bind_eq_ok] at h
    obtain ⟨len, hlen, h⟩ := h
    rw [bind_eq_ok] at h
    obtain ⟨endOff, hend, h⟩ := h
    obtain ⟨g1, g2, g3⟩ := setPackets_within
      (helem f (List.mem_of_getElem? hf) c hty) vs hsl h
    have hP : 8 * (bitsSum (d.fields.take k) / 8 + sizes.sum) =
        bitsSum (d.fields.take k) + 8 * sizes.sum := by omega
    have hw : ∀ Q, 8 * endOff ≤ Q → Within buf new (bitsSum (d.fields.take k) + 8 * sizes.sum) Q := by
      intro Q hQ
      refine ⟨g1, ?_, ?_⟩
      · rw [← hP, ← bitsOf_take, ← bitsOf_take, g2]
      · exact drop_mono (by rw [← bitsOf_drop, ← bitsOf_drop, g3]) hQ
    cases he : f.len with
    | none =>
      rw [fieldLen, he] at hlen
      cases hlen
      refine ⟨sizes, endOff, hs, (fun _ hv => by simp [Ty.isVec] at hv),
        (fun e he' => by cases he'), hw _ (by omega)⟩
    | some e =>
      rw [fieldLen, he] at hlen
      dsimp only at hlen
      have hnx : (d.before m buf (k + 1)).lens = (sizes ++ [len]).map .ok := by
        rw [before_succ hf, St.step, he]
        dsimp only
        rw [hs, hlen]; simp
      have hsum : endOff = bitsSum (d.fields.take k) / 8 + sizes.sum + len := by
        refine uadd_inv (hnw.lens.imp_right fun hh => ?_) hend
        have := hh buf (k + 1) _ hnx
        rw [List.sum_append, List.sum_cons, List.sum_nil] at this
        omega
      refine ⟨sizes, len, hs, (fun hn => by cases hn),
        (fun e' he' => by cases he'; exact hlen), hw _ ?_⟩
      simp only [Ty.bits]; omega

/-! ## `populate` -/

theorem populateFrom_within {m : Mode} {d : Decl} (hreg : regular d = true) (hloc : localLens d.fields)
    (hnw : NoWrap m d) (helem : ∀ f ∈ d.fields, ∀ c, f.ty = .vecPkt c → ConfinedC m c)
    (hclosed : closed d = true) (vs : List Val) (k : Nat) (hk : k + vs.length = d.fields.length)
    {buf new : Buf} (hsl : SliceLen buf.length) (h : d.populateFrom m k vs buf = .ok new)
    {sizes : List Nat} (hs : (d.before m buf k).lens = sizes.map .ok) :
    new.length = buf.length ∧ Agree buf new (bitsSum (d.fields.take k) + 8 * sizes.sum) ∧
      ∃ sizes' : List Nat, (d.final m new).lens = sizes'.map .ok ∧ sizes.sum ≤ sizes'.sum ∧
        (bitsOf new).drop (d.bits + 8 * sizes'.sum) = (bitsOf buf).drop (d.bits + 8 * sizes'.sum) := by
  induction vs generalizing k buf sizes with
  | nil =>
    rw [populateFrom_nil] at h
    cases h
    simp only [List.length_nil, Nat.add_zero] at hk
    subst hk
    refine ⟨rfl, Agree.refl _ _, sizes, ?_, Nat.le_refl _, rfl⟩
    rw [final_eq_before, hs]
  | cons v vs ih =>
    simp only [List.length_cons] at hk
    have hk' : k < d.fields.length := by omega
    have hf : d.fields[k]? = some d.fields[k] := List.getElem?_eq_getElem hk'
    generalize d.fields[k] = f at hf
    rw [Decl.populateFrom, bind_eq_ok] at h
    obtain ⟨b1, h1, h2⟩ := h
    obtain ⟨sizes0, sz, g1, g2, g3, w⟩ := set_within hreg hloc hnw helem hsl hf h1
    rw [hs] at g1
    have := map_ok_inj g1
    subst this
    have hst := before_stable hreg hloc hsl (closedFields_take hreg hk') hs w.agree
    have hbs := bitsSum_take_succ hf
    -- lens before field k+1 on b1
    have hregk := regularFields_drop hreg k
    rw [Nat.zero_add, drop_of_getElem? hf] at hregk
    simp only [regularFields, Bool.and_eq_true] at hregk
    have hshape := hregk.1.2
    have hcl := closed_fields hclosed f (List.mem_of_getElem? hf)
    have hsz : ∃ sizes1 : List Nat, (d.before m b1 (k + 1)).lens = sizes1.map .ok ∧
        sizes1.sum = sizes.sum + sz := by
      rw [before_succ hf, St.step, ← hst]
      cases he : f.len with
      | none =>
        have hv : f.ty.isVec = false := by
          cases hv : f.ty.isVec with
          | false => rfl
          | true => have := hcl hv; rw [he] at this; simp at this
        exact ⟨sizes, hs, by rw [g2 he hv]; rfl⟩
      | some e =>
        refine ⟨sizes ++ [sz], ?_, by simp⟩
        dsimp only
        have : lenExpr m b1 (d.before m buf k) e = .ok sz := by
          rw [← g3 e he, lenExpr, lenExpr]
          exact hloc f (List.mem_of_getElem? hf) e he _ _ _ _
        rw [hs, this]; simp
    obtain ⟨sizes1, hs1, hsum1⟩ := hsz
    obtain ⟨i1, i2, sizes', i3, i4, i5⟩ := ih (k + 1) (by omega)
      (by have := w.1; rw [this]; exact hsl) h2 hs1
    have hbl := bitsSum_take_le d.fields (k + 1)
    have hdb : d.bits = bitsSum d.fields := rfl
    refine ⟨i1.trans w.1, w.agree.trans (i2.mono (by omega)), sizes', i3, by omega, ?_⟩
    rw [i5]
    exact drop_mono w.2.2 (by omega)

/-- A struct type with declared lengths throughout is confined. -/
theorem confined_codec {m : Mode} {d : Decl} (hreg : regular d = true) (hloc : localLens d.fields)
    (hnw : NoWrap m d) (helem : ∀ f ∈ d.fields, ∀ c, f.ty = .vecPkt c → ConfinedC m c)
    (hclosed : closed d = true) (hbytes : d.bits % 8 = 0) : ConfinedC m d.codec := by
  have hsize : ∀ buf n, d.packetSize m buf = .ok n → ∃ sizes : List Nat, (d.final m buf).lens = sizes.map .ok ∧
      n = d.bits / 8 + sizes.sum := by
    intro buf n hn
    obtain ⟨sizes, hs⟩ := foldlM_uadd_ok hn
    have hb : (d.final m buf).bit = d.bits := by
      rw [final_eq_before, before_bit, List.take_length]; rfl
    refine ⟨sizes, hs, ?_⟩
    rw [Decl.packetSize, hs, hb] at hn
    exact curOff_inv (hnw.lens.imp_right fun hh => by
      have := hh buf d.fields.length sizes (by rw [← final_eq_before]; exact hs); omega) hn
  refine ⟨?_, hnw.lens.imp_right fun hh buf n hn => ?_⟩
  · intro buf v new n hsl hp hn
    change d.populate m buf v = .ok new at hp
    change d.packetSize m new = .ok n at hn
    cases v with
    | num _ => simp [Decl.populate] at hp
    | nums _ => simp [Decl.populate] at hp
    | list vs =>
    rw [Decl.populate] at hp
    split at hp
    · rename_i hlen
      obtain ⟨h1, -, sizes', h3, -, h5⟩ := populateFrom_within hreg hloc hnw helem hclosed vs 0
        (by omega) hsl hp (sizes := []) (by simp [Decl.before, St.run, St.init])
      obtain ⟨sizes, hs, rfl⟩ := hsize new n hn
      rw [hs] at h3
      have := map_ok_inj h3
      subst this
      refine ⟨h1, ?_⟩
      apply bitsOf_inj
      rw [bitsOf_drop, bitsOf_drop, show 8 * (d.bits / 8 + sizes.sum) = d.bits + 8 * sizes.sum by omega]
      exact h5
    · simp at hp
  · obtain ⟨sizes, hs, rfl⟩ := hsize buf n hn
    have := hh buf d.fields.length sizes (by rw [← final_eq_before]; exact hs)
    omega

end Verif
