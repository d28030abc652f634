import Verif.Proofs.QuicIter
import Verif.Proofs.VectorFields
import Verif.Proofs.QuicFramePopulate
import Verif.Spec.QuicSet

/-! Helper lemmas: setting the fields of QUIC packets and frames. -/

namespace Verif
open Spec Spec.Quic

/-- The length expression looks only at the bytes it covers (and at how many bytes there are). -/
def LenExpr.causal (e : LenExpr) : Prop := ∀ m g (x x' : Buf) n, x'.length = x.length →
  x'.take n = x.take n → e m g (.ok x) = .ok n → e m g (.ok x') = .ok n

theorem take_zero_ne {x x' : Buf} {n : Nat} (ht : x'.take n = x.take n)
    (hn : 0 < n) : x'[0]? = x[0]? := by
  have := congrArg (·[0]?) ht
  simpa [List.getElem?_take, hn] using this

theorem varintLength_pos {x : Buf} {n : Nat} (h : varintLength x = .ok n) : 0 < n := by
  rw [varintLength, bind_eq_ok] at h
  obtain ⟨b, -, h⟩ := h
  cases h
  rw [Nat.shiftLeft_eq, Nat.one_mul]
  exact Nat.two_pow_pos _

theorem varintLength_congr {x x' : Buf} (h : x'[0]? = x[0]?) : varintLength x' = varintLength x := by
  have hi : index x' 0 = index x 0 := by
    unfold index
    cases x <;> cases x' <;> simp_all
  rw [varintLength, varintLength, hi]

theorem nVarints_causal {c n : Nat} {x x' : Buf} (ht : x'.take n = x.take n) (h : nVarints c x = .ok n) :
    nVarints c x' = .ok n := by
  rw [nVarints_iff] at h ⊢
  obtain ⟨rs, t, h1, h2, h3, h4⟩ := h
  refine ⟨rs, x'.drop n, h1, h2, ?_, h4⟩
  rw [h3, h4, List.take_left] at ht
  rw [← ht, h4, List.take_append_drop]

theorem causal_const (n : Nat) : (lenConst n).causal := fun _ _ _ _ _ _ _ h => h
theorem causal_num (i : Nat) (f : Nat → Nat) : (lenNum i f).causal := fun _ _ _ _ _ _ _ h => h
theorem causal_varint (i : Nat) : (lenVarint i).causal := fun _ _ _ _ _ _ _ h => h
theorem causal_frames (i j : Nat) : (lenFrames i j).causal := fun _ _ _ _ _ _ _ h => h

theorem causal_vi : lenVarintLength.causal := fun _ _ x x' n hl ht h => by
  simp only [lenVarintLength, ok_bind] at h ⊢
  rw [varintLength_congr (take_zero_ne ht (varintLength_pos h)), h]

theorem causal_nvi (f : Nat → Nat) : (lenNVarints f).causal := fun _ _ x x' n hl ht h => by
  simp only [lenNVarints, bind_eq_ok, ok_bind] at h ⊢
  obtain ⟨v, hv, a, ha, h⟩ := h
  exact ⟨v, hv, a, ha, nVarints_causal ht h⟩

theorem causal_nviOf (i : Nat) : (lenNVarintsOf i).causal := fun _ _ x x' n hl ht h => by
  simp only [lenNVarintsOf, bind_eq_ok, ok_bind] at h ⊢
  obtain ⟨v, hv, a, ha, c, hc, h⟩ := h
  exact ⟨v, hv, a, ha, c, hc, nVarints_causal ht h⟩

theorem causal_stream (i : Nat) : (lenStreamData i).causal := fun _ _ x x' n hl ht h => by
  simp only [lenStreamData, bind_eq_ok, ok_bind] at h ⊢
  obtain ⟨v, hv, a, ha, h⟩ := h
  exact ⟨v, hv, a, ha, by rwa [hl]⟩

theorem item_causal (it : Item) {e : LenExpr} (h : it.len = some e) : e.causal := by
  cases it <;> simp only [Item.len, Option.some.injEq, reduceCtorEq] at h <;> subst h
  · exact causal_vi
  · exact causal_nvi _
  · exact causal_nvi _
  · exact causal_nviOf _
  · exact causal_varint _
  · exact causal_stream _
  · exact causal_const _
  · exact causal_num _ _
  · exact causal_num _ _

/-- All length expressions are causal. -/
def causalLens (fs : List Field) : Prop := ∀ f ∈ fs, ∀ e, f.len = some e → e.causal

/-- The loop's state depends only on the bytes of the fields passed. -/
theorem run_causal {m : Mode} {a b : Buf} (hsl : SliceLen a.length) (hab : b.length = a.length)
    (fs : List Field)
    (bit : Nat) (sizes more : List Nat) (vals : List (Res Val)) (hreg : regularFields bit fs = true)
    (hclosed : closedFields fs) (hloc : causalLens fs)
    (hlens : (St.run m a ⟨bit, sizes.map .ok, vals⟩ fs).lens = (sizes ++ more).map .ok)
    {P : Nat} (hP : bit + bitsSum fs + 8 * (sizes ++ more).sum ≤ P)
    (h : SameBits a b P) :
    St.run m a ⟨bit, sizes.map .ok, vals⟩ fs = St.run m b ⟨bit, sizes.map .ok, vals⟩ fs := by
  induction fs generalizing bit sizes vals more with
  | nil => rfl
  | cons f fs ih =>
    simp only [regularFields, Bool.and_eq_true] at hreg
    obtain ⟨⟨⟨hplain, hacc⟩, hshape⟩, hregs⟩ := hreg
    have hs : ∀ c st, St.run m c st (f :: fs) = St.run m c (st.step m c f) fs := fun _ _ => rfl
    rw [hs] at hlens
    rw [hs, hs]
    simp only [bitsSum, List.map_cons, List.sum_cons, List.sum_append] at hP
    have hsl' := hsl
    unfold SliceLen at hsl'
    have hPl := h.1
    have hPb := h.2.1
    have hco : curOff m bit (sizes.map .ok) = .ok (bit / 8 + sizes.sum) :=
      curOff_ok (by unfold usizeCard; omega)
    by_cases hvec : f.ty.isVec = true
    · -- a vector with a length
      rw [if_pos hvec] at hshape
      simp only [Bool.and_eq_true, beq_iff_eq] at hshape
      have hsome := hclosed f (by simp) hvec
      obtain ⟨e, he⟩ := Option.isSome_iff_exists.mp hsome
      have heloc := hloc f (by simp) e he
      obtain ⟨x, hx⟩ := run_lens_prefix m a fs (St.step m a ⟨bit, sizes.map .ok, vals⟩ f)
      rw [hlens] at hx
      have hstl : (St.step m a ⟨bit, sizes.map .ok, vals⟩ f).lens =
          sizes.map .ok ++ [lenExpr m a ⟨bit, sizes.map .ok, vals⟩ e] := by
        simp only [St.step, he]
      rw [hstl, List.map_append, List.append_assoc] at hx
      have hx2 := List.append_cancel_left hx
      obtain ⟨s, t, h1, h2, h3⟩ := map_ok_append hx2
      obtain ⟨l, rfl⟩ : ∃ l, s = [l] := by
        cases s with
        | nil => simp at h1
        | cons l s => cases s with
          | nil => exact ⟨l, rfl⟩
          | cons _ _ => simp at h1
      simp only [List.map_cons, List.map_nil, List.cons.injEq, and_true] at h1
      subst h3
      simp only [List.cons_append, List.nil_append, List.sum_cons] at hP
      have hlb : lenExpr m b ⟨bit, sizes.map .ok, vals⟩ e = .ok l := by
        rw [lenExpr, hco, ok_bind, sliceFrom, if_pos (by omega)] at h1 ⊢
        refine heloc _ _ _ _ _ ?_ ?_ h1
        · simp only [List.length_drop]; omega
        · exact (h.bytes (by omega)).symm
      have hbits := isVec_bits hvec
      have hstep : ∀ c, lenExpr m c ⟨bit, sizes.map .ok, vals⟩ e = .ok l →
          St.step m c ⟨bit, sizes.map .ok, vals⟩ f =
            ⟨bit, (sizes ++ [l]).map .ok,
              vals ++ [getField m c bit (sizes.map .ok) (.ok l) f.ty]⟩ := by
        intro c hc
        simp [St.step, he, fieldLen, hc, hbits]
      have hgf : getField m a bit (sizes.map .ok) (.ok l) f.ty =
          getField m b bit (sizes.map .ok) (.ok l) f.ty := by
        have hvs : varSlice m a (.ok (bit / 8 + sizes.sum)) (.ok l) =
            varSlice m b (.ok (bit / 8 + sizes.sum)) (.ok l) := by
          rw [varSlice_ok (by unfold usizeCard; omega) (by omega),
            varSlice_ok (by unfold usizeCard; omega) (by omega), h.bytes (by omega)]
        cases hty : f.ty with
        | prim p => rw [hty] at hvec; simp [Ty.isVec] at hvec
        | misc args => rw [hty] at hvec; simp [Ty.isVec] at hvec
        | vecPrim p => rw [getField, getField, hco, hvs]
        | vecPkt c => rw [getField, getField, hco, hvs]
      rw [hstep a h1.symm.symm] at hlens
      rw [hstep a h1, hstep b hlb, hgf]
      rw [hgf] at hlens
      refine ih bit (sizes ++ [l]) t _ (by rw [hbits] at hregs; exact hregs)
        (fun g hg => hclosed g (by simp [hg])) (fun g hg => hloc g (by simp [hg])) ?_ ?_
      · simpa [List.append_assoc] using hlens
      · simp only [List.sum_append, List.sum_cons, List.sum_nil, bitsSum]; omega
    · have hv : f.ty.isVec = false := by simpa using hvec
      rw [if_neg (by simp [hv])] at hshape
      have hnone : f.len = none := by simpa using hshape
      have hstep : ∀ c, St.step m c ⟨bit, sizes.map .ok, vals⟩ f =
            ⟨bit + f.ty.bits, sizes.map .ok,
              vals ++ [getField m c bit (sizes.map .ok) (.ok c.length) f.ty]⟩ := by
        intro c
        simp [St.step, hnone, fieldLen]
      have hgf : getField m a bit (sizes.map .ok) (.ok a.length) f.ty =
          getField m b bit (sizes.map .ok) (.ok b.length) f.ty := by
        cases hty : f.ty with
        | prim p =>
          rw [hty] at hplain hacc hP
          simp only [plainTy, beq_iff_eq] at hplain
          simp only [Ty.bits] at hP
          simp only [Ty.accepted] at hacc
          rw [getField, getField, hco, ok_bind, ok_bind, getPrim_stable hplain hacc h (by omega)]
        | misc args =>
          rw [hty] at hplain hacc hP
          simp only [plainTy] at hplain
          simp only [Ty.bits] at hP
          simp only [Ty.accepted, Bool.and_eq_true] at hacc
          rw [getField, getField, getArgs_stable h hsl args bit hplain hacc.2 (by omega)]
        | vecPrim p => rw [hty] at hv; simp [Ty.isVec] at hv
        | vecPkt c => rw [hty] at hv; simp [Ty.isVec] at hv
      rw [hstep a] at hlens
      rw [hstep a, hstep b, hgf]
      rw [hgf] at hlens
      exact ih (bit + f.ty.bits) sizes more _ hregs (fun g hg => hclosed g (by simp [hg]))
        (fun g hg => hloc g (by simp [hg])) hlens (by simp only [List.sum_append, bitsSum]; omega)

/-! ## QUIC types -/

theorem quicType_regular {d : Decl} (h : QuicType d) : regular d = true := by
  rcases h with ⟨k, rfl⟩ | ⟨k, rfl⟩ <;> cases k <;> decide +kernel

theorem quicType_ends {d : Decl} (h : QuicType d) (m : Mode) : endFields m d.fields := by
  rcases h with ⟨k, rfl⟩ | ⟨k, rfl⟩
  · exact quic_endFields k m
  · exact frame_endFields k m

theorem items_causal {is : List Item} {fs : List Field} (h : ItemsAre is fs) : causalLens fs := by
  induction is generalizing fs with
  | nil => cases fs with
    | nil => intro f hf; simp at hf
    | cons _ _ => exact h.elim
  | cons it is ih => cases fs with
    | nil => exact h.elim
    | cons f fs =>
      intro g hg
      rcases List.mem_cons.mp hg with rfl | hg
      · exact fun e he => item_causal it (by rw [← h.1.1, he])
      · exact ih h.2 g hg

theorem quicType_causal {d : Decl} (h : QuicType d) : causalLens d.fields := by
  rcases h with ⟨k, rfl⟩ | ⟨k, rfl⟩
  · cases k <;>
      (unfold causalLens
       repeat' first | exact List.forall_mem_nil _ | refine List.forall_mem_cons.mpr ⟨?_, ?_⟩) <;>
      intro e he <;>
      first
        | (cases he; done)
        | (cases he; exact causal_vi)
        | (cases he; exact causal_num _ _)
        | (cases he; exact causal_varint _)
        | (cases he; exact causal_frames _ _)
        | (cases he; exact causal_const _)
  · intro f hf
    rw [frame_fields k] at hf
    rcases List.mem_append.mp hf with hf | hf
    · rcases List.mem_append.mp hf with hf | hf
      · simp only [List.mem_singleton] at hf
        subst hf
        exact fun e he => (by cases he)
      · exact items_causal (frame_items k) f hf
    · simp only [List.mem_singleton] at hf
      subst hf
      exact fun e he => (by cases he)

/-- Only the last field has no declared length. -/
theorem quicType_closed {d : Decl} (h : QuicType d) {k : Nat} (hk : k + 1 ≤ d.fields.length) :
    closedFields (d.fields.take k) := by
  have hc : closedFields d.fields.dropLast := by
    rcases h with ⟨k, rfl⟩ | ⟨k, rfl⟩ <;> cases k <;>
      (unfold closedFields
       repeat' first | exact List.forall_mem_nil _ | refine List.forall_mem_cons.mpr ⟨?_, ?_⟩) <;>
      first | exact fun _ => rfl | exact fun h => nomatch h
  intro f hf
  refine hc f ?_
  rw [List.dropLast_eq_take]
  exact List.mem_of_mem_take (i := k) (by rwa [List.take_take, Nat.min_eq_left (by omega)])

theorem quicType_bytes {d : Decl} (h : QuicType d) {k : Nat} {f : Field} (hf : d.fields[k]? = some f)
    {e : LenExpr} (he : f.len = some e) : f.ty = .vecPrim (u 8) := by
  have : ∀ f ∈ d.fields, f.len.isSome = true → f.ty = .vecPrim (u 8) := by
    rcases h with ⟨k, rfl⟩ | ⟨k, rfl⟩ <;> cases k <;>
      (repeat' first | exact List.forall_mem_nil _ | refine List.forall_mem_cons.mpr ⟨?_, ?_⟩) <;>
      first | exact fun _ => rfl | exact fun h => nomatch h
  exact this f (List.mem_of_getElem? hf) (by rw [he]; rfl)

/-- Up to a field with a length the offsets do not wrap. -/
theorem quicType_fit {d : Decl} (h : QuicType d) {buf : Buf} (hsl : SliceLen buf.length) {k : Nat} {f : Field}
    (hf : d.fields[k]? = some f) {e : LenExpr} (he : f.len = some e) : Fit (d.before .release buf k) := by
  rcases h with ⟨q, rfl⟩ | ⟨q, rfl⟩
  · cases hq : q.long with
    | false => exact (quic_fits q hq hsl).fit k
    | true =>
      refine long_fit q hq hsl ?_
      obtain ⟨-, -, -, h3⟩ := long_at q hq
      have hlen : q.decl.fields.length = q.lengthPos + 4 := by cases q <;> first | rfl | cases hq
      have hk := (List.getElem?_eq_some_iff.mp hf).1
      apply Decidable.byContradiction
      intro hlt
      have : k = q.lengthPos + 3 := by omega
      rw [this, h3] at hf
      cases hf
      cases he
  · exact (frame_fits q hsl).fit k

theorem curOff_lt {m : Mode} {bit : Nat} {lens : List (Res Nat)} (hb : bit / 8 < 2 ^ 64) {n : Nat}
    (h : curOff m bit lens = .ok n) : n < 2 ^ 64 := by
  unfold curOff at h
  generalize bit / 8 = a at hb h
  induction lens generalizing a with
  | nil =>
    have : a = n := by simpa using h
    omega
  | cons l ls ih =>
    rw [List.foldlM_cons, bind_eq_ok] at h
    obtain ⟨c, hc, h⟩ := h
    refine ih c ?_ h
    rw [bind_eq_ok] at hc
    obtain ⟨x, -, hc⟩ := hc
    unfold uadd at hc
    split at hc
    · cases hc; unfold usizeCard at *; omega
    · cases m
      · simp at hc
      · cases hc; unfold usizeCard; exact Nat.mod_lt _ (by decide)

theorem quicType_bits {d : Decl} (h : QuicType d) : d.bits < 2 ^ 60 := by
  rcases h with ⟨k, rfl⟩ | ⟨k, rfl⟩ <;> cases k <;> decide +kernel

/-- What a returning setter of a field with a length has done. -/
theorem quic_set {d : Decl} (h : QuicType d) {m : Mode} {buf : Buf} (hsl : SliceLen buf.length) {k : Nat}
    {f : Field} (hf : d.fields[k]? = some f) {e : LenExpr} (he : f.len = some e) {s : Nat}
    (hs : curOff m (d.before m buf k).bit (d.before m buf k).lens = .ok s) :
    ∃ sizes : List Nat, (d.before m buf k).lens = sizes.map .ok ∧ s = startOf d k sizes ∧
      startOf d k sizes < 2 ^ 64 ∧ Sizes d m buf k sizes := by
  have hkl : k < d.fields.length := (List.getElem?_eq_some_iff.mp hf).1
  have hbit : (d.before m buf k).bit / 8 < 2 ^ 64 := by
    have := quicType_bits h
    have hb : bitsSum (d.fields.take k) ≤ d.bits := bitsSum_take_le _ _
    rw [before_bit]; omega
  have hsz : ∃ sizes : List Nat, (d.before m buf k).lens = sizes.map .ok ∧
      s = (d.before m buf k).bit / 8 + sizes.sum ∧ s < 2 ^ 64 := by
    cases m with
    | debug =>
      obtain ⟨sizes, hl⟩ := foldlM_uadd_ok hs
      rw [hl] at hs
      refine ⟨sizes, hl, curOff_inv (.inl rfl) hs, ?_⟩
      exact curOff_lt hbit hs
    | release =>
      obtain ⟨sizes, hl, hb⟩ := (quicType_fit h hsl hf he).sizes hs
      refine ⟨sizes, hl, hb, ?_⟩
      rw [hl] at hs
      exact curOff_lt hbit hs
  obtain ⟨sizes, h1, h2, h3⟩ := hsz
  have hst : s = startOf d k sizes := by rw [h2, before_bit, startOf_eq]
  refine ⟨sizes, h1, hst, by omega, lens_sizes (by omega) h1 (by omega)⟩

/-! ## The length of a field fits a `usize` -/

theorem fit_next {d : Decl} {m : Mode} {buf : Buf} {k : Nat} {f : Field} {e : LenExpr}
    (hfit : Fit (d.before m buf k)) (hfit' : Fit (d.before m buf (k + 1))) (hf : d.fields[k]? = some f)
    (he : f.len = some e) {a n : Nat}
    (ha : curOff m (d.before m buf k).bit (d.before m buf k).lens = .ok a)
    (hn : lenExpr m buf (d.before m buf k) e = .ok n) : n < 2 ^ 64 := by
  obtain ⟨sizes, h1, rfl⟩ := hfit.sizes ha
  have h2 := hfit'.2
  rw [before_succ hf] at h2
  have hl : ((d.before m buf k).step m buf f).lens = (sizes ++ [n]).map .ok := by
    simp only [St.step, he, hn, h1, List.map_append, List.map_cons, List.map_nil]
  rw [hl] at h2
  rcases h2 with ⟨x, hx, hne⟩ | ⟨sizes', h3, h4⟩
  · obtain ⟨y, -, rfl⟩ := List.mem_map.mp hx
    exact (hne y rfl).elim
  · have : sizes' = sizes ++ [n] := (map_ok_inj h3).symm
    subst this
    simp only [St.step, List.sum_append, List.sum_cons, List.sum_nil] at h4
    omega

theorem FitsAt.fit_mode {d : Decl} {buf : Buf} (h : FitsAt d buf) (hsl : SliceLen buf.length) (m : Mode) (k : Nat) :
    Fit (d.before m buf k) := by
  cases m with
  | debug => rw [h.before hsl]; exact h.fit k
  | release => exact h.fit k

theorem varint_bytes_lt {bs : Buf} {n : Nat} (h : varint (bs.map (·.toNat)) = .ok n) : n < 2 ^ 64 := by
  cases bs with
  | nil => simp [varint] at h
  | cons b t =>
    simp only [List.map_cons, varint, Except.ok.injEq] at h
    have ha : b.toNat &&& 0x3f < 2 ^ 64 := by
      have := Nat.and_le_right (n := b.toNat) (m := 0x3f)
      omega
    generalize b.toNat &&& 0x3f = a at h ha
    induction t generalizing a with
    | nil => simp only [List.map_nil, List.foldl_nil] at h; omega
    | cons c t ih =>
      simp only [List.map_cons, List.foldl_cons] at h
      refine ih _ h ?_
      have hc := c.toNat_lt
      rw [Nat.shiftLeft_eq]
      omega

theorem usub_lt {m : Mode} {a b n : Nat} (ha : a < 2 ^ 64) (h : usub m a b = .ok n) : n < 2 ^ 64 := by
  unfold usub at h
  split at h
  · cases h; omega
  · cases m
    · simp at h
    · cases h; unfold usizeCard; exact Nat.mod_lt _ (by decide)

theorem quicType_len_lt {d : Decl} (h : QuicType d) {m : Mode} {buf : Buf} (hsl : SliceLen buf.length) {k : Nat}
    {f : Field} (hf : d.fields[k]? = some f) {e : LenExpr} (he : f.len = some e) {a n : Nat}
    (ha : curOff m (d.before m buf k).bit (d.before m buf k).lens = .ok a)
    (hn : lenExpr m buf (d.before m buf k) e = .ok n) : n < 2 ^ 64 := by
  rcases h with ⟨q, rfl⟩ | ⟨q, rfl⟩
  · cases hq : q.long with
    | false =>
      have := quic_fits q hq hsl
      exact fit_next (this.fit_mode hsl m k) (this.fit_mode hsl m (k + 1)) hf he ha hn
    | true =>
      by_cases hk : k + 1 ≤ q.lengthPos + 2
      · exact fit_next (long_fit q hq hsl (by omega)) (long_fit q hq hsl hk) hf he ha hn
      · obtain ⟨h0, -, h2, h3⟩ := long_at q hq
        have hlen : q.decl.fields.length = q.lengthPos + 4 := (longPos_len q hq).2.2
        have hkl := (List.getElem?_eq_some_iff.mp hf).1
        by_cases hk2 : k = q.lengthPos + 2
        · subst hk2
          rw [h2] at hf
          cases hf
          cases he
          simp only [lenExpr, lenFrames, bind_eq_ok] at hn
          obtain ⟨v, hv, ns, hns, l, hl, p, -, _, -, hn⟩ := hn
          rw [before_get (by omega) (by omega), get_bytes_raw h0 rfl] at hv
          obtain ⟨r, -, rfl⟩ := map_eq_ok hv
          cases hns
          exact usub_lt (varint_bytes_lt hl) hn
        · have : k = q.lengthPos + 3 := by omega
          rw [this, h3] at hf
          cases hf
          cases he
  · have := frame_fits q hsl
    exact fit_next (this.fit_mode hsl m k) (this.fit_mode hsl m (k + 1)) hf he ha hn

/-! ## A field and the bytes from it on -/

theorem quic_varSlice_inv {m : Mode} {buf : Buf} {s n : Nat} {r : Buf} (hn : n < 2 ^ 64) (hsl : SliceLen buf.length)
    (h : varSlice m buf (.ok s) (.ok n) = .ok r) :
    s + n < 2 ^ 64 ∧ s ≤ buf.length ∧ r = (buf.drop s).take n := by
  have hlt : s + n < 2 ^ 64 := by
    apply Decidable.byContradiction
    intro hge
    rw [varSlice, ok_bind, ok_bind, uadd.eq_def, if_neg (by unfold usizeCard; omega)] at h
    cases m with
    | debug => simp at h
    | release =>
      simp only [ok_bind, slice] at h
      split at h
      · rename_i hc
        unfold usizeCard SliceLen at *
        omega
      · simp at h
  by_cases hs : s ≤ buf.length
  · rw [varSlice_ok (by unfold usizeCard; omega) hs] at h
    cases h
    exact ⟨hlt, hs, rfl⟩
  · rw [varSlice_panic (by unfold usizeCard; omega) (by omega)] at h
    simp at h

/-- The state before a field with a length depends only on the bytes before it. -/
theorem quic_before {d : Decl} (h : QuicType d) {m : Mode} {buf : Buf} (hsl : SliceLen buf.length) {k : Nat}
    {f : Field} (hf : d.fields[k]? = some f) {e : LenExpr} (he : f.len = some e) {s : Nat}
    (hs : curOff m (d.before m buf k).bit (d.before m buf k).lens = .ok s) (hle : s ≤ buf.length)
    {T : Buf} (hT : T.length = buf.length - s) :
    d.before m (buf.take s ++ T) k = d.before m buf k := by
  have hkl : k < d.fields.length := (List.getElem?_eq_some_iff.mp hf).1
  obtain ⟨sizes, h1, h2, h3, -⟩ := quic_set h hsl hf he hs
  have hreg := quicType_regular h
  have hal : bitsSum (d.fields.take k) % 8 = 0 := by
    have hr := regularFields_drop hreg k
    rw [drop_of_getElem? hf] at hr
    simp only [regularFields, Bool.and_eq_true] at hr
    have hal := hr.1.2
    rw [if_pos (by rw [quicType_bytes h hf he]; rfl)] at hal
    simp only [Bool.and_eq_true, beq_iff_eq, Nat.zero_add] at hal
    exact hal.1
  rw [startOf_eq] at h2
  have hlen : (buf.take s).length = s := by rw [List.length_take]; omega
  have hsame : SameBits buf (buf.take s ++ T) (8 * s) := by
    refine ⟨by omega, by rw [List.length_append]; omega, ?_⟩
    rw [← bitsOf_take, ← bitsOf_take, List.take_left' hlen]
  exact (run_causal (m := m) hsl (by rw [List.length_append]; omega) (d.fields.take k) 0 [] sizes []
    (regularFields_take hreg k) (quicType_closed h (by omega))
    (fun g hg => quicType_causal h g (List.mem_of_mem_take hg)) h1 (by simp; omega) hsame).symm

/-- Setting a field with a length, in terms of the bytes from the field on. -/
theorem quic_set_eq {d : Decl} (h : QuicType d) {m : Mode} {buf : Buf} (hsl : SliceLen buf.length) {k : Nat}
    {f : Field} (hf : d.fields[k]? = some f) {e : LenExpr} (he : f.len = some e) {s : Nat}
    (hs : curOff m (d.before m buf k).bit (d.before m buf k).lens = .ok s) (hle : s ≤ buf.length)
    {T : Buf} (hT : T.length = buf.length - s) (bs : Buf) :
    d.set m (buf.take s ++ T) k (bytesOf bs) = (do
      let n ← e m (d.before m buf k).get (.ok T)
      if bs.length ≤ n then
        if bs.length ≤ T.length then .ok (buf.take s ++ (bs ++ T.drop bs.length)) else panic
      else panic) := by
  have hst := quic_before h hsl hf he hs hle hT
  have hty := quicType_bytes h hf he
  have hlen : (buf.take s).length = s := by rw [List.length_take]; omega
  rw [Decl.set, hf]
  simp only [hst, hty, bytesOf, hs, ok_bind, he, lenExpr]
  rw [sliceFrom, if_pos (by rw [List.length_append]; omega), List.drop_left' hlen]
  cases e m (d.before m buf k).get (.ok T) with
  | error _ => rfl
  | ok n =>
    simp only [ok_bind, List.length_map, ofNat_bytes]
    by_cases hn : bs.length ≤ n
    · simp only [if_pos hn]
      rw [if_pos trivial, copyInto]
      by_cases hc : bs.length ≤ T.length
      · rw [if_pos (by rw [List.length_append]; omega), if_pos hc, List.take_left' hlen, ← List.drop_drop,
          List.drop_left' hlen, List.append_assoc]
      · rw [if_neg (by rw [List.length_append]; omega), if_neg hc]
    · simp only [if_neg hn]
      rfl

/-- Reading a field with a length, in terms of the bytes from the field on. -/
theorem quic_get_eq {d : Decl} (h : QuicType d) {m : Mode} {buf : Buf} (hsl : SliceLen buf.length) {k : Nat}
    {f : Field} (hf : d.fields[k]? = some f) {e : LenExpr} (he : f.len = some e) {s : Nat}
    (hs : curOff m (d.before m buf k).bit (d.before m buf k).lens = .ok s) (hle : s ≤ buf.length)
    {T : Buf} (hT : T.length = buf.length - s) (bs : Buf) :
    d.get m (buf.take s ++ T) k = .ok (bytesOf bs) ↔
      ∃ n, e m (d.before m buf k).get (.ok T) = .ok n ∧ s + n < 2 ^ 64 ∧ bs = T.take n := by
  have hst := quic_before h hsl hf he hs hle hT
  have hty := quicType_bytes h hf he
  have hlen : (buf.take s).length = s := by rw [List.length_take]; omega
  have hsl' : SliceLen (buf.take s ++ T).length := by
    rw [show (buf.take s ++ T).length = buf.length by rw [List.length_append]; omega]; exact hsl
  have hrest : lenExpr m (buf.take s ++ T) (d.before m buf k) e = e m (d.before m buf k).get (.ok T) := by
    rw [lenExpr, hs, ok_bind, sliceFrom, if_pos (by rw [List.length_append]; omega), List.drop_left' hlen]
  rw [get_bytes_raw hf hty, Decl.getRaw, hf]
  simp only [hst, fieldLen, he, hs, hrest]
  constructor
  · intro hg
    obtain ⟨r, hr, hb⟩ := map_eq_ok hg
    have hbr : bs = r := by
      have := Val.nums.inj hb
      exact List.map_inj_right (fun a b h => UInt8.toNat_inj.mp h) |>.mp this
    subst hbr
    have hr' := hr
    rw [varSlice, ok_bind, bind_eq_ok] at hr'
    obtain ⟨n, hn, -⟩ := hr'
    rw [hn] at hr
    have hn64 : n < 2 ^ 64 :=
      quicType_len_lt h hsl' hf he (by rw [hst]; exact hs) (by rw [hst, hrest]; exact hn)
    obtain ⟨h1, h2, h3⟩ := quic_varSlice_inv hn64 hsl' hr
    rw [List.drop_left' hlen] at h3
    exact ⟨n, hn, h1, h3⟩
  · rintro ⟨n, hn, hlt, rfl⟩
    rw [hn, varSlice_ok (by unfold usizeCard; omega) (by rw [List.length_append]; omega), List.drop_left' hlen]
    rfl

/-- What a field read tells about its place. -/
theorem quic_get_inv {d : Decl} (h : QuicType d) {m : Mode} {buf : Buf} (hsl : SliceLen buf.length) {k : Nat}
    {f : Field} (hf : d.fields[k]? = some f) {e : LenExpr} (he : f.len = some e) {old : Buf}
    (hg : d.get m buf k = .ok (bytesOf old)) :
    ∃ s n sizes, curOff m (d.before m buf k).bit (d.before m buf k).lens = .ok s ∧ s ≤ buf.length ∧
      Sizes d m buf k sizes ∧ s = startOf d k sizes ∧
      e m (d.before m buf k).get (.ok (buf.drop s)) = .ok n ∧ s + n < 2 ^ 64 ∧ old = (buf.drop s).take n := by
  have hty := quicType_bytes h hf he
  have hg' := hg
  rw [get_bytes_raw hf hty, Decl.getRaw, hf] at hg'
  obtain ⟨r, hr, -⟩ := map_eq_ok hg'
  unfold varSlice at hr
  rw [bind_eq_ok] at hr
  obtain ⟨s, hs, hr⟩ := hr
  rw [bind_eq_ok] at hr
  obtain ⟨n, hn, hr⟩ := hr
  rw [bind_eq_ok] at hr
  obtain ⟨b, hb, hr⟩ := hr
  have hle : s ≤ buf.length := by
    unfold slice at hr
    split at hr
    · omega
    · simp at hr
  obtain ⟨sizes, -, h2, -, h4⟩ := quic_set h hsl hf he hs
  have := (quic_get_eq h hsl hf he hs hle (T := buf.drop s) (by rw [List.length_drop]) old).mp
    (by rw [List.take_append_drop]; exact hg)
  obtain ⟨n, hn, hlt, ho⟩ := this
  exact ⟨s, n, sizes, hs, hle, h4, h2, hn, hlt, ho⟩

/-! ## Fields of bytes and fields of integers -/

/-- The length does not depend on the bytes of the field. -/
def LenExpr.flat (e : LenExpr) : Prop := ∀ m g (x x' : Buf), x'.length = x.length → e m g (.ok x') = e m g (.ok x)

/-- The length is that of a variable-length integer, or of a number of them. -/
def LenExpr.counted (e : LenExpr) : Prop := ∀ m g (x : Buf) n, e m g (.ok x) = .ok n →
  (∀ y, e m g (.ok y) = varintLength y) ∨ ∃ c, ∀ y, e m g (.ok y) = nVarints c y

theorem flat_const (n : Nat) : (lenConst n).flat := fun _ _ _ _ _ => rfl
theorem flat_num (i : Nat) (f : Nat → Nat) : (lenNum i f).flat := fun _ _ _ _ _ => rfl
theorem flat_varint (i : Nat) : (lenVarint i).flat := fun _ _ _ _ _ => rfl
theorem flat_frames (i j : Nat) : (lenFrames i j).flat := fun _ _ _ _ _ => rfl
theorem flat_stream (i : Nat) : (lenStreamData i).flat := fun _ _ x x' h => by
  simp only [lenStreamData, ok_bind, h]

theorem counted_vi : lenVarintLength.counted := fun _ _ _ _ _ => .inl fun _ => rfl

theorem counted_nvi (f : Nat → Nat) : (lenNVarints f).counted := fun m g x n h => by
  simp only [lenNVarints, bind_eq_ok] at h
  obtain ⟨v, hv, a, ha, -⟩ := h
  exact .inr ⟨f a, fun y => by simp only [lenNVarints, hv, ha, ok_bind]⟩

theorem counted_nviOf (i : Nat) : (lenNVarintsOf i).counted := fun m g x n h => by
  simp only [lenNVarintsOf, bind_eq_ok] at h
  obtain ⟨v, hv, a, ha, c, hc, -⟩ := h
  exact .inr ⟨c, fun y => by simp only [lenNVarintsOf, hv, ha, hc, ok_bind]⟩

/-- What the name of a field tells about its length. -/
def Kinded (f : Field) : Prop := ∀ e, f.len = some e →
  (f.name ∈ byteFields ∧ e.flat) ∨ (f.name ∉ byteFields ∧ e.counted)

theorem quicType_kinded {d : Decl} (h : QuicType d) : ∀ f ∈ d.fields, Kinded f := by
  rcases h with ⟨k, rfl⟩ | ⟨k, rfl⟩ <;> cases k <;>
      (repeat' first | exact List.forall_mem_nil _ | refine List.forall_mem_cons.mpr ⟨?_, ?_⟩) <;>
      intro e he <;>
      first
        | (cases he; done)
        | (cases he; exact .inl ⟨by decide, flat_num _ _⟩)
        | (cases he; exact .inl ⟨by decide, flat_varint _⟩)
        | (cases he; exact .inl ⟨by decide, flat_frames _ _⟩)
        | (cases he; exact .inl ⟨by decide, flat_const _⟩)
        | (cases he; exact .inl ⟨by decide, flat_stream _⟩)
        | (cases he; exact .inr ⟨by decide, counted_vi⟩)
        | (cases he; exact .inr ⟨by decide, counted_nvi _⟩)
        | (cases he; exact .inr ⟨by decide, counted_nviOf _⟩)

/-- The number of integers is determined by the bytes. -/
theorem ints_unique {c c' : Nat} {bs : Buf} (h : Ints c bs) (h' : Ints c' bs) : c = c' := by
  induction c generalizing c' bs with
  | zero =>
    obtain ⟨rs, h1, -, h3⟩ := h
    obtain ⟨rs', h1', h2', h3'⟩ := h'
    cases rs' with
    | nil => simpa using h1'
    | cons r rs' =>
      obtain rfl := List.length_eq_zero_iff.mp h1
      rw [h3] at h3'
      simp only [List.flatten_nil, List.flatten_cons] at h3'
      have := (List.append_eq_nil_iff.mp h3'.symm).1
      obtain ⟨v, hv⟩ := h2' r (by simp)
      exact (varint_ne_nil (this ▸ hv)).elim
  | succ c ih =>
    obtain ⟨rs, h1, h2, h3⟩ := h
    obtain ⟨rs', h1', h2', h3'⟩ := h'
    cases rs with
    | nil => simp at h1
    | cons r rs =>
      obtain ⟨v, hv⟩ := h2 r (by simp)
      cases rs' with
      | nil =>
        rw [h3'] at h3
        simp only [List.flatten_nil, List.flatten_cons] at h3
        have := (List.append_eq_nil_iff.mp h3.symm).1
        exact (varint_ne_nil (this ▸ hv)).elim
      | cons r' rs' =>
        obtain ⟨v', hv'⟩ := h2' r' (by simp)
        simp only [List.flatten_cons] at h3 h3'
        have e1 := (varint_enc hv rs.flatten).1
        have e2 := (varint_enc hv' rs'.flatten).1
        rw [← h3] at e1
        rw [← h3', e1] at e2
        have heq := List.append_inj (h3.symm.trans h3') (Except.ok.inj e2)
        have := ih ⟨rs, by simpa using h1, fun x hx => h2 x (by simp [hx]), rfl⟩
          ⟨rs', rfl, fun x hx => h2' x (by simp [hx]), heq.2⟩
        simp only [List.length_cons] at h1'
        omega

theorem nVarints_ints {c n : Nat} {x : Buf} : nVarints c x = .ok n ↔ n ≤ x.length ∧ Ints c (x.take n) := by
  rw [nVarints_iff]
  constructor
  · rintro ⟨rs, t, h1, h2, h3, h4⟩
    subst h3 h4
    exact ⟨by simp, rs, h1, h2, by rw [List.take_left]⟩
  · rintro ⟨h, rs, h1, h2, h3⟩
    exact ⟨rs, x.drop n, h1, h2, by rw [← h3, List.take_append_drop], by rw [← h3, List.length_take]; omega⟩

theorem ints_one {bs : Buf} : Ints 1 bs ↔ ∃ v, Quic.Varint bs v := by
  constructor
  · rintro ⟨rs, h1, h2, h3⟩
    obtain ⟨r, rfl⟩ := List.length_eq_one_iff.mp h1
    rw [h3]
    simpa using h2
  · rintro ⟨v, hv⟩
    exact ⟨[bs], rfl, by simpa using ⟨v, hv⟩, by simp⟩

/-- Bytes that are integers are not cut off. -/
theorem ints_whole {x : Buf} {n c : Nat} (h : varintLength x = .ok n) (hc : Ints c (x.take n)) : n ≤ x.length := by
  have hpos := varintLength_pos h
  have hx : x ≠ [] := by
    rintro rfl
    simp [varintLength, index] at h
  have h0 : (x.take n)[0]? = x[0]? := by rw [List.getElem?_take, if_pos hpos]
  obtain ⟨rs, -, h2, h3⟩ := hc
  cases rs with
  | nil =>
    rw [List.flatten_nil, List.take_eq_nil_iff] at h3
    rcases h3 with h3 | h3
    · omega
    · exact (hx h3).elim
  | cons r rs =>
    obtain ⟨v, hv⟩ := h2 r (by simp)
    have hr := (varint_enc hv rs.flatten).1
    rw [List.flatten_cons] at h3
    rw [← h3, varintLength_congr h0, h] at hr
    have hlen := congrArg List.length h3
    rw [List.length_take, List.length_append] at hlen
    have := Except.ok.inj hr
    omega

/-- The length of a counted field is that of the integers, as far as there are enough bytes. -/
theorem counted_ints {e : LenExpr} (he : e.counted) {m : Mode} {g : Nat → Res Val} {x old : Buf} {n c : Nat}
    (h : e m g (.ok x) = .ok n) (ho : old = x.take n) (hc : Ints c old) :
    n ≤ x.length ∧ ∀ (y : Buf) (l : Nat), l ≤ y.length → (e m g (.ok y) = .ok l ↔ Ints c (y.take l)) := by
  rcases he m g x n h with h' | ⟨c', h'⟩
  · rw [h'] at h
    have hn := ints_whole h (ho ▸ hc)
    have h1 := varint_take h hn
    obtain rfl := ints_unique hc (ho ▸ ints_one.mpr h1)
    refine ⟨hn, fun y l hl => ?_⟩
    rw [h', ints_one]
    constructor
    · exact fun h => varint_take h (by omega)
    · rintro ⟨v, hv⟩
      have := (varint_enc hv (y.drop l)).1
      rwa [List.take_append_drop, List.length_take, Nat.min_eq_left (by omega)] at this
  · rw [h'] at h
    obtain rfl := ints_unique hc (ho ▸ (nVarints_ints.mp h).2)
    refine ⟨(nVarints_ints.mp h).1, fun y l hl => ?_⟩
    rw [h', nVarints_ints]
    exact ⟨fun h => h.2, fun h => ⟨by omega, h⟩⟩

/-- The sizes of the fields are determined by the packet. -/
theorem sizes_unique {d : Decl} {m : Mode} {buf : Buf} {k : Nat} {a b : List Nat} (ha : Sizes d m buf k a)
    (hb : Sizes d m buf k b) : a = b := by
  induction ha generalizing b with
  | nil => cases hb; rfl
  | plain _ hf hl ih =>
    cases hb with
    | plain h _ _ => exact ih h
    | sized _ hf' he _ => rw [hf] at hf'; cases hf'; rw [hl] at he; cases he
  | sized _ hf he hn ih =>
    cases hb with
    | plain _ hf' hl => rw [hf] at hf'; cases hf'; rw [hl] at he; cases he
    | sized h hf' he' hn' =>
      rw [hf] at hf'; cases hf'
      rw [he] at he'; cases he'
      obtain rfl := ih h
      rw [hn] at hn'; cases hn'; rfl

end Verif
