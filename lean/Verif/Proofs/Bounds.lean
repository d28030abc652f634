import Verif.Proofs.Confined
import Verif.Model.Protocols

/-! Bounds on getter values (so that sizes do not wrap), and absence of endless loops. -/

namespace Verif
open Spec

/-! ## Values are small -/

/-- All integers are below `2^32`. -/
def smallVal : Val → Prop
  | .num n => n < 2 ^ 32
  | .nums ns => ∀ n ∈ ns, n < 2 ^ 32
  | .list _ => True

/-- Big-endian integers of at most 32 bits. -/
def smallTy : Ty → Bool
  | .prim p => p.endian == .big && decide (p.size ≤ 32)
  | .misc args => args.all fun p => p.endian == .big && decide (p.size ≤ 32)
  | .vecPrim p => decide (p.size ≤ 32)
  | .vecPkt _ => true

theorem getPrim_inv {n s : Nat} {buf : Buf} {co v : Nat}
    (h : getPrim ⟨n, .big⟩ s buf co = .ok v) :
    fits s n ∧ 8 * co + s + n ≤ 8 * buf.length ∧ v = ofBits (bitSlice (bitsOf buf) (8 * co + s) n) := by
  have hf : fits s n := by
    apply (operations_isSome_iff s n .big).mp
    unfold getPrim at h
    cases ho : operations s n .big with
    | none => simp [ho] at h
    | some _ => rfl
  have hnb := numBytes_bounds hf
  have hb : co + numBytes s n ≤ buf.length := by
    apply Decidable.byContradiction
    intro hc
    have hne : (List.range (numBytes s n)).map (opBE s n) ≠ [] := by
      have := hf.2.1
      simp only [ne_eq, List.map_eq_nil_iff, List.range_eq_nil]; omega
    simp only [getPrim, operations_big hf, getOps] at h
    exact getOpsFrom_panic _ _ _ _ _ hne (by simp; omega) _ h
  rw [getPrim_big hf buf co hb] at h
  cases h
  exact ⟨hf, by omega, rfl⟩

theorem getPrim_lt {n s : Nat} {buf : Buf} {co v : Nat}
    (h : getPrim ⟨n, .big⟩ s buf co = .ok v) : v < 2 ^ n := by
  obtain ⟨-, hb, rfl⟩ := getPrim_inv h
  have := ofBits_lt (bitSlice (bitsOf buf) (8 * co + s) n)
  rwa [bitSlice, List.length_take, List.length_drop, bitsOf_length, Nat.min_eq_left (by omega)] at this

theorem getPrim_small {p : Prim} (he : p.endian = .big) (hs : p.size ≤ 32) {s : Nat} {buf : Buf}
    {co v : Nat} (h : getPrim p s buf co = .ok v) : v < 2 ^ 32 := by
  obtain ⟨n, e⟩ := p
  dsimp only at he hs
  subst he
  exact Nat.lt_of_lt_of_le (getPrim_lt h) (Nat.pow_le_pow_right (by decide) hs)

theorem getArgs_small {m : Mode} {lens : List (Res Nat)} {buf : Buf} (args : List Prim) (bit : Nat)
    (hs : (args.all fun p => p.endian == .big && decide (p.size ≤ 32)) = true) {vs : List Nat}
    (h : getArgs m lens buf bit args = .ok vs) : ∀ n ∈ vs, n < 2 ^ 32 := by
  induction args generalizing bit vs with
  | nil => cases h; simp
  | cons p ps ih =>
    simp only [List.all_cons, Bool.and_eq_true, beq_iff_eq, decide_eq_true_eq] at hs
    rw [getArgs, bind_eq_ok] at h
    obtain ⟨co, -, h⟩ := h
    rw [bind_eq_ok] at h
    obtain ⟨v, hv, h⟩ := h
    rw [bind_eq_ok] at h
    obtain ⟨vs', hvs, h⟩ := h
    cases h
    intro n hn
    rcases List.mem_cons.mp hn with rfl | hn
    · exact getPrim_small hs.1.1 hs.1.2 hv
    · exact ih _ (by simpa using hs.2) hvs n hn

theorem getElems_small {p : Prim} (hs : p.size ≤ 32) {packet : Buf} (n co : Nat) {vs : List Nat}
    (h : getElems p packet n co = .ok vs) : ∀ n ∈ vs, n < 2 ^ 32 := by
  induction n generalizing co vs with
  | zero => cases h; simp
  | succ n ih =>
    rw [getElems, bind_eq_ok] at h
    obtain ⟨v, hv, h⟩ := h
    rw [bind_eq_ok] at h
    obtain ⟨vs', hvs, h⟩ := h
    cases h
    intro x hx
    rcases List.mem_cons.mp hx with rfl | hx
    · exact getPrim_small (p := ⟨p.size, .big⟩) rfl hs hv
    · exact ih _ hvs x hx

theorem map_eq_ok {α β : Type} {f : α → β} {x : Res α} {b : β} (h : f <$> x = .ok b) :
    ∃ a, x = .ok a ∧ b = f a := by
  cases x with
  | error e => simp at h
  | ok a => simp only [ok_map, Except.ok.injEq] at h; exact ⟨a, rfl, h.symm⟩

theorem getField_small {m : Mode} {buf : Buf} {bit : Nat} {lens : List (Res Nat)} {len : Res Nat}
    {ty : Ty} (hs : smallTy ty = true) {v : Val} (h : getField m buf bit lens len ty = .ok v) :
    smallVal v := by
  cases ty with
  | prim p =>
    simp only [smallTy, Bool.and_eq_true, beq_iff_eq, decide_eq_true_eq] at hs
    rw [getField, bind_eq_ok] at h
    obtain ⟨co, -, h⟩ := h
    obtain ⟨n, hn, rfl⟩ := map_eq_ok h
    exact getPrim_small hs.1 hs.2 hn
  | misc args =>
    rw [getField] at h
    obtain ⟨ns, hn, rfl⟩ := map_eq_ok h
    exact getArgs_small args _ hs hn
  | vecPrim p =>
    simp only [smallTy, decide_eq_true_eq] at hs
    rw [getField, bind_eq_ok] at h
    obtain ⟨packet, -, h⟩ := h
    obtain ⟨ns, hn, rfl⟩ := map_eq_ok h
    exact getElems_small hs _ _ hn
  | vecPkt c =>
    rw [getField, bind_eq_ok] at h
    obtain ⟨packet, -, h⟩ := h
    obtain ⟨ns, hn, rfl⟩ := map_eq_ok h
    trivial

/-- The length expression is small when the field values are. -/
def LenExpr.small (e : LenExpr) : Prop :=
  ∀ m g r n, (∀ i v, g i = .ok v → smallVal v) → e m g r = .ok n → n < 2 ^ 40

/-- Small field types and length expressions. -/
def smallFields (fs : List Field) : Prop :=
  ∀ f ∈ fs, smallTy f.ty = true ∧ ∀ e, f.len = some e → e.small

theorem run_small {m : Mode} {buf : Buf} (fs : List Field) (hs : smallFields fs) (st : St)
    (hl : ∀ l ∈ st.lens, ∀ n, l = .ok n → n < 2 ^ 40)
    (hv : ∀ x ∈ st.vals, ∀ v, x = .ok v → smallVal v) :
    (∀ l ∈ (St.run m buf st fs).lens, ∀ n, l = .ok n → n < 2 ^ 40) ∧
      (St.run m buf st fs).lens.length ≤ st.lens.length + fs.length := by
  induction fs generalizing st with
  | nil => exact ⟨hl, Nat.le_refl _⟩
  | cons f fs ih =>
    have hsr : St.run m buf st (f :: fs) = St.run m buf (st.step m buf f) fs := rfl
    obtain ⟨hty, hlen⟩ := hs f (by simp)
    have hget : ∀ i v, st.get i = .ok v → smallVal v := by
      intro i v h
      rw [St.get] at h
      cases hi : st.vals[i]? with
      | none => rw [hi] at h; simp at h
      | some x =>
        rw [hi] at h
        exact hv x (List.mem_of_getElem? hi) v h
    obtain ⟨h1, h2⟩ := ih (fun g hg => hs g (by simp [hg])) (st.step m buf f) (by
        intro l hl' n hn
        simp only [St.step] at hl'
        cases he : f.len with
        | none => rw [he] at hl'; exact hl l hl' n hn
        | some e =>
          rw [he] at hl'
          simp only [List.mem_append, List.mem_singleton] at hl'
          rcases hl' with hl' | rfl
          · exact hl l hl' n hn
          · exact hlen e he _ _ _ _ hget hn) (by
        intro x hx v hv'
        simp only [St.step, List.mem_append, List.mem_singleton] at hx
        rcases hx with hx | rfl
        · exact hv x hx v hv'
        · exact getField_small hty hv')
    rw [hsr]
    refine ⟨h1, Nat.le_trans h2 ?_⟩
    simp only [St.step, List.length_cons]
    cases f.len with
    | none => simp only; omega
    | some e => simp only [List.length_append, List.length_singleton]; omega

theorem sum_le_of_lt {l : List Nat} {b : Nat} (h : ∀ n ∈ l, n < b) : l.sum ≤ l.length * b := by
  induction l with
  | nil => simp
  | cons a l ih =>
    have h1 := h a (by simp)
    have h2 := ih fun n hn => h n (by simp [hn])
    simp only [List.sum_cons, List.length_cons, Nat.add_mul, Nat.one_mul]
    omega

/-- Declarations with small fields never wrap. -/
theorem lens_small {d : Decl} (m : Mode) (hs : smallFields d.fields) (hb : d.bits < 2 ^ 60)
    (hn : d.fields.length ≤ 2 ^ 20) (b : Buf) (k : Nat) (sizes : List Nat)
    (h : (d.before m b k).lens = sizes.map .ok) : d.bits / 8 + sizes.sum < 2 ^ 63 := by
  obtain ⟨h1, h2⟩ := run_small (m := m) (buf := b) (d.fields.take k)
    (fun f hf => hs f (List.mem_of_mem_take hf)) .init (by simp [St.init]) (by simp [St.init])
  change (∀ l ∈ (d.before m b k).lens, _) at h1
  change (d.before m b k).lens.length ≤ _ at h2
  rw [h] at h1 h2
  have h3 : sizes.sum ≤ sizes.length * 2 ^ 40 := sum_le_of_lt fun n hn => h1 (.ok n) (by simp [hn]) n rfl
  simp only [List.length_map, St.init, List.length_nil, List.length_take] at h2
  have h4 : sizes.length ≤ 2 ^ 20 := by omega
  omega

theorem noWrap_of_small {d : Decl} (m : Mode) (hs : smallFields d.fields) (hb : d.bits < 2 ^ 60)
    (hn : d.fields.length ≤ 2 ^ 20) : NoWrap m d :=
  noWrap_of_lens (.inr (lens_small m hs hb hn))

/-! ## No endless loops -/

theorem NH.ok {α : Type} (a : α) : NH (.ok a) := by simp [NH]
theorem NH.pure {α : Type} (a : α) : NH (Pure.pure a : Res α) := by simp [NH]
theorem NH.panic {α : Type} : NH (panic : Res α) := by simp [NH, Verif.panic]

theorem NH.bind {α β : Type} {x : Res α} {f : α → Res β} (hx : NH x) (hf : ∀ a, x = .ok a → NH (f a)) :
    NH (x >>= f) := by
  cases x with
  | error e => intro h; apply hx; simpa using h
  | ok a => exact hf a rfl

theorem NH.map {α β : Type} {x : Res α} {f : α → β} (hx : NH x) : NH (f <$> x) := by
  cases x with
  | error e => intro h; apply hx; simpa using h
  | ok a => simp [NH]

theorem uadd_NH (m : Mode) (a b : Nat) : NH (uadd m a b) := by
  unfold uadd; split
  · exact NH.ok _
  · cases m
    · exact NH.panic
    · exact NH.ok _

theorem usub_NH (m : Mode) (a b : Nat) : NH (usub m a b) := by
  unfold usub; split
  · exact NH.ok _
  · cases m
    · exact NH.panic
    · exact NH.ok _

theorem index_NH (buf : Buf) (i : Nat) : NH (index buf i) := by
  unfold index; split
  · exact NH.ok _
  · exact NH.panic

theorem slice_NH (buf : Buf) (a b : Nat) : NH (slice buf a b) := by
  unfold slice; split
  · exact NH.ok _
  · exact NH.panic

theorem sliceFrom_NH (buf : Buf) (a : Nat) : NH (sliceFrom buf a) := by
  unfold sliceFrom; split
  · exact NH.ok _
  · exact NH.panic

theorem applyShift_NH (W x l r : Nat) : NH (applyShift W x l r) := by
  unfold applyShift shl shr
  repeat' split
  all_goals first | exact NH.ok _ | exact NH.panic

theorem getOpsFrom_NH (W : Nat) (buf : Buf) (co idx : Nat) (ops : List GetOperation) :
    NH (getOpsFrom W buf co idx ops) := by
  induction ops generalizing idx with
  | nil => exact NH.ok _
  | cons op ops ih =>
    exact (index_NH _ _).bind fun _ _ => (applyShift_NH _ _ _ _).bind fun _ _ =>
      (ih _).bind fun _ _ => NH.ok _

theorem getPrim_NH (p : Prim) (s : Nat) (buf : Buf) (co : Nat) : NH (getPrim p s buf co) := by
  unfold getPrim; split
  · exact getOpsFrom_NH _ _ _ _ _
  · exact NH.panic

theorem curOff_NH {m : Mode} {bit : Nat} {lens : List (Res Nat)} (h : ∀ l ∈ lens, NH l) :
    NH (curOff m bit lens) := by
  unfold curOff
  generalize bit / 8 = a
  induction lens generalizing a with
  | nil => exact NH.ok _
  | cons l ls ih =>
    rw [List.foldlM_cons]
    exact ((h l (by simp)).bind fun _ _ => uadd_NH _ _ _).bind fun _ _ =>
      ih (fun l hl => h l (by simp [hl])) _

theorem getArgs_NH {m : Mode} {lens : List (Res Nat)} (h : ∀ l ∈ lens, NH l) (buf : Buf) (bit : Nat)
    (args : List Prim) : NH (getArgs m lens buf bit args) := by
  induction args generalizing bit with
  | nil => exact NH.ok _
  | cons p ps ih =>
    exact (curOff_NH h).bind fun _ _ => (getPrim_NH _ _ _ _).bind fun _ _ =>
      (ih _).bind fun _ _ => NH.ok _

theorem getElems_NH (p : Prim) (packet : Buf) (n co : Nat) : NH (getElems p packet n co) := by
  induction n generalizing co with
  | zero => exact NH.ok _
  | succ n ih => exact (getPrim_NH _ _ _ _).bind fun _ _ => (ih _).bind fun _ _ => NH.ok _

theorem collect_NH {c : Codec} {m : Mode} (hc : c.Ends m) (fuel : Nat) (buf : Buf) :
    NH (c.collect m fuel buf) := by
  induction fuel generalizing buf with
  | zero => simp [Codec.collect, NH]
  | succ fuel ih =>
    rw [Codec.collect, next_eq]
    split
    · rename_i hcond
      have h := hc.size buf
      cases hn : c.packetSize m buf with
      | error e => rw [hn] at h; intro h'; apply h; simpa using h'
      | ok n =>
        have h0 := hc.pos buf n hn
        simp only [ok_map, ok_bind]
        have hlt : (buf.drop n).length < buf.length := by rw [List.length_drop]; omega
        simp only [if_pos hlt]
        exact (hc.dec _).bind fun _ _ => (ih _).bind fun _ _ => NH.ok _
    · exact NH.ok _

theorem varSlice_NH {m : Mode} {buf : Buf} {co len : Res Nat} (h1 : NH co) (h2 : NH len) :
    NH (varSlice m buf co len) :=
  h1.bind fun _ _ => h2.bind fun _ _ => (uadd_NH _ _ _).bind fun _ _ => slice_NH _ _ _

theorem getField_NH {m : Mode} {buf : Buf} {bit : Nat} {lens : List (Res Nat)} {len : Res Nat}
    (h : ∀ l ∈ lens, NH l) (hlen : NH len) {ty : Ty} (hty : ∀ c, ty = .vecPkt c → c.Ends m) :
    NH (getField m buf bit lens len ty) := by
  cases ty with
  | prim p => exact (curOff_NH h).bind fun _ _ => (getPrim_NH _ _ _ _).map
  | misc args => exact (getArgs_NH h _ _ _).map
  | vecPrim p => exact (varSlice_NH (curOff_NH h) hlen).bind fun _ _ => (getElems_NH _ _ _ _).map
  | vecPkt c =>
    exact (varSlice_NH (curOff_NH h) hlen).bind fun _ _ => (collect_NH (hty c rfl) _ _).map

theorem run_NH {m : Mode} {buf : Buf} (fs : List Field) (hs : endFields m fs) (st : St)
    (hl : ∀ l ∈ st.lens, NH l) (hv : ∀ x ∈ st.vals, NH x) :
    (∀ l ∈ (St.run m buf st fs).lens, NH l) ∧ ∀ x ∈ (St.run m buf st fs).vals, NH x := by
  induction fs generalizing st with
  | nil => exact ⟨hl, hv⟩
  | cons f fs ih =>
    have hsr : St.run m buf st (f :: fs) = St.run m buf (st.step m buf f) fs := rfl
    obtain ⟨hlen, hty⟩ := hs f (by simp)
    have hget : ∀ i, NH (st.get i) := by
      intro i
      rw [St.get]
      cases hi : st.vals[i]? with
      | none => exact NH.panic
      | some x => exact hv x (List.mem_of_getElem? hi)
    have hle : ∀ e, f.len = some e → NH (lenExpr m buf st e) := fun e he =>
      hlen e he _ _ _ hget ((curOff_NH hl).bind fun _ _ => sliceFrom_NH _ _)
    have hfl : NH (fieldLen m buf st f) := by
      unfold fieldLen
      cases he : f.len with
      | none => exact NH.ok _
      | some e => exact hle e he
    rw [hsr]
    refine ih (fun g hg => hs g (by simp [hg])) (st.step m buf f) ?_ ?_
    · intro l hl'
      simp only [St.step] at hl'
      cases he : f.len with
      | none => rw [he] at hl'; exact hl l hl'
      | some e =>
        rw [he] at hl'
        simp only [List.mem_append, List.mem_singleton] at hl'
        rcases hl' with hl' | rfl
        · exact hl l hl'
        · exact hle e he
    · intro x hx
      simp only [St.step, List.mem_append, List.mem_singleton] at hx
      rcases hx with hx | rfl
      · exact hv x hx
      · exact getField_NH hl hfl hty

theorem mapM_id_NH {α : Type} (l : List (Res α)) (h : ∀ x ∈ l, NH x) : NH (l.mapM id) := by
  induction l with
  | nil => simp [NH]
  | cons a l ih =>
    rw [List.mapM_cons]
    exact (h a (by simp)).bind fun _ _ => (ih fun x hx => h x (by simp [hx])).bind fun _ _ => NH.ok _

/-- The packet type of a declaration with at least one byte of fixed fields, and no wrap, ends. -/
theorem codec_ends {m : Mode} {d : Decl} (hs : endFields m d.fields) (hnw : NoWrap m d)
    (hb : 8 ≤ d.bits) : d.codec.Ends m where
  pos := by
    intro buf n hn
    change d.packetSize m buf = .ok n at hn
    obtain ⟨sizes, hs⟩ := foldlM_uadd_ok hn
    have hbit : (d.final m buf).bit = d.bits := by
      rw [final_eq_before, before_bit, List.take_length]; rfl
    rw [Decl.packetSize, hs, hbit] at hn
    have := curOff_inv (hnw.lens.imp_right fun hh => by
      have := hh buf d.fields.length sizes (by rw [← final_eq_before]; exact hs); omega) hn
    omega
  size buf := curOff_NH (run_NH d.fields hs .init (by simp [St.init]) (by simp [St.init])).1
  dec buf := (mapM_id_NH _
    (run_NH d.fields hs .init (by simp [St.init]) (by simp [St.init])).2).map

/-! ## Vocabulary of the crate's length expressions -/

theorem asNum_eq_ok {v : Val} {n : Nat} (h : v.asNum = .ok n) : v = .num n := by
  cases v <;> simp [Val.asNum] at h
  subst h; rfl

theorem asTuple1_eq_ok {v : Val} {n : Nat} (h : v.asTuple1 = .ok n) : v = .nums [n] := by
  cases v with
  | num _ => simp [Val.asTuple1] at h
  | list _ => simp [Val.asTuple1] at h
  | nums ns =>
    cases ns with
    | nil => simp [Val.asTuple1] at h
    | cons a as => cases as with
      | nil => simp [Val.asTuple1] at h; subst h; rfl
      | cons _ _ => simp [Val.asTuple1] at h

theorem asNums_eq_ok {v : Val} {ns : List Nat} (h : v.asNums = .ok ns) : v = .nums ns := by
  cases v <;> simp [Val.asNums] at h
  subst h; rfl

theorem asNum_NH (v : Val) : NH v.asNum := by cases v <;> simp [Val.asNum, NH, panic]
theorem asNums_NH (v : Val) : NH v.asNums := by cases v <;> simp [Val.asNums, NH, panic]
theorem asTuple1_NH (v : Val) : NH v.asTuple1 := by
  unfold Val.asTuple1; split <;> simp [NH, panic]

theorem lenConst_local (n : Nat) : (lenConst n).local := fun _ _ _ _ => rfl
theorem lenConst_small {n : Nat} (h : n < 2 ^ 40) : (lenConst n).small := by
  intro m g r k _ hk; cases hk; exact h
theorem lenConst_ends (n : Nat) : (lenConst n).ends := fun _ _ _ _ _ => NH.ok _

theorem lenNum_local (i : Nat) (f : Nat → Nat) : (lenNum i f).local := fun _ _ _ _ => rfl
theorem lenNum_small (i : Nat) {f : Nat → Nat} (h : ∀ n, n < 2 ^ 32 → f n < 2 ^ 40) :
    (lenNum i f).small := by
  intro m g r k hg hk
  rw [lenNum, bind_eq_ok] at hk
  obtain ⟨v, hv, hk⟩ := hk
  rw [bind_eq_ok] at hk
  obtain ⟨n, hn, hk⟩ := hk
  cases hk
  have := asNum_eq_ok hn
  subst this
  exact h n (hg i _ hv)
theorem lenNum_ends (i : Nat) (f : Nat → Nat) : (lenNum i f).ends := fun _ _ _ hg _ =>
  (hg i).bind fun _ _ => (asNum_NH _).bind fun _ _ => NH.ok _

end Verif
