import Verif.Proofs.Modes
import Verif.Proofs.Crate

/-! Debug and release builds agree when no size can wrap. -/

namespace Verif
open Spec

theorem bind_congr_ok {α β : Type} {x : Res α} {f g : α → Res β} (h : ∀ a, x = .ok a → f a = g a) :
    (x >>= f) = (x >>= g) := by
  cases x with
  | error e => rfl
  | ok a => exact h a rfl

theorem uadd_eq {a b : Nat} (h : a + b < 2 ^ 64) : uadd .debug a b = uadd .release a b := by
  unfold uadd; rw [if_pos h, if_pos h]

/-- All lengths that were computed are small. -/
def SmallLens (ls : List (Res Nat)) : Prop := ∀ l ∈ ls, ∀ n, l = .ok n → n < 2 ^ 40

theorem sumOff_eq (ls : List (Res Nat)) (h : SmallLens ls) (a : Nat) (ha : a + ls.length * 2 ^ 40 < 2 ^ 63) :
    ls.foldlM (fun a l => do uadd .debug a (← l)) a = ls.foldlM (fun a l => do uadd .release a (← l)) a ∧
    ∀ co, ls.foldlM (fun a l => do uadd .release a (← l)) a = .ok co → co ≤ a + ls.length * 2 ^ 40 := by
  induction ls generalizing a with
  | nil => exact ⟨rfl, fun co h => by cases h; simp⟩
  | cons l ls ih =>
    simp only [List.length_cons] at ha ⊢
    rw [List.foldlM_cons, List.foldlM_cons]
    cases l with
    | error e => exact ⟨rfl, fun co h => by cases h⟩
    | ok n =>
      have hn : n < 2 ^ 40 := h (.ok n) (by simp) n rfl
      have hu : ∀ m, uadd m a n = .ok (a + n) := fun m => if_pos (by unfold usizeCard; omega)
      obtain ⟨h1, h2⟩ := ih (fun l hl => h l (by simp [hl])) (a + n) (by omega)
      simp only [bind, Except.bind, hu] at h1 h2 ⊢
      exact ⟨h1, fun co hco => by have := h2 co hco; omega⟩

/-- Offsets computed from small lengths do not depend on the build. -/
theorem curOff_eq {ls : List (Res Nat)} (h : SmallLens ls) (hc : ls.length ≤ 2 ^ 20) {bit : Nat}
    (hb : bit < 2 ^ 61) : curOff .debug bit ls = curOff .release bit ls ∧
      ∀ m co, curOff m bit ls = .ok co → co < 2 ^ 62 := by
  have hm : ls.length * 2 ^ 40 ≤ 2 ^ 60 := by
    have := Nat.mul_le_mul_right (2 ^ 40) hc
    omega
  obtain ⟨h1, h2⟩ := sumOff_eq ls h (bit / 8) (by omega)
  refine ⟨h1, fun m co hco => ?_⟩
  have : co ≤ bit / 8 + ls.length * 2 ^ 40 := by
    cases m with
    | debug => exact h2 co (h1.symm.trans hco)
    | release => exact h2 co hco
  omega

/-- What equality asks of a packet type used in a vector. -/
structure CodecSame (c : Codec) : Prop where
  size : ∀ buf, SliceLen buf.length → c.packetSize .debug buf = c.packetSize .release buf
  small : ∀ m buf n, c.packetSize m buf = .ok n → n < 2 ^ 62
  dec : ∀ buf, SliceLen buf.length → c.fromPacket .debug buf = c.fromPacket .release buf
  enc : ∀ buf v, SliceLen buf.length → c.populate .debug buf v = c.populate .release buf v
  keep : ∀ m buf v new, c.populate m buf v = .ok new → new.length = buf.length

/-- The length expression does not depend on the build. -/
def ModeFree (e : LenExpr) : Prop := ∀ g r, e .debug g r = e .release g r

/-- Declarations whose generated code does not depend on the build. -/
structure Steady (d : Decl) : Prop where
  small : smallFields d.fields
  free : ∀ f ∈ d.fields, ∀ e, f.len = some e → ModeFree e
  inner : ∀ f ∈ d.fields, ∀ c, f.ty = .vecPkt c → CodecSame c
  bound : d.bits < 2 ^ 60
  count : d.fields.length ≤ 2 ^ 20

theorem getArgs_eq {ls : List (Res Nat)} (h : SmallLens ls) (hc : ls.length ≤ 2 ^ 20) (buf : Buf)
    (args : List Prim) (bit : Nat) (hb : bit + (args.map (·.size)).sum < 2 ^ 61) :
    getArgs .debug ls buf bit args = getArgs .release ls buf bit args := by
  induction args generalizing bit with
  | nil => rfl
  | cons p ps ih =>
    simp only [List.map_cons, List.sum_cons] at hb
    rw [getArgs, getArgs, (curOff_eq h hc (by omega)).1, ih (bit + p.size) (by omega)]

theorem varSlice_eq {buf : Buf} {co len : Res Nat} (h : ∀ a, co = .ok a → a < 2 ^ 62)
    (hl : ∀ n, len = .ok n → n < 2 ^ 63) : varSlice .debug buf co len = varSlice .release buf co len := by
  unfold varSlice
  refine bind_congr_ok fun a ha => bind_congr_ok fun n hn => ?_
  rw [uadd_eq (by have := h a ha; have := hl n hn; omega)]

theorem next_same {c : Codec} (hc : CodecSame c) {buf : Buf} (hs : SliceLen buf.length) :
    c.next .debug buf = c.next .release buf := by
  unfold Codec.next; rw [hc.size _ hs]

theorem next_rest {c : Codec} {m : Mode} {buf p rest : Buf} (h : c.next m buf = .ok (some (p, rest))) :
    p = buf ∧ rest.length ≤ buf.length := by
  unfold Codec.next at h
  split at h
  · rw [bind_eq_ok] at h
    obtain ⟨n, -, h⟩ := h
    rw [bind_eq_ok] at h
    obtain ⟨r, hr, h⟩ := h
    cases h
    refine ⟨rfl, ?_⟩
    unfold sliceFrom at hr
    split at hr
    · cases hr; simp
    · cases hr
  · cases h

theorem collect_eq {c : Codec} (hc : CodecSame c) (fuel : Nat) (buf : Buf) (hs : SliceLen buf.length) :
    c.collect .debug fuel buf = c.collect .release fuel buf := by
  induction fuel generalizing buf with
  | zero => rfl
  | succ fuel ih =>
    rw [Codec.collect, Codec.collect, next_same hc hs]
    refine bind_congr_ok fun r hr => ?_
    cases r with
    | none => rfl
    | some pr =>
      obtain ⟨p, rest⟩ := pr
      obtain ⟨rfl, hle⟩ := next_rest hr
      simp only
      rw [hc.dec _ hs, ih rest (by unfold SliceLen at *; omega)]

theorem slice_length_le {buf new : Buf} {a b : Nat} (h : slice buf a b = .ok new) :
    new.length ≤ buf.length := by
  unfold slice at h
  split at h
  · cases h; simp; omega
  · cases h

theorem varSlice_len {m : Mode} {buf new : Buf} {co len : Res Nat} (h : varSlice m buf co len = .ok new) :
    new.length ≤ buf.length := by
  unfold varSlice at h
  rw [bind_eq_ok] at h
  obtain ⟨a, -, h⟩ := h
  rw [bind_eq_ok] at h
  obtain ⟨n, -, h⟩ := h
  rw [bind_eq_ok] at h
  obtain ⟨b, -, h⟩ := h
  exact slice_length_le h

theorem getField_eq {buf : Buf} (hs : SliceLen buf.length) {ls : List (Res Nat)} (h : SmallLens ls)
    (hc : ls.length ≤ 2 ^ 20) {len : Res Nat} (hl : ∀ n, len = .ok n → n < 2 ^ 63) {ty : Ty} {bit : Nat}
    (hb : bit + ty.bits < 2 ^ 61) (hcod : ∀ c, ty = .vecPkt c → CodecSame c) :
    getField .debug buf bit ls len ty = getField .release buf bit ls len ty := by
  have hco := curOff_eq h hc (bit := bit) (by omega)
  cases ty with
  | prim p => rw [getField, getField, hco.1]
  | misc args => rw [getField, getField, getArgs_eq h hc buf args bit hb]
  | vecPrim p =>
    rw [getField, getField, hco.1, varSlice_eq (hco.2 _) hl]
  | vecPkt c =>
    rw [getField, getField, hco.1, varSlice_eq (hco.2 _) hl]
    refine bind_congr_ok fun packet hp => ?_
    have := varSlice_len hp
    rw [collect_eq (hcod c rfl) _ _ (by unfold SliceLen at *; omega)]

theorem run_snoc (m : Mode) (buf : Buf) (st : St) (fs : List Field) (f : Field) :
    St.run m buf st (fs ++ [f]) = (St.run m buf st fs).step m buf f := by
  simp [St.run, List.foldl_append]

theorem run_bit_le (m : Mode) (buf : Buf) (st : St) (fs : List Field) :
    (St.run m buf st fs).bit = st.bit + (fs.map (·.ty.bits)).sum := by
  induction fs generalizing st with
  | nil => rfl
  | cons f fs ih =>
    have := ih (st.step m buf f)
    rw [show St.run m buf st (f :: fs) = St.run m buf (st.step m buf f) fs from rfl, this]
    simp only [St.step, List.map_cons, List.sum_cons]
    omega

/-- A prefix of the fields of a steady declaration. -/
structure SteadyFields (fs : List Field) : Prop where
  small : smallFields fs
  free : ∀ f ∈ fs, ∀ e, f.len = some e → ModeFree e
  inner : ∀ f ∈ fs, ∀ c, f.ty = .vecPkt c → CodecSame c
  bound : (fs.map (·.ty.bits)).sum < 2 ^ 60
  count : fs.length ≤ 2 ^ 20

theorem SteadyFields.lens {fs : List Field} (h : SteadyFields fs) (m : Mode) (buf : Buf) :
    SmallLens (St.run m buf .init fs).lens ∧ (St.run m buf .init fs).lens.length ≤ 2 ^ 20 ∧
      (St.run m buf .init fs).bit < 2 ^ 60 := by
  obtain ⟨h1, h2⟩ := run_small (m := m) (buf := buf) fs h.small .init (by simp [St.init]) (by simp [St.init])
  refine ⟨h1, ?_, ?_⟩
  · have := h.count
    rw [show (St.init).lens.length = 0 from rfl] at h2
    omega
  · rw [run_bit_le]
    have := h.bound
    simp only [St.init]
    omega

theorem vals_small {fs : List Field} (hs : smallFields fs) (m : Mode) (buf : Buf) (i : Nat) (v : Val)
    (h : (St.run m buf .init fs).get i = .ok v) : smallVal v := by
  have key : ∀ (fs : List Field), smallFields fs → ∀ st : St, (∀ x ∈ st.vals, ∀ v, x = .ok v → smallVal v) →
      ∀ x ∈ (St.run m buf st fs).vals, ∀ v, x = .ok v → smallVal v := by
    intro fs
    induction fs with
    | nil => exact fun _ _ h => h
    | cons f fs ih =>
      intro hs st hst
      refine ih (fun g hg => hs g (by simp [hg])) (st.step m buf f) ?_
      intro x hx v hv
      simp only [St.step, List.mem_append, List.mem_singleton] at hx
      rcases hx with hx | rfl
      · exact hst x hx v hv
      · exact getField_small (hs f (by simp)).1 hv
  rw [St.get] at h
  cases hi : (St.run m buf .init fs).vals[i]? with
  | none => rw [hi] at h; simp at h
  | some x =>
    rw [hi] at h
    exact key fs hs .init (by simp [St.init]) x (List.mem_of_getElem? hi) v h

theorem fieldLen_small {fs : List Field} (h : SteadyFields fs) {m : Mode} {buf : Buf}
    (hs : SliceLen buf.length) {f : Field} (hf : ∀ e, f.len = some e → e.small) {n : Nat}
    (hn : fieldLen m buf (St.run m buf .init fs) f = .ok n) : n < 2 ^ 63 := by
  unfold fieldLen at hn
  cases he : f.len with
  | none => rw [he] at hn; cases hn; exact hs
  | some e =>
    rw [he] at hn
    have := hf e he m _ _ n (vals_small h.small m buf) hn
    omega

theorem lenExpr_modes {fs : List Field} (h : SteadyFields fs) {buf : Buf}
    (hrun : St.run .debug buf .init fs = St.run .release buf .init fs) {e : LenExpr} (he : ModeFree e) :
    lenExpr .debug buf (St.run .debug buf .init fs) e = lenExpr .release buf (St.run .release buf .init fs) e := by
  obtain ⟨h1, h2, h3⟩ := h.lens .release buf
  unfold lenExpr
  rw [hrun, (curOff_eq h1 h2 (by omega)).1, he]

theorem fieldLen_eq {fs : List Field} (h : SteadyFields fs) {buf : Buf}
    (hrun : St.run .debug buf .init fs = St.run .release buf .init fs) {f : Field}
    (hf : ∀ e, f.len = some e → ModeFree e) :
    fieldLen .debug buf (St.run .debug buf .init fs) f = fieldLen .release buf (St.run .release buf .init fs) f := by
  unfold fieldLen
  cases he : f.len with
  | none => rfl
  | some e => exact lenExpr_modes h hrun (hf e he)

theorem SteadyFields.snoc {fs : List Field} {f : Field} (h : SteadyFields (fs ++ [f])) : SteadyFields fs where
  small g hg := h.small g (by simp [hg])
  free g hg := h.free g (by simp [hg])
  inner g hg := h.inner g (by simp [hg])
  bound := by have := h.bound; simp only [List.map_append, List.sum_append] at this; omega
  count := by have := h.count; simp only [List.length_append] at this; omega

theorem getField_run_eq {fs : List Field} {f : Field} (h : SteadyFields (fs ++ [f])) {buf : Buf}
    (hs : SliceLen buf.length) (hrun : St.run .debug buf .init fs = St.run .release buf .init fs) :
    getField .debug buf (St.run .debug buf .init fs).bit (St.run .debug buf .init fs).lens
        (fieldLen .debug buf (St.run .debug buf .init fs) f) f.ty =
      getField .release buf (St.run .release buf .init fs).bit (St.run .release buf .init fs).lens
        (fieldLen .release buf (St.run .release buf .init fs) f) f.ty := by
  obtain ⟨h1, h2, h3⟩ := h.snoc.lens .release buf
  rw [fieldLen_eq h.snoc hrun (h.free f (by simp)), hrun]
  refine getField_eq hs h1 h2 (fun n hn => fieldLen_small h.snoc hs
    (fun e he => (h.small f (by simp)).2 e he) hn) ?_ (h.inner f (by simp))
  rw [run_bit_le]
  have := h.bound
  simp only [List.map_append, List.sum_append, List.map_cons, List.map_nil, List.sum_cons, List.sum_nil,
    St.init] at this ⊢
  omega

theorem run_eq {buf : Buf} (hs : SliceLen buf.length) (n : Nat) : ∀ (fs : List Field), fs.length = n →
    SteadyFields fs → St.run .debug buf .init fs = St.run .release buf .init fs := by
  induction n with
  | zero =>
    intro fs hn _
    rw [List.eq_nil_of_length_eq_zero hn]; rfl
  | succ n ih =>
    intro fs hn h
    obtain ⟨fs', f, rfl⟩ : ∃ fs' f, fs = fs' ++ [f] := by
      refine ⟨fs.dropLast, fs.getLast (by intro hc; simp [hc] at hn), ?_⟩
      exact (List.dropLast_concat_getLast _).symm
    have hrun := ih fs' (by simpa using hn) h.snoc
    rw [run_snoc, run_snoc]
    have hg := getField_run_eq h hs hrun
    unfold St.step
    rw [hg, hrun]
    cases he : f.len with
    | none => rfl
    | some e =>
      simp only
      rw [← lenExpr_modes h.snoc hrun (h.free f (by simp) e he), hrun]

/-! ## Writing -/

theorem setOpsFrom_length {W co v : Nat} (ops : List SetOperation) (idx : Nat) {buf new : Buf}
    (h : setOpsFrom W co v idx ops buf = .ok new) : new.length = buf.length := by
  induction ops generalizing idx buf with
  | nil => cases h; rfl
  | cons op ops ih =>
    rw [setOpsFrom, bind_eq_ok] at h
    obtain ⟨old, -, h⟩ := h
    rw [bind_eq_ok] at h
    obtain ⟨x, -, h⟩ := h
    rw [bind_eq_ok] at h
    obtain ⟨b, hb, h⟩ := h
    rw [ih _ h]
    unfold setIndex at hb
    split at hb
    · cases hb; simp
    · cases hb

theorem setPrim_length {p : Prim} {s co v : Nat} {buf new : Buf} (h : setPrim p s buf co v = .ok new) :
    new.length = buf.length := by
  unfold setPrim at h
  split at h
  · exact setOpsFrom_length _ _ h
  · cases h

theorem copyInto_length {buf new b : Buf} {a : Nat} (h : copyInto buf a new = .ok b) :
    b.length = buf.length := by
  unfold copyInto at h
  split at h
  · cases h; simp; omega
  · cases h

theorem setElems_length {p : Prim} (vs : List Nat) (co : Nat) {buf new : Buf}
    (h : setElems p co vs buf = .ok new) : new.length = buf.length := by
  induction vs generalizing co buf with
  | nil => cases h; rfl
  | cons v vs ih =>
    rw [setElems, bind_eq_ok] at h
    obtain ⟨b, hb, h⟩ := h
    rw [ih _ h, setPrim_length hb]

theorem setArgs_length {m : Mode} {L : Buf → List (Res Nat)} (ps : List Prim) (vs : List Nat) (bit : Nat)
    {buf new : Buf} (h : setArgs m L bit ps vs buf = .ok new) : new.length = buf.length := by
  induction ps generalizing bit vs buf with
  | nil => cases vs <;> (cases h; rfl)
  | cons p ps ih =>
    cases vs with
    | nil => cases h; rfl
    | cons v vs =>
      rw [setArgs, bind_eq_ok] at h
      obtain ⟨co, -, h⟩ := h
      rw [bind_eq_ok] at h
      obtain ⟨b, hb, h⟩ := h
      rw [ih _ _ h, setPrim_length hb]

theorem sliceFrom_inv {buf sub : Buf} {a : Nat} (h : sliceFrom buf a = .ok sub) :
    a ≤ buf.length ∧ sub = buf.drop a := by
  unfold sliceFrom at h
  split at h
  · cases h; exact ⟨by assumption, rfl⟩
  · cases h

theorem setPackets_length {m : Mode} {c : Codec}
    (hc : ∀ buf v new, c.populate m buf v = .ok new → new.length = buf.length) {endOff : Nat}
    (vs : List Val) (cur : Nat) {buf new : Buf} (h : setPackets m c endOff cur vs buf = .ok new) :
    new.length = buf.length := by
  induction vs generalizing cur buf with
  | nil => cases h; rfl
  | cons v vs ih =>
    rw [setPackets, bind_eq_ok] at h
    obtain ⟨sub, hsub, h⟩ := h
    obtain ⟨hle, rfl⟩ := sliceFrom_inv hsub
    split at h
    · rw [bind_eq_ok] at h
      obtain ⟨b, hb, h⟩ := h
      have := hc _ _ _ hb
      simp only at h
      rw [bind_eq_ok] at h
      obtain ⟨n, -, h⟩ := h
      rw [bind_eq_ok] at h
      obtain ⟨cur', -, h⟩ := h
      split at h
      · rw [ih _ h]
        simp only [List.length_append, List.length_take, List.length_drop] at this ⊢
        omega
      · cases h
    · cases h

theorem setPackets_eq {c : Codec} (hc : CodecSame c) (endOff : Nat) (vs : List Val) (cur : Nat) (buf : Buf)
    (hs : SliceLen buf.length) :
    setPackets .debug c endOff cur vs buf = setPackets .release c endOff cur vs buf := by
  induction vs generalizing cur buf with
  | nil => rfl
  | cons v vs ih =>
    rw [setPackets, setPackets]
    refine bind_congr_ok fun sub hsub => ?_
    obtain ⟨hle, rfl⟩ := sliceFrom_inv hsub
    split
    · rw [hc.enc _ _ (by unfold SliceLen at *; simp; omega)]
      refine bind_congr_ok fun b hb => ?_
      have hlen := hc.keep _ _ _ _ hb
      simp only
      rw [hc.size _ (by rw [hlen]; unfold SliceLen at *; simp; omega)]
      refine bind_congr_ok fun n hn => ?_
      have := hc.small _ _ _ hn
      unfold SliceLen at hs
      rw [uadd_eq (by omega)]
      refine bind_congr_ok fun cur' _ => ?_
      rw [ih]
      unfold SliceLen
      simp only [List.length_append, List.length_take, List.length_drop] at hlen ⊢
      omega
    · rfl

theorem setArgs_eq {L : Mode → Buf → List (Res Nat)}
    (hL : ∀ b, SliceLen b.length → L .debug b = L .release b ∧ SmallLens (L .release b) ∧
      (L .release b).length ≤ 2 ^ 20) (ps : List Prim) (vs : List Nat) (bit : Nat)
    (hb : bit + (ps.map (·.size)).sum < 2 ^ 61) (buf : Buf) (hs : SliceLen buf.length) :
    setArgs .debug (L .debug) bit ps vs buf = setArgs .release (L .release) bit ps vs buf := by
  induction ps generalizing bit vs buf with
  | nil => cases vs <;> rfl
  | cons p ps ih =>
    cases vs with
    | nil => rfl
    | cons v vs =>
      simp only [List.map_cons, List.sum_cons] at hb
      obtain ⟨h1, h2, h3⟩ := hL buf hs
      rw [setArgs, setArgs, h1, (curOff_eq h2 h3 (by omega)).1]
      refine bind_congr_ok fun co _ => bind_congr_ok fun b hb' => ?_
      refine ih _ _ (by omega) _ ?_
      rw [setPrim_length hb']; exact hs

theorem set_length_of {d : Decl} {m : Mode}
    (hk : ∀ f ∈ d.fields, ∀ c, f.ty = .vecPkt c → ∀ buf v new, c.populate m buf v = .ok new →
      new.length = buf.length) {buf new : Buf} {k : Nat} {v : Val} (h : d.set m buf k v = .ok new) :
    new.length = buf.length := by
  unfold Decl.set at h
  cases hf : d.fields[k]? with
  | none => rw [hf] at h; cases h
  | some f =>
    rw [hf] at h
    simp only at h
    split at h
    · rw [bind_eq_ok] at h
      obtain ⟨co, -, h⟩ := h
      exact setPrim_length h
    · split at h
      · exact setArgs_length _ _ _ h
      · cases h
    · rw [bind_eq_ok] at h
      obtain ⟨co, -, h⟩ := h
      have key : ∀ {p : Prim} {vs : List Nat},
          (if p.size = 8 then copyInto buf co (vs.map UInt8.ofNat) else setElems p co vs buf) = .ok new →
          new.length = buf.length := by
        intro p vs h
        split at h
        · exact copyInto_length h
        · exact setElems_length _ _ h
      cases he : f.len with
      | none => rw [he] at h; exact key h
      | some e =>
        rw [he] at h
        simp only at h
        rw [bind_eq_ok] at h
        obtain ⟨n, -, h⟩ := h
        split at h
        · exact key h
        · cases h
    · rename_i c vs hty
      rw [bind_eq_ok] at h
      obtain ⟨co, -, h⟩ := h
      rw [bind_eq_ok] at h
      obtain ⟨n, -, h⟩ := h
      rw [bind_eq_ok] at h
      obtain ⟨e, -, h⟩ := h
      exact setPackets_length (hk f (List.mem_of_getElem? hf) c hty) _ _ h
    · cases h

section
variable {d : Decl} (hd : Steady d)
include hd

theorem Steady.fields : SteadyFields d.fields := ⟨hd.small, hd.free, hd.inner, hd.bound, hd.count⟩

theorem Steady.take (k : Nat) : SteadyFields (d.fields.take k) where
  small g hg := hd.small g (List.mem_of_mem_take hg)
  free g hg := hd.free g (List.mem_of_mem_take hg)
  inner g hg := hd.inner g (List.mem_of_mem_take hg)
  bound := by
    have h1 : (d.fields.map (·.ty.bits)).sum < 2 ^ 60 := hd.bound
    have h2 : (d.fields.map (·.ty.bits)).sum =
        ((d.fields.take k).map (·.ty.bits)).sum + ((d.fields.drop k).map (·.ty.bits)).sum := by
      rw [← List.sum_append, ← List.map_append, List.take_append_drop]
    omega
  count := by have := hd.count; simp only [List.length_take]; omega

theorem Steady.upto {k : Nat} {f : Field} (hf : d.fields[k]? = some f) :
    SteadyFields (d.fields.take k ++ [f]) := by
  have h := hd.take (k + 1)
  rwa [List.take_add_one, hf, Option.toList_some] at h

theorem before_eq {buf : Buf} (hs : SliceLen buf.length) (k : Nat) :
    d.before .debug buf k = d.before .release buf k := run_eq hs _ _ rfl (hd.take k)

theorem final_eq {buf : Buf} (hs : SliceLen buf.length) : d.final .debug buf = d.final .release buf :=
  run_eq hs _ _ rfl hd.fields

theorem get_same {buf : Buf} (hs : SliceLen buf.length) (k : Nat) :
    d.get .debug buf k = d.get .release buf k := by
  unfold Decl.get
  cases hf : d.fields[k]? with
  | none => rfl
  | some f => exact getField_run_eq (hd.upto hf) hs (before_eq hd hs k)

theorem getRaw_same {buf : Buf} (hs : SliceLen buf.length) (k : Nat) :
    d.getRaw .debug buf k = d.getRaw .release buf k := by
  unfold Decl.getRaw
  cases hf : d.fields[k]? with
  | none => rfl
  | some f =>
    have h := hd.upto hf
    obtain ⟨h1, h2, h3⟩ := h.snoc.lens .release buf
    simp only
    rw [show fieldLen .debug buf (d.before .debug buf k) f = fieldLen .release buf (d.before .release buf k) f from
      fieldLen_eq h.snoc (before_eq hd hs k) (h.free f (by simp)), before_eq hd hs k]
    have hco := curOff_eq h1 h2 (bit := (d.before .release buf k).bit) (by unfold Decl.before; omega)
    rw [show curOff .debug (d.before .release buf k).bit (d.before .release buf k).lens = _ from hco.1]
    exact varSlice_eq (hco.2 _) fun n hn => fieldLen_small h.snoc hs (fun e he => (h.small f (by simp)).2 e he) hn

theorem fromPacket_same {buf : Buf} (hs : SliceLen buf.length) :
    d.fromPacket .debug buf = d.fromPacket .release buf := by
  unfold Decl.fromPacket; rw [final_eq hd hs]

theorem debug_same {buf : Buf} (hs : SliceLen buf.length) : d.debug .debug buf = d.debug .release buf := by
  unfold Decl.debug; rw [final_eq hd hs]

theorem packetSize_same {buf : Buf} (hs : SliceLen buf.length) :
    d.packetSize .debug buf = d.packetSize .release buf := by
  unfold Decl.packetSize
  rw [final_eq hd hs]
  obtain ⟨h1, h2, h3⟩ := hd.fields.lens .release buf
  exact (curOff_eq h1 h2 (bit := (d.final .release buf).bit) (by unfold Decl.final; omega)).1

theorem packetSize_small {m : Mode} {buf : Buf} {n : Nat} (h : d.packetSize m buf = .ok n) : n < 2 ^ 62 := by
  obtain ⟨h1, h2, h3⟩ := hd.fields.lens m buf
  exact (curOff_eq h1 h2 (bit := (d.final m buf).bit) (by unfold Decl.final; omega)).2 m n h

theorem payloadBounds_same {buf : Buf} (hs : SliceLen buf.length) :
    d.payloadBounds .debug buf = d.payloadBounds .release buf := by
  unfold Decl.payloadBounds
  cases d.payloadIdx with
  | none => rfl
  | some k =>
    simp only
    cases hf : d.fields[k]? with
    | none => rfl
    | some f =>
      have h := hd.upto hf
      obtain ⟨h1, h2, h3⟩ := h.snoc.lens .release buf
      have hco := curOff_eq h1 h2 (bit := (d.before .release buf k).bit) (by unfold Decl.before; omega)
      have hle := fun e he => lenExpr_modes h.snoc (before_eq hd hs k) (h.free f (by simp) e he)
      change ∀ e, _ → lenExpr .debug buf (d.before .debug buf k) e = lenExpr .release buf (d.before .release buf k) e at hle
      rw [before_eq hd hs k] at hle ⊢
      simp only
      rw [show curOff .debug (d.before .release buf k).bit (d.before .release buf k).lens = _ from hco.1]
      refine bind_congr_ok fun a ha => ?_
      cases he : f.len with
      | none => rfl
      | some e =>
        simp only
        rw [hle e he]
        refine bind_congr_ok fun n hn => ?_
        have h4 := hco.2 _ a ha
        have h5 : n < 2 ^ 40 := (h.small f (by simp)).2 e he _ _ _ n (vals_small h.snoc.small _ _) hn
        rw [uadd_eq (by omega)]

theorem payload_same {buf : Buf} (hs : SliceLen buf.length) : d.payload .debug buf = d.payload .release buf := by
  unfold Decl.payload; rw [payloadBounds_same hd hs]

theorem payloadMut_same {buf : Buf} (hs : SliceLen buf.length) (new : Buf) :
    d.payloadMutCopy .debug buf new = d.payloadMutCopy .release buf new := by
  unfold Decl.payloadMutCopy; rw [payloadBounds_same hd hs]

theorem set_same {buf : Buf} (hs : SliceLen buf.length) (k : Nat) (v : Val) :
    d.set .debug buf k v = d.set .release buf k v := by
  unfold Decl.set
  cases hf : d.fields[k]? with
  | none => rfl
  | some f =>
    have h := hd.upto hf
    obtain ⟨h1, h2, h3⟩ := h.snoc.lens .release buf
    have hco := curOff_eq h1 h2 (bit := (d.before .release buf k).bit) (by unfold Decl.before; omega)
    have hle := fun e he => lenExpr_modes h.snoc (before_eq hd hs k) (h.free f (by simp) e he)
    change ∀ e, _ → lenExpr .debug buf (d.before .debug buf k) e = lenExpr .release buf (d.before .release buf k) e at hle
    have hfl := fieldLen_eq h.snoc (before_eq hd hs k) (h.free f (by simp))
    change fieldLen .debug buf (d.before .debug buf k) f = fieldLen .release buf (d.before .release buf k) f at hfl
    rw [before_eq hd hs k] at hle hfl ⊢
    have hcd : curOff .debug (d.before .release buf k).bit (d.before .release buf k).lens =
        curOff .release (d.before .release buf k).bit (d.before .release buf k).lens := hco.1
    simp only
    split
    · rw [hcd]
    · rename_i args vs hty
      split
      · refine setArgs_eq (L := fun m b => (d.before m b k).lens) (fun b hb => ?_) _ _ _ ?_ _ hs
        · obtain ⟨h1, h2, h3⟩ := h.snoc.lens .release b
          exact ⟨by rw [before_eq hd hb k], h1, h2⟩
        · have hb := h.bound
          unfold Decl.before
          rw [run_bit_le]
          simp only [List.map_append, List.sum_append, List.map_cons, List.map_nil, List.sum_cons,
            List.sum_nil, hty, Ty.bits, St.init] at hb ⊢
          omega
      · rfl
    · rw [hcd]
      refine bind_congr_ok fun co _ => ?_
      cases he : f.len with
      | none => rfl
      | some e => simp only; rw [hle e he]
    · rename_i c vs hty
      rw [hcd]
      refine bind_congr_ok fun co hc => ?_
      rw [hfl]
      refine bind_congr_ok fun n hn => ?_
      have h4 := hco.2 _ co hc
      have h5 := fieldLen_small h.snoc hs (fun e he => (h.small f (by simp)).2 e he) hn
      rw [uadd_eq (by omega)]
      exact bind_congr_ok fun e _ => setPackets_eq (h.inner f (by simp) c hty) _ _ _ _ hs
    · rfl

theorem set_length {m : Mode} {buf new : Buf} {k : Nat} {v : Val} (h : d.set m buf k v = .ok new) :
    new.length = buf.length :=
  set_length_of (fun f hf c hc => (hd.inner f hf c hc).keep m) h

theorem populateFrom_length {m : Mode} (vs : List Val) (k : Nat) {buf new : Buf}
    (h : d.populateFrom m k vs buf = .ok new) : new.length = buf.length := by
  induction vs generalizing k buf with
  | nil => cases h; rfl
  | cons v vs ih =>
    rw [Decl.populateFrom, bind_eq_ok] at h
    obtain ⟨b, hb, h⟩ := h
    rw [ih _ h, set_length hd hb]

theorem populateFrom_same (vs : List Val) (k : Nat) {buf : Buf} (hs : SliceLen buf.length) :
    d.populateFrom .debug k vs buf = d.populateFrom .release k vs buf := by
  induction vs generalizing k buf with
  | nil => rfl
  | cons v vs ih =>
    rw [Decl.populateFrom, Decl.populateFrom, set_same hd hs]
    refine bind_congr_ok fun b hb => ih _ ?_
    rw [set_length hd hb]; exact hs

theorem populate_same {buf : Buf} (hs : SliceLen buf.length) (v : Val) :
    d.populate .debug buf v = d.populate .release buf v := by
  cases v with
  | list vs => simp only [Decl.populate]; rw [populateFrom_same hd vs 0 hs]
  | _ => rfl

theorem populate_length {m : Mode} {buf new : Buf} {v : Val} (h : d.populate m buf v = .ok new) :
    new.length = buf.length := by
  cases v with
  | list vs =>
    simp only [Decl.populate] at h
    split at h
    · exact populateFrom_length hd vs 0 h
    · cases h
  | _ => cases h

theorem Steady.codec : CodecSame d.codec where
  size _ hs := packetSize_same hd hs
  small _ _ _ h := packetSize_small hd h
  dec _ hs := fromPacket_same hd hs
  enc _ v hs := populate_same hd hs v
  keep _ _ _ _ h := populate_length hd h

end

/-! ## The crate's declarations -/

theorem mf_const (n : Nat) : ModeFree (lenConst n) := fun _ _ => rfl
theorem mf_num (i : Nat) (f : Nat → Nat) : ModeFree (lenNum i f) := fun _ _ => rfl
theorem mf_any (e : (Nat → Res Val) → Res Buf → Res Nat) : ModeFree (fun _ g r => e g r) := fun _ _ => rfl
theorem mf_gre : ModeFree greOptLen := fun _ _ => rfl

/-- A field whose length and inner packet type do not depend on the build. -/
def FieldSame (f : Field) : Prop :=
  (∀ e, f.len = some e → ModeFree e) ∧ ∀ c, f.ty = .vecPkt c → CodecSame c

theorem steady_of_good {d : Decl} (h : GoodDecl d) (hf : ∀ f ∈ d.fields, FieldSame f) : Steady d where
  small f hm := ⟨(h.fields f hm).small, fun e he => ((h.fields f hm).len e he).2.1⟩
  free f hm := (hf f hm).1
  inner f hm := (hf f hm).2
  bound := h.bound
  count := h.count

theorem fs_prim (s : String) (n : Nat) : FieldSame (fprim s n) :=
  ⟨fun _ h => (nomatch h), fun _ h => (nomatch h)⟩
theorem fs_misc (s : String) (ns : List Nat) : FieldSame (fmisc s ns) :=
  ⟨fun _ h => (nomatch h), fun _ h => (nomatch h)⟩
theorem fs_payloadRest (s : String) : FieldSame (fpayloadRest s) :=
  ⟨fun _ h => (nomatch h), fun _ h => (nomatch h)⟩
theorem fs_bytes (s : String) {e : LenExpr} (he : ModeFree e) : FieldSame (fbytes s e) :=
  ⟨fun _ h => (by cases h; exact he), fun _ h => (nomatch h)⟩
theorem fs_payload (s : String) {e : LenExpr} (he : ModeFree e) : FieldSame (fpayload s e) :=
  ⟨fun _ h => (by cases h; exact he), fun _ h => (nomatch h)⟩
theorem fs_packets (s : String) {d : Decl} {e : LenExpr} (hd : Steady d) (he : ModeFree e) :
    FieldSame { name := s, ty := .vecPkt d.codec, len := some e } :=
  ⟨fun _ h => (by cases h; exact he), fun _ h => (by cases h; exact hd.codec)⟩

/-- Closes `∀ f ∈ fields, FieldSame f` for a literal field list, leaving vectors of packets. -/
macro "same_fields" : tactic => `(tactic| (
  repeat' first | exact forall_nil | refine forall_cons ?_ ?_
  all_goals first
    | with_reducible exact fs_prim _ _ | with_reducible exact fs_misc _ _
    | with_reducible exact fs_payloadRest _
    | with_reducible exact fs_bytes _ (mf_const _) | with_reducible exact fs_bytes _ (mf_num _ _)
    | with_reducible exact fs_payload _ (mf_const _) | with_reducible exact fs_payload _ (mf_num _ _)
    | with_reducible exact fs_bytes _ (mf_any _) | with_reducible exact fs_payload _ (mf_any _)
    | skip))

theorem ethernet_steady : Steady ethernet := steady_of_good ethernet_good (by unfold ethernet; same_fields)
theorem vlan_steady : Steady vlan := steady_of_good vlan_good (by unfold vlan; same_fields)
theorem arp_steady : Steady arp := steady_of_good arp_good (by unfold arp; same_fields)
theorem ipv4Option_steady : Steady ipv4Option := steady_of_good ipv4Option_good (by unfold ipv4Option; same_fields)
theorem ipv6_steady : Steady ipv6 := steady_of_good ipv6_good (by unfold ipv6; same_fields)
theorem extension_steady : Steady extension := steady_of_good extension_good (by unfold extension; same_fields)
theorem routing_steady : Steady routing := steady_of_good routing_good (by unfold routing; same_fields)
theorem fragment_steady : Steady fragment := steady_of_good fragment_good (by unfold fragment; same_fields)
theorem udp_steady : Steady udp := steady_of_good udp_good (by unfold udp; same_fields)
theorem tcpOption_steady : Steady tcpOption := steady_of_good tcpOption_good (by unfold tcpOption; same_fields)
theorem icmp_steady : Steady icmp := steady_of_good icmp_good (by unfold icmp; same_fields)
theorem echoReply_steady : Steady echoReply := steady_of_good echoReply_good (by unfold echoReply; same_fields)
theorem echoRequest_steady : Steady echoRequest := steady_of_good echoRequest_good (by unfold echoRequest; same_fields)
theorem destinationUnreachable_steady : Steady destinationUnreachable := steady_of_good destinationUnreachable_good (by unfold destinationUnreachable; same_fields)
theorem timeExceeded_steady : Steady timeExceeded := steady_of_good timeExceeded_good (by unfold timeExceeded; same_fields)
theorem icmpv6_steady : Steady icmpv6 := steady_of_good icmpv6_good (by unfold icmpv6; same_fields)
theorem u16BE_steady : Steady u16BE := steady_of_good u16BE_good (by unfold u16BE; same_fields)
theorem u32BE_steady : Steady u32BE := steady_of_good u32BE_good (by unfold u32BE; same_fields)
theorem ipv4_steady : Steady ipv4 := steady_of_good ipv4_good (by
  unfold ipv4; same_fields
  exact fs_packets _ ipv4Option_steady (mf_num _ _))
theorem tcp_steady : Steady tcp := steady_of_good tcp_good (by
  unfold tcp; same_fields
  exact fs_packets _ tcpOption_steady (mf_num _ _))
theorem gre_steady : Steady gre := steady_of_good gre_good (by
  unfold gre; same_fields
  · exact fs_packets _ u16BE_steady mf_gre
  · exact fs_packets _ u16BE_steady mf_gre
  · exact fs_packets _ u32BE_steady (mf_num _ _)
  · exact fs_packets _ u32BE_steady (mf_num _ _))

end Verif
