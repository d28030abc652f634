import Verif.Proofs.ModesEq
import Verif.Proofs.QuicHeads
import Verif.Proofs.QuicFrameNew
import Verif.Proofs.QuicPackets

/-! Debug and release builds agree when no sum of lengths reaches `2^64`; declarations whose lengths are
variable-length integers. -/

namespace Verif
open Spec

/-- The lengths so far: one has no value, or their sum fits a `usize`. -/
def Fit (st : St) : Prop :=
  (∀ l ∈ st.lens, NH l) ∧ ((∃ x ∈ st.lens, ∀ n, x ≠ .ok n) ∨
    ∃ sizes : List Nat, st.lens = sizes.map .ok ∧ st.bit / 8 + sizes.sum < 2 ^ 64)

theorem Fit.curOff {st : St} (h : Fit st) :
    curOff .debug st.bit st.lens = curOff .release st.bit st.lens := by
  rcases h.2 with he | ⟨sizes, hs, hlt⟩
  · rw [not_ok_panic (curOff_NH h.1) (curOff_error he), not_ok_panic (curOff_NH h.1) (curOff_error he)]
  · rw [hs, curOff_ok hlt, curOff_ok hlt]

theorem Fit.sizes {m : Mode} {st : St} (h : Fit st) {a : Nat} (ha : Verif.curOff m st.bit st.lens = .ok a) :
    ∃ sizes : List Nat, st.lens = sizes.map .ok ∧ a = st.bit / 8 + sizes.sum := by
  rcases h.2 with he | ⟨sizes, hs, hlt⟩
  · exact (curOff_error he a ha).elim
  · refine ⟨sizes, hs, ?_⟩
    rw [hs, curOff_ok hlt] at ha
    cases ha; rfl

/-- The generated code for one buffer does not depend on the build. -/
structure FitsAt (d : Decl) (buf : Buf) : Prop where
  fit : ∀ k, Fit (d.before .release buf k)
  free : ∀ k f e, d.fields[k]? = some f → f.len = some e →
    let st := d.before .release buf k
    e .debug st.get (curOff .release st.bit st.lens >>= sliceFrom buf) =
      e .release st.get (curOff .release st.bit st.lens >>= sliceFrom buf)
  noPkt : ∀ f ∈ d.fields, ∀ c, f.ty ≠ .vecPkt c
  head : ∀ k f args, d.fields[k]? = some f → f.ty = .misc args → ∀ g ∈ d.fields.take k, g.len = none

theorem getArgs_nil (buf : Buf) (args : List Prim) (bit : Nat) :
    getArgs .debug [] buf bit args = getArgs .release [] buf bit args := by
  induction args generalizing bit with
  | nil => rfl
  | cons p ps ih => rw [getArgs, getArgs, ih]; rfl

theorem setArgs_nil {L L' : Buf → List (Res Nat)} (h : ∀ b, L b = []) (h' : ∀ b, L' b = []) (ps : List Prim)
    (vs : List Nat) (bit : Nat) (buf : Buf) :
    setArgs .debug L bit ps vs buf = setArgs .release L' bit ps vs buf := by
  induction ps generalizing vs bit buf with
  | nil => cases vs <;> rfl
  | cons p ps ih =>
    cases vs with
    | nil => rfl
    | cons v vs =>
      rw [setArgs, setArgs, h, h']
      refine bind_congr_ok fun co _ => bind_congr_ok fun b _ => ih _ _ _

theorem run_lens_nil (m : Mode) (buf : Buf) (fs : List Field) (h : ∀ g ∈ fs, g.len = none) (st : St) :
    (St.run m buf st fs).lens = st.lens := by
  induction fs generalizing st with
  | nil => rfl
  | cons f fs ih =>
    rw [show St.run m buf st (f :: fs) = St.run m buf (st.step m buf f) fs from rfl,
      ih (fun g hg => h g (by simp [hg]))]
    simp only [St.step, h f (by simp)]

section
variable {d : Decl} {buf : Buf} (hd : FitsAt d buf) (hs : SliceLen buf.length)
include hd

theorem FitsAt.lenExpr {k : Nat} {f : Field} {e : LenExpr} (hf : d.fields[k]? = some f) (he : f.len = some e) :
    lenExpr .debug buf (d.before .release buf k) e = lenExpr .release buf (d.before .release buf k) e := by
  unfold Verif.lenExpr
  rw [(hd.fit k).curOff]
  exact hd.free k f e hf he

theorem FitsAt.fieldLen {k : Nat} {f : Field} (hf : d.fields[k]? = some f) :
    fieldLen .debug buf (d.before .release buf k) f = fieldLen .release buf (d.before .release buf k) f := by
  unfold Verif.fieldLen
  cases he : f.len with
  | none => rfl
  | some e => exact hd.lenExpr hf he

/-- The end of a field fits a `usize`. -/
theorem FitsAt.next {k : Nat} {f : Field} {e : LenExpr} (hf : d.fields[k]? = some f) (he : f.len = some e)
    {a n : Nat} (ha : curOff .release (d.before .release buf k).bit (d.before .release buf k).lens = .ok a)
    (hn : Verif.lenExpr .release buf (d.before .release buf k) e = .ok n) : a + n < 2 ^ 64 := by
  obtain ⟨sizes, h1, rfl⟩ := (hd.fit k).sizes ha
  have h2 := (hd.fit (k + 1)).2
  rw [before_succ hf] at h2
  have hl : ((d.before .release buf k).step .release buf f).lens = (sizes ++ [n]).map .ok := by
    simp only [St.step, he, hn, h1, List.map_append, List.map_cons, List.map_nil]
  rw [hl] at h2
  rcases h2 with ⟨x, hx, hne⟩ | ⟨sizes', h3, h4⟩
  · obtain ⟨y, -, rfl⟩ := List.mem_map.mp hx
    exact (hne y rfl).elim
  · have : sizes' = sizes ++ [n] := by
      have := List.map_inj_right (f := (Except.ok : Nat → Res Nat)) (fun a b h => by cases h; rfl) |>.mp h3
      exact this.symm
    subst this
    simp only [St.step, List.sum_append, List.sum_cons, List.sum_nil] at h4
    omega

include hs in
theorem FitsAt.varSlice {k : Nat} {f : Field} (hf : d.fields[k]? = some f) :
    varSlice .debug buf (curOff .release (d.before .release buf k).bit (d.before .release buf k).lens)
        (Verif.fieldLen .release buf (d.before .release buf k) f) =
      varSlice .release buf (curOff .release (d.before .release buf k).bit (d.before .release buf k).lens)
        (Verif.fieldLen .release buf (d.before .release buf k) f) := by
  cases ha : curOff .release (d.before .release buf k).bit (d.before .release buf k).lens with
  | error e => rfl
  | ok a =>
    cases he : f.len with
    | none =>
      simp only [Verif.fieldLen, he]
      by_cases hle : a ≤ buf.length
      · unfold SliceLen at hs
        rw [varSlice_alive hle (by omega), varSlice_alive hle (by omega)]
      · rw [varSlice_beyond (by omega) (NH.ok _), varSlice_beyond (by omega) (NH.ok _)]
    | some e =>
      simp only [Verif.fieldLen, he]
      unfold Verif.varSlice
      rw [ok_bind, ok_bind]
      refine bind_congr_ok fun n hn => ?_
      rw [uadd_eq (hd.next hf he ha hn)]

include hs in
theorem FitsAt.getField {k : Nat} {f : Field} (hf : d.fields[k]? = some f) :
    Verif.getField .debug buf (d.before .release buf k).bit (d.before .release buf k).lens
        (Verif.fieldLen .debug buf (d.before .release buf k) f) f.ty =
      Verif.getField .release buf (d.before .release buf k).bit (d.before .release buf k).lens
        (Verif.fieldLen .release buf (d.before .release buf k) f) f.ty := by
  rw [hd.fieldLen hf]
  have hco := (hd.fit k).curOff
  have hv := hd.varSlice hs hf
  cases hty : f.ty with
  | prim p => rw [Verif.getField, Verif.getField, hco]
  | misc args =>
    have hnil : (d.before .release buf k).lens = [] := run_lens_nil _ _ _ (hd.head k f args hf hty) _
    rw [Verif.getField, Verif.getField, hnil, getArgs_nil]
  | vecPrim p => rw [Verif.getField, Verif.getField, hco, hv]
  | vecPkt c => exact (hd.noPkt f (List.mem_of_getElem? hf) c hty).elim

include hs in
theorem FitsAt.before (k : Nat) : d.before .debug buf k = d.before .release buf k := by
  induction k with
  | zero => rfl
  | succ k ih =>
    cases hf : d.fields[k]? with
    | none =>
      have hk := List.getElem?_eq_none_iff.mp hf
      have : ∀ m, d.before m buf (k + 1) = d.before m buf k := fun m => by
        rw [Decl.before, Decl.before, List.take_of_length_le hk, List.take_of_length_le (by omega)]
      rw [this, this, ih]
    | some f =>
      rw [before_succ hf, before_succ hf, ih]
      unfold St.step
      rw [hd.getField hs hf]
      cases he : f.len with
      | none => rfl
      | some e => simp only; rw [hd.lenExpr hf he]

include hs in
theorem FitsAt.final : d.final .debug buf = d.final .release buf := by
  rw [final_eq_before, final_eq_before, hd.before hs]

include hs in
theorem FitsAt.get (k : Nat) : d.get .debug buf k = d.get .release buf k := by
  unfold Decl.get
  cases hf : d.fields[k]? with
  | none => rfl
  | some f => simp only; rw [hd.before hs, hd.getField hs hf]

include hs in
theorem FitsAt.getRaw (k : Nat) : d.getRaw .debug buf k = d.getRaw .release buf k := by
  unfold Decl.getRaw
  cases hf : d.fields[k]? with
  | none => rfl
  | some f => simp only; rw [hd.before hs, hd.fieldLen hf, (hd.fit k).curOff, hd.varSlice hs hf]

include hs in
theorem FitsAt.fromPacket : d.fromPacket .debug buf = d.fromPacket .release buf := by
  unfold Decl.fromPacket; rw [hd.final hs]

include hs in
theorem FitsAt.debug : d.debug .debug buf = d.debug .release buf := by
  unfold Decl.debug; rw [hd.final hs]

include hs in
theorem FitsAt.packetSize : d.packetSize .debug buf = d.packetSize .release buf := by
  unfold Decl.packetSize
  rw [hd.final hs, final_eq_before]
  exact (hd.fit _).curOff

include hs in
theorem FitsAt.payloadBounds : d.payloadBounds .debug buf = d.payloadBounds .release buf := by
  unfold Decl.payloadBounds
  cases d.payloadIdx with
  | none => rfl
  | some k =>
    simp only
    cases hf : d.fields[k]? with
    | none => rfl
    | some f =>
      simp only
      rw [hd.before hs, (hd.fit k).curOff]
      refine bind_congr_ok fun a ha => ?_
      cases he : f.len with
      | none => rfl
      | some e =>
        simp only
        rw [hd.lenExpr hf he]
        refine bind_congr_ok fun n hn => ?_
        rw [uadd_eq (hd.next hf he ha hn)]

include hs in
theorem FitsAt.payload : d.payload .debug buf = d.payload .release buf := by
  unfold Decl.payload; rw [hd.payloadBounds hs]

include hs in
theorem FitsAt.payloadMut (new : Buf) : d.payloadMutCopy .debug buf new = d.payloadMutCopy .release buf new := by
  unfold Decl.payloadMutCopy; rw [hd.payloadBounds hs]

include hs in
theorem FitsAt.set (k : Nat) (v : Val) : d.set .debug buf k v = d.set .release buf k v := by
  unfold Decl.set
  cases hf : d.fields[k]? with
  | none => rfl
  | some f =>
    simp only
    rw [hd.before hs]
    split
    · rw [(hd.fit k).curOff]
    · rename_i args vs hty
      have hnil : ∀ m b, (d.before m b k).lens = [] := fun m b =>
        run_lens_nil _ _ _ (hd.head k f args hf hty) _
      split
      · exact setArgs_nil (fun b => hnil _ b) (fun b => hnil _ b) _ _ _ _
      · rfl
    · rw [(hd.fit k).curOff]
      refine bind_congr_ok fun co _ => ?_
      cases he : f.len with
      | none => rfl
      | some e => simp only; rw [hd.lenExpr hf he]
    · rename_i c vs hty
      exact (hd.noPkt f (List.mem_of_getElem? hf) c hty).elim
    · rfl

end

theorem fits_populate {d : Decl} (hd : ∀ buf, SliceLen buf.length → FitsAt d buf) (v : Val) {buf : Buf}
    (hs : SliceLen buf.length) : d.populate .debug buf v = d.populate .release buf v := by
  have key : ∀ (vs : List Val) (k : Nat) {buf : Buf}, SliceLen buf.length →
      d.populateFrom .debug k vs buf = d.populateFrom .release k vs buf := by
    intro vs
    induction vs with
    | nil => intros; rfl
    | cons v vs ih =>
      intro k buf hs
      rw [Decl.populateFrom, Decl.populateFrom, (hd buf hs).set hs]
      refine bind_congr_ok fun b hb => ih _ ?_
      rw [set_length_of (fun f hf c hc => ((hd buf hs).noPkt f hf c hc).elim) hb]
      exact hs
  cases v with
  | list vs => simp only [Decl.populate]; rw [key vs 0 hs]
  | _ => rfl

/-! ## Fields that follow each other -/

/-- The fields at the positions `V`, where they have a value, hold at most 8 bytes. -/
def MaybeShort (V : List Nat) (vals : List (Res Val)) : Prop :=
  ∀ j ∈ V, ∀ l, vals[j]? = some (.ok (.nums l)) → l.length ≤ 8 ∧ ∀ x ∈ l, x < 256

/-- What holds while going through the fields: a length has no value, or the offset stays below `2^64`
even if `g` is added. -/
def Going (buf : Buf) (st : St) (g : Nat) (V : List Nat) : Prop :=
  (∃ x ∈ st.lens, ∀ n, x ≠ .ok n) ∨
    ∃ sizes : List Nat, st.lens = sizes.map .ok ∧
      (st.bit / 8 + sizes.sum ≤ buf.length ∨ st.bit / 8 + sizes.sum + g < 2 ^ 64) ∧
      MaybeShort V st.vals ∧ NumSmall st.vals

theorem cap_bound_maybe {m : Mode} {st : St} {r : Res Buf} {V : List Nat} {it : Item} {e : LenExpr}
    (he : it.len = some e) (hns : it.strict = false) (href : it.ref V) (hV : MaybeShort V st.vals)
    (hN : NumSmall st.vals) {n : Nat} (hn : e m st.get r = .ok n) :
    n ≤ it.cap ∨ ∃ rest, r = .ok rest ∧ n ≤ rest.length := by
  have hg : ∀ j ∈ V, ∀ l, st.get j = .ok (.nums l) → l.length ≤ 8 ∧ ∀ x ∈ l, x < 256 := by
    intro j hj l hl
    refine hV j hj l ?_
    rw [St.get] at hl
    cases h : st.vals[j]? with
    | none => rw [h] at hl; cases hl
    | some x => rw [h] at hl; exact congrArg some hl
  have hnums : ∀ j ∈ V, ∀ v l, st.get j = .ok v → v.asNums = .ok l → l.length ≤ 8 ∧ ∀ x ∈ l, x < 256 := by
    intro j hj v l hv hl
    cases v with
    | nums ns => cases hl; exact hg j hj _ hv
    | num _ => cases hl
    | list _ => cases hl
  have hnum : ∀ j f n, lenNum j f m st.get r = .ok n → ∃ x, x < 2 ^ 32 ∧ n = f x := by
    intro j f n hn
    rw [lenNum, bind_eq_ok] at hn
    obtain ⟨v, hv, hn⟩ := hn
    rw [bind_eq_ok] at hn
    obtain ⟨x, hx, hn⟩ := hn
    cases hn
    rw [asNum_eq_ok hx] at hv
    exact ⟨x, hN.get j x hv, rfl⟩
  cases it <;> simp only [Item.strict, Bool.true_eq_false] at hns <;>
    simp only [Item.len, Option.some.injEq, reduceCtorEq] at he <;> subst he
  case viBytes j =>
    rw [lenVarint, bind_eq_ok] at hn
    obtain ⟨v, hv, hn⟩ := hn
    rw [bind_eq_ok] at hn
    obtain ⟨l, hl, hn⟩ := hn
    obtain ⟨h2, h3⟩ := hnums j href v l hv hl
    exact .inl (Nat.le_of_lt (varint_lt hn h2 h3))
  case stream j =>
    rw [lenStreamData, bind_eq_ok] at hn
    obtain ⟨v, hv, hn⟩ := hn
    rw [bind_eq_ok] at hn
    obtain ⟨l, hl, hn⟩ := hn
    obtain ⟨h2, h3⟩ := hnums j href v l hv hl
    by_cases hl : l.isEmpty = true
    · rw [if_pos hl, bind_eq_ok] at hn
      obtain ⟨rest, hr, hn⟩ := hn
      cases hn
      exact .inr ⟨rest, hr, Nat.le_refl _⟩
    · rw [if_neg hl] at hn
      exact .inl (Nat.le_of_lt (varint_lt hn h2 h3))
  case const c => cases hn; exact .inl (Nat.le_refl _)
  case u8Bytes j =>
    obtain ⟨x, hx, rfl⟩ := hnum j _ n hn
    exact .inl (Nat.le_of_lt hx)
  case pn j =>
    obtain ⟨x, hx, rfl⟩ := hnum j _ n hn
    left; show x + 1 ≤ 2 ^ 32 + 1; omega

theorem MaybeShort.append {V : List Nat} {vals : List (Res Val)} (h : MaybeShort V vals)
    (hlt : ∀ j ∈ V, j < vals.length) (x : Res Val) : MaybeShort V (vals ++ [x]) := by
  intro j hj l hl
  rw [List.getElem?_append_left (hlt j hj)] at hl
  exact h j hj l hl

theorem varSlice_short {m : Mode} {buf x : Buf} {co : Res Nat} {n : Nat} (h : varSlice m buf co (.ok n) = .ok x) :
    x.length ≤ n := by
  rw [varSlice, bind_eq_ok] at h
  obtain ⟨a, -, h⟩ := h
  rw [ok_bind, bind_eq_ok] at h
  obtain ⟨b, hb, h⟩ := h
  have hle : b ≤ a + n := by
    unfold uadd at hb
    split at hb
    · cases hb; omega
    · cases m with
      | debug => cases hb
      | release => cases hb; exact Nat.mod_le _ _
  unfold slice at h
  split at h
  · cases h
    simp only [List.length_drop, List.length_take]
    omega
  · cases h

theorem MaybeShort.snoc {V : List Nat} {vals : List (Res Val)} (h : MaybeShort V vals)
    (hlt : ∀ j ∈ V, j < vals.length) {x : Res Val}
    (hx : ∀ l, x = .ok (.nums l) → l.length ≤ 8 ∧ ∀ y ∈ l, y < 256) :
    MaybeShort (vals.length :: V) (vals ++ [x]) := by
  intro j hj l hl
  rcases List.mem_cons.mp hj with rfl | hj
  · rw [List.getElem?_append_right (Nat.le_refl _)] at hl
    simp only [Nat.sub_self, List.getElem?_cons_zero, Option.some.injEq] at hl
    exact hx l hl
  · exact h.append hlt x j hj l hl

/-- The positions `V` are among the fields seen so far. -/
def Seen (V : List Nat) (st : St) : Prop := ∀ j ∈ V, j < st.vals.length

theorem Going.step {m : Mode} {buf : Buf} (hsl : SliceLen buf.length) {st : St} {V : List Nat} {it : Item}
    {is : List Item} {f : Field} (h : Going buf st (grow (it :: is)) V) (hseen : Seen V st) (hf : it.Is f)
    (href : it.ref V) (hcap : it.cap + grow is ≤ 2 ^ 63) :
    Going buf (st.step m buf f) (grow is) (it.next st.vals.length V) := by
  unfold SliceLen at hsl
  rcases h with ⟨x, hx, hn⟩ | ⟨sizes, h1, h3, h4, h5⟩
  · left
    refine ⟨x, ?_, hn⟩
    simp only [St.step]
    cases f.len with
    | none => exact hx
    | some e => simp [hx]
  · cases he : it.len with
    | none =>
      have hit : it = .u8 := by cases it <;> simp [Item.len] at he; rfl
      subst hit
      have hty : f.ty = .prim (u 8) := hf.2
      have hlen : f.len = none := hf.1
      right
      simp only [grow, Item.strict, Item.cap, Bool.false_eq_true, ite_false] at h3 hcap
      refine ⟨sizes, by simp only [St.step, hlen, h1], .inr ?_, h4.append hseen _, h5.step hf⟩
      simp only [St.step, hty, Ty.bits, u]
      omega
    | some e =>
      have hlen : f.len = some e := by rw [hf.1, he]
      have hty : f.ty = .vecPrim (u 8) := by rw [hf.2, he]; rfl
      have hco : curOff m st.bit st.lens = .ok (st.bit / 8 + sizes.sum) := by
        rw [h1]; exact curOff_ok (by unfold usizeCard; omega)
      have hl : lenExpr m buf st e = e m st.get (sliceFrom buf (st.bit / 8 + sizes.sum)) := by
        rw [lenExpr, hco, ok_bind]
      cases hv : e m st.get (sliceFrom buf (st.bit / 8 + sizes.sum)) with
      | error x =>
        left
        refine ⟨.error x, ?_, by simp⟩
        simp [St.step, hlen, hl, hv]
      | ok n =>
        right
        refine ⟨sizes ++ [n], by simp [St.step, hlen, hl, hv, h1], ?_, ?_, h5.step hf⟩
        · simp only [St.step, hty, Ty.bits, List.sum_append, List.sum_cons, List.sum_nil]
          have hb : n ≤ it.cap ∧ (it.strict = true → st.bit / 8 + sizes.sum ≤ buf.length) ∨
              st.bit / 8 + sizes.sum + n ≤ buf.length := by
            cases hs : it.strict with
            | true =>
              by_cases hle : st.bit / 8 + sizes.sum ≤ buf.length
              · rw [sliceFrom, if_pos hle] at hv
                rcases strict_bound he hs hv with h | h
                · exact .inl ⟨h, fun _ => hle⟩
                · rw [List.length_drop] at h; right; omega
              · rw [sliceFrom, if_neg hle] at hv
                exact (strict_panic he hs n hv).elim
            | false =>
              rcases cap_bound_maybe he hs href h4 h5 hv with h | ⟨r, hr, h⟩
              · exact .inl ⟨h, fun h => by cases h⟩
              · obtain ⟨hle, rfl⟩ := sliceFrom_inv hr
                rw [List.length_drop] at h; right; omega
          rcases hb with ⟨hb, hst⟩ | hb
          · right
            cases hs : it.strict with
            | true => have := hst hs; omega
            | false =>
              simp only [grow, hs, Bool.false_eq_true, ite_false] at h3
              omega
          · left; omega
        · have hval : ∀ l, getField m buf st.bit st.lens (fieldLen m buf st f) f.ty = .ok (.nums l) →
              l.length ≤ n ∧ ∀ y ∈ l, y < 256 := by
            intro l hg
            rw [hty, getField, bind_eq_ok] at hg
            obtain ⟨x, hx, hg⟩ := hg
            rw [fieldLen, hlen] at hx
            simp only [hl, hv] at hx
            have := varSlice_short hx
            rw [show u 8 = ⟨8, .big⟩ from rfl, getElems_u8 _ _ _ (by omega)] at hg
            cases hg
            simp only [List.drop_zero, List.length_map]
            refine ⟨this, fun y hy => ?_⟩
            obtain ⟨b, -, rfl⟩ := List.mem_map.mp hy
            exact b.toNat_lt
          have happ : MaybeShort V (st.step m buf f).vals := h4.append hseen _
          have hsnoc : n ≤ 8 → MaybeShort (st.vals.length :: V) (st.step m buf f).vals := fun h8 =>
            h4.snoc hseen fun l hg => ⟨by have := (hval l hg).1; omega, (hval l hg).2⟩
          cases it <;> simp only [Item.next] <;> try exact happ
          · simp only [Item.len, Option.some.injEq] at he
            subst he
            rw [lenVarintLength, bind_eq_ok] at hv
            obtain ⟨r, -, hv⟩ := hv
            exact hsnoc (varintLength_le hv)
          · rename_i g
            simp only [Item.len, Option.some.injEq] at he
            subst he
            rw [lenNVarints, bind_eq_ok] at hv
            obtain ⟨v, -, hv⟩ := hv
            rw [bind_eq_ok] at hv
            obtain ⟨t, -, hv⟩ := hv
            simp only at hv
            rw [bind_eq_ok] at hv
            obtain ⟨r, -, hv⟩ := hv
            have := (nVarints_le hv).2
            have := href t
            exact hsnoc (by omega)

theorem Seen.step {m : Mode} {buf : Buf} {V : List Nat} {st : St} {f : Field} {it : Item} (h : Seen V st) :
    Seen (it.next st.vals.length V) (st.step m buf f) := by
  have hl : (st.step m buf f).vals.length = st.vals.length + 1 := by simp [St.step]
  intro j hj
  rw [hl]
  have : j = st.vals.length ∨ j ∈ V := by
    cases it <;> simp only [Item.next, List.mem_cons] at hj <;> first | exact hj | exact .inr hj
  rcases this with rfl | hj
  · omega
  · have := h j hj; omega

/-- After any number of the fields. -/
theorem Going.run {m : Mode} {buf : Buf} (hsl : SliceLen buf.length) (is : List Item) (fs : List Field)
    (hi : ItemsAre is fs) {st : St} {V : List Nat} (ht : tame st.vals.length V is) (hseen : Seen V st)
    (h : Going buf st (grow is) V) (j : Nat) :
    ∃ V', Going buf (St.run m buf st (fs.take j)) (grow (is.drop j)) V' := by
  induction is generalizing fs st V j with
  | nil =>
    cases fs with
    | nil => exact ⟨V, by simpa [St.run] using h⟩
    | cons _ _ => exact hi.elim
  | cons it is ih =>
    cases fs with
    | nil => exact hi.elim
    | cons f fs =>
      cases j with
      | zero => exact ⟨V, by simpa [St.run] using h⟩
      | succ j =>
        obtain ⟨hf, hi⟩ := hi
        obtain ⟨hcap, href, ht⟩ := ht
        have hl : (st.step m buf f).vals.length = st.vals.length + 1 := by simp [St.step]
        exact ih fs hi (st := st.step m buf f) (by rw [hl]; exact ht) hseen.step
          (h.step hsl hseen hf href hcap) j

theorem Going.fit {buf : Buf} {st : St} {g : Nat} {V : List Nat} (h : Going buf st g V)
    (hsl : SliceLen buf.length) (hnh : ∀ l ∈ st.lens, NH l) : Fit st := by
  unfold SliceLen at hsl
  refine ⟨hnh, h.imp_right ?_⟩
  rintro ⟨sizes, h1, h2, -⟩
  exact ⟨sizes, h1, by omega⟩

/-- Fields of fixed size, at the start. -/
structure HeadOk (hd : List Field) : Prop where
  len : ∀ g ∈ hd, g.len = none
  small : ∀ g ∈ hd, smallTy g.ty = true
  bits : (hd.map (·.ty.bits)).sum ≤ 2 ^ 40

theorem head_going {hd : List Field} (h : HeadOk hd) (m : Mode) (buf : Buf) (g : Nat) (hg : g ≤ 2 ^ 63) :
    Going buf (St.run m buf .init hd) g [] := by
  right
  refine ⟨[], by rw [run_lens_nil _ _ _ h.len]; rfl, .inr ?_, fun j hj => by simp at hj, ?_⟩
  · rw [run_bit_le]
    have := h.bits
    simp only [St.init, List.sum_nil]
    omega
  · have key : ∀ (fs : List Field), (∀ g ∈ fs, smallTy g.ty = true) → ∀ st : St, NumSmall st.vals →
        NumSmall (St.run m buf st fs).vals := by
      intro fs
      induction fs with
      | nil => exact fun _ _ h => h
      | cons f fs ih =>
        intro hs st hst
        refine ih (fun g hg => hs g (by simp [hg])) (st.step m buf f) ?_
        intro x hx n hn
        simp only [St.step, List.mem_append, List.mem_singleton] at hx
        rcases hx with hx | rfl
        · exact hst x hx n hn
        · exact getField_small (hs f (by simp)) hn
    exact key hd h.small .init (by intro x hx; simp [St.init] at hx)

theorem run_vals_length (m : Mode) (buf : Buf) (st : St) (fs : List Field) :
    (St.run m buf st fs).vals.length = st.vals.length + fs.length := by
  induction fs generalizing st with
  | nil => rfl
  | cons f fs ih =>
    rw [show St.run m buf st (f :: fs) = St.run m buf (st.step m buf f) fs from rfl, ih]
    simp only [St.step, List.length_append, List.length_cons, List.length_nil]
    omega

theorem grow_le {k : Nat} {V : List Nat} {is : List Item} (h : tame k V is) : grow is ≤ 2 ^ 63 := by
  cases is with
  | nil => simp [grow]
  | cons it is =>
    have := h.1
    rw [grow]
    split <;> omega

/-- Any prefix of a head and the following fields. -/
theorem prefix_going {hd fs : List Field} (hh : HeadOk hd) {is : List Item} (hi : ItemsAre is fs)
    (ht : tame hd.length [] is) {m : Mode} {buf : Buf} (hsl : SliceLen buf.length) (k : Nat) :
    ∃ V, Going buf (St.run m buf .init ((hd ++ fs).take k)) (grow (is.drop (k - hd.length))) V := by
  by_cases hk : k ≤ hd.length
  · rw [List.take_append_of_le_length hk]
    refine ⟨[], head_going ⟨fun g hg => hh.len g (List.mem_of_mem_take hg),
      fun g hg => hh.small g (List.mem_of_mem_take hg), ?_⟩ m buf _ ?_⟩
    · have h1 := hh.bits
      have h2 : (hd.map (·.ty.bits)).sum = ((hd.take k).map (·.ty.bits)).sum + ((hd.drop k).map (·.ty.bits)).sum := by
        rw [← List.sum_append, ← List.map_append, List.take_append_drop]
      omega
    · rw [show k - hd.length = 0 by omega, List.drop_zero]; exact grow_le ht
  · rw [List.take_append, List.take_of_length_le (by omega), run_append]
    refine Going.run hsl is fs hi (V := []) ?_ (fun j hj => by simp at hj) (head_going hh m buf _ (grow_le ht)) _
    rw [run_vals_length]; simpa [St.init] using ht

theorem item_free (it : Item) {e : LenExpr} (he : it.len = some e) : ModeFree e := by
  cases it <;> simp only [Item.len, Option.some.injEq, reduceCtorEq] at he <;> subst he <;> exact fun _ _ => rfl

theorem items_free {is : List Item} {fs : List Field} (h : ItemsAre is fs) :
    ∀ f ∈ fs, (∀ e, f.len = some e → ModeFree e) ∧ (∀ c, f.ty ≠ .vecPkt c) ∧ ∀ args, f.ty ≠ .misc args := by
  induction is generalizing fs with
  | nil => cases fs with
    | nil => intro f hf; simp at hf
    | cons _ _ => exact h.elim
  | cons it is ih => cases fs with
    | nil => exact h.elim
    | cons f fs =>
      intro g hg
      rcases List.mem_cons.mp hg with rfl | hg
      · refine ⟨fun e he => item_free it (by rw [← h.1.1, he]), fun c hc => ?_, fun a ha => ?_⟩
        · rw [h.1.2] at hc; split at hc <;> cases hc
        · rw [h.1.2] at ha; split at ha <;> cases ha
      · exact ih h.2 g hg

theorem head_ends {hd : List Field} (hh : HeadOk hd) (hp : ∀ f ∈ hd, ∀ c, f.ty ≠ .vecPkt c) (m : Mode) :
    endFields m hd := fun f hf =>
  ⟨fun e he => (by rw [hh.len f hf] at he; cases he), fun c hc => (hp f hf c hc).elim⟩

/-- A declaration made of a head, fields that follow each other, and a vector of what remains. -/
theorem fits_items {d : Decl} {hd fs : List Field} {l : Field} (hfields : d.fields = hd ++ fs ++ [l])
    (hh : HeadOk hd) (hp : ∀ f ∈ hd, ∀ c, f.ty ≠ .vecPkt c) {is : List Item} (hi : ItemsAre is fs)
    (ht : tame hd.length [] is) (hl : l.len = none) (hlt : l.ty = .vecPrim (u 8)) {buf : Buf}
    (hsl : SliceLen buf.length) : FitsAt d buf where
  fit k := by
    have hef : endFields .release (hd ++ fs) := fun f hf => by
      rcases List.mem_append.mp hf with hf | hf
      · exact head_ends hh hp _ f hf
      · exact items_endFields _ hi f hf
    have hnh : ∀ k, ∀ x ∈ (St.run .release buf .init ((hd ++ fs).take k)).lens, NH x := fun k =>
      (run_NH _ (fun f hf => hef f (List.mem_of_mem_take hf)) .init (by simp [St.init]) (by simp [St.init])).1
    have hpre : ∀ k, Fit (St.run .release buf .init ((hd ++ fs).take k)) := fun k => by
      obtain ⟨V, h⟩ := prefix_going hh hi ht (m := .release) hsl k
      exact h.fit hsl (hnh k)
    by_cases hk : k ≤ (hd ++ fs).length
    · rw [Decl.before, hfields, List.take_append_of_le_length hk]
      exact hpre k
    · rw [Decl.before, hfields, List.take_of_length_le (by simp at hk ⊢; omega), run_snoc]
      have h := hpre (hd ++ fs).length
      rw [List.take_length] at h
      unfold Fit St.step at *
      simpa only [hl, hlt, Ty.bits, Nat.add_zero] using h
  free k f e hf he := by
    have hm := List.mem_of_getElem? hf
    rw [hfields] at hm
    simp only [List.mem_append, List.mem_singleton] at hm
    rcases hm with (hm | hm) | rfl
    · rw [hh.len f hm] at he; cases he
    · exact (items_free hi f hm).1 e he _ _
    · rw [hl] at he; cases he
  noPkt f hm c := by
    rw [hfields] at hm
    simp only [List.mem_append, List.mem_singleton] at hm
    rcases hm with (hm | hm) | rfl
    · exact hp f hm c
    · exact (items_free hi f hm).2.1 c
    · rw [hlt]; exact fun h => nomatch h
  head k f args hf hty g hg := by
    by_cases hk : k < hd.length
    · refine hh.len g ?_
      rw [hfields, List.append_assoc, List.take_append_of_le_length (by omega)] at hg
      exact List.mem_of_mem_take hg
    · rw [hfields, List.append_assoc, List.getElem?_append_right (by omega)] at hf
      have hm := List.mem_of_getElem? hf
      simp only [List.mem_append, List.mem_singleton] at hm
      rcases hm with hm | rfl
      · exact ((items_free hi f hm).2.2 args hty).elim
      · rw [hlt] at hty; cases hty

theorem frame_fits (k : FrameKind) {buf : Buf} (hsl : SliceLen buf.length) : FitsAt k.decl buf := by
  refine fits_items (frame_fields k) ⟨?_, ?_, ?_⟩ ?_ (frame_items k) (frame_tame k) rfl rfl hsl
  · intro g hg; simp only [List.mem_singleton] at hg; subst hg; rfl
  · intro g hg; simp only [List.mem_singleton] at hg; subst hg; rfl
  · simp [fmisc, Ty.bits]
  · intro f hf c; simp only [List.mem_singleton] at hf; subst hf; exact fun h => nomatch h

/-- QUIC packets without a Length field. -/
theorem quic_fits (k : QuicKind) (hk : k.long = false) {buf : Buf} (hsl : SliceLen buf.length) :
    FitsAt k.decl buf := by
  have hfields : ∃ l, k.decl.fields = k.decl.fields.take k.head.length ++ k.mid ++ [l] ∧ l.len = none ∧
      l.ty = .vecPrim (u 8) := by
    cases k <;> first | exact ⟨_, rfl, rfl, rfl⟩ | cases hk
  obtain ⟨l, hfields, hl, hlt⟩ := hfields
  have hh : HeadOk (k.decl.fields.take k.head.length) ∧
      ∀ f ∈ k.decl.fields.take k.head.length, ∀ c, f.ty ≠ .vecPkt c := by
    cases k <;> first
      | (refine ⟨⟨?_, ?_, by decide +kernel⟩, ?_⟩ <;>
          (repeat' first | exact List.forall_mem_nil _ | refine List.forall_mem_cons.mpr ⟨?_, ?_⟩) <;>
          first | rfl | exact fun _ h => nomatch h)
      | cases hk
  refine fits_items hfields hh.1 hh.2 (quic_mid k) ?_ hl hlt hsl
  have := quic_tame k
  rwa [show (k.decl.fields.take k.head.length).length = k.head.length by
    cases k <;> first | rfl | cases hk]

end Verif
