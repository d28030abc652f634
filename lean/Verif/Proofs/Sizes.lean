import Verif.Proofs.Generic

/-! # The specification of field sizes and the state of the generated code -/

namespace Verif
open Spec

theorem fixedBits_eq (fs : List Field) : fixedBits fs = bitsSum fs := by
  induction fs with
  | nil => rfl
  | cons f fs ih =>
    simp only [fixedBits, bitsSum, List.flatMap_cons, List.sum_append, List.map_cons,
      List.sum_cons] at ih ⊢
    rw [ih]
    congr 1
    cases f.ty <;> simp [intWidths, Ty.bits]

theorem startOf_eq (d : Decl) (k : Nat) (sizes : List Nat) :
    startOf d k sizes = bitsSum (d.fields.take k) / 8 + sizes.sum := by
  rw [startOf, fixedBits_eq]

theorem startOf_mono {d : Decl} {j k : Nat} (h : j ≤ k) (a b : List Nat) :
    startOf d j a ≤ startOf d k (a ++ b) := by
  rw [startOf_eq, startOf_eq, List.sum_append]
  have : d.fields.take j = (d.fields.take k).take j := by rw [List.take_take, Nat.min_eq_left h]
  have : bitsSum (d.fields.take j) ≤ bitsSum (d.fields.take k) := by
    rw [this]; exact bitsSum_take_le _ _
  omega

theorem before_get {d : Decl} {m : Mode} {buf : Buf} {i k : Nat} (hi : i < k)
    (hk : k ≤ d.fields.length) : (d.before m buf k).get i = d.get m buf i := by
  rw [St.get, before_vals k hk, List.getElem?_map, List.getElem?_range hi]; rfl

theorem before_lens_succ {d : Decl} {m : Mode} {buf : Buf} {k : Nat} {f : Field}
    (hf : d.fields[k]? = some f) {e : LenExpr} (he : f.len = some e) :
    (d.before m buf (k + 1)).lens =
      (d.before m buf k).lens ++ [lenExpr m buf (d.before m buf k) e] := by
  rw [before_succ hf, St.step]; simp only [he]

theorem before_lens_succ_none {d : Decl} {m : Mode} {buf : Buf} {k : Nat} {f : Field}
    (hf : d.fields[k]? = some f) (he : f.len = none) :
    (d.before m buf (k + 1)).lens = (d.before m buf k).lens := by
  rw [before_succ hf, St.step]; simp only [he]

theorem getters_eq {d : Decl} {m : Mode} {buf : Buf} {k : Nat} (hk : k ≤ d.fields.length) :
    (d.before m buf k).get = earlierGetters d m buf k := by
  funext i
  unfold earlierGetters
  split
  · rename_i h; exact before_get h hk
  · rename_i h
    rw [St.get, before_vals k hk, List.getElem?_eq_none (by simp; omega)]; rfl

/-- The generated length expression is the specified one, unless the offset overflows. -/
theorem lenExpr_eq {d : Decl} {m : Mode} {buf : Buf} {k : Nat} {sizes : List Nat}
    (hk : k ≤ d.fields.length) (hlens : (d.before m buf k).lens = sizes.map .ok)
    (hov : startOf d k sizes < 2 ^ 64) (e : LenExpr) :
    lenExpr m buf (d.before m buf k) e = evalLength d m buf k sizes e := by
  rw [startOf_eq] at hov
  rw [lenExpr, evalLength, getters_eq hk, before_bit, hlens,
    curOff_ok (by unfold usizeCard; omega), ok_bind, ← startOf_eq]
  rfl

theorem sizes_lens {d : Decl} {m : Mode} {buf : Buf} {k : Nat} {sizes : List Nat}
    (h : Sizes d m buf k sizes) (hov : startOf d k sizes < 2 ^ 64) :
    (d.before m buf k).lens = sizes.map .ok := by
  induction h with
  | nil => rfl
  | @plain k f sizes _ hf hl ih =>
    have := startOf_mono (d := d) (show k ≤ k + 1 by omega) sizes []
    rw [List.append_nil] at this
    rw [before_lens_succ_none hf hl, ih (by omega)]
  | @sized k f sizes e n _ hf hl he ih =>
    have := startOf_mono (d := d) (show k ≤ k + 1 by omega) sizes [n]
    have hk : k < d.fields.length := (List.getElem?_eq_some_iff.mp hf).1
    have ih := ih (by omega)
    rw [before_lens_succ hf hl, ih, lenExpr_eq (by omega) ih (by omega), he, List.map_append]
    rfl

theorem lens_sizes {d : Decl} {m : Mode} {buf : Buf} {k : Nat} {sizes : List Nat}
    (hk : k ≤ d.fields.length) (h : (d.before m buf k).lens = sizes.map .ok)
    (hov : startOf d k sizes < 2 ^ 64) : Sizes d m buf k sizes := by
  induction k generalizing sizes with
  | zero =>
    have : sizes = [] := by
      have : (sizes.map (Except.ok : Nat → Res Nat)) = [] := h.symm
      simpa using this
    subst this
    exact .nil
  | succ k ih =>
    have hf : d.fields[k]? = some d.fields[k] := List.getElem?_eq_getElem (by omega)
    cases hl : d.fields[k].len with
    | none =>
      rw [before_lens_succ_none hf hl] at h
      have := startOf_mono (d := d) (show k ≤ k + 1 by omega) sizes []
      rw [List.append_nil] at this
      exact .plain (ih (by omega) h (by omega)) hf hl
    | some e =>
      rw [before_lens_succ hf hl] at h
      obtain ⟨a, b, rfl, ha, hb⟩ := List.map_eq_append_iff.mp h.symm
      obtain ⟨n, rfl, hn⟩ := List.map_eq_singleton_iff.mp hb
      have := startOf_mono (d := d) (show k ≤ k + 1 by omega) a [n]
      refine .sized (ih (by omega) ha.symm (by omega)) hf hl ?_
      rw [← lenExpr_eq (by omega) ha.symm (by omega), ← hn]

theorem fieldLen_iff {d : Decl} {m : Mode} {buf : Buf} {k : Nat} {f : Field} {sizes : List Nat} {len : Nat}
    (hk : k ≤ d.fields.length) (hlens : (d.before m buf k).lens = sizes.map .ok)
    (hov : startOf d k sizes < 2 ^ 64) :
    fieldLen m buf (d.before m buf k) f = .ok len ↔ HasLength d m buf k sizes f len := by
  unfold fieldLen HasLength
  cases f.len with
  | none => simp only [Except.ok.injEq]; exact eq_comm
  | some e => dsimp only; rw [lenExpr_eq hk hlens hov]

theorem foldlM_uadd_fails {m : Mode} {x : Fail} (rest : List (Res Nat)) (sizes : List Nat) (a : Nat)
    (h : a + sizes.sum < 2 ^ 64) :
    ((sizes.map .ok ++ .error x :: rest : List (Res Nat))).foldlM (fun a l => do uadd m a (← l)) a = (.error x : Res Nat) := by
  induction sizes generalizing a with
  | nil => rfl
  | cons n ns ih =>
    rw [List.sum_cons] at h
    rw [List.map_cons, List.cons_append, List.foldlM_cons, ok_bind,
      uadd_ok (by unfold usizeCard; omega), ok_bind]
    exact ih _ (by omega)

theorem lens_prefix {d : Decl} {m : Mode} {buf : Buf} {j k : Nat} (hjk : j ≤ k) (hk : k ≤ d.fields.length) :
    ∃ rest, (d.before m buf k).lens = (d.before m buf j).lens ++ rest := by
  induction hjk with
  | refl => exact ⟨[], by simp⟩
  | @step k _ ih =>
    obtain ⟨rest, hr⟩ := ih (by simp at hk; omega)
    simp only [Nat.succ_eq_add_one] at hk
    have hf : d.fields[k]? = some d.fields[k] := List.getElem?_eq_getElem (by omega)
    cases hl : d.fields[k].len with
    | none => exact ⟨rest, by rw [before_lens_succ_none hf hl, hr]⟩
    | some e => exact ⟨rest ++ [_], by rw [before_lens_succ hf hl, hr, List.append_assoc]⟩

theorem payload_fails {d : Decl} {m : Mode} {buf : Buf} {j k : Nat} {f : Field} {e : LenExpr}
    (hk : d.payloadIdx = some k) (hkl : k < d.fields.length) (hjk : j ≤ k) (hf : d.fields[j]? = some f)
    (he : f.len = some e) {sizes : List Nat} (hs : (d.before m buf j).lens = sizes.map .ok)
    (hov : bitsSum (d.fields.take k) / 8 + sizes.sum < 2 ^ 64) {x : Fail}
    (hx : lenExpr m buf (d.before m buf j) e = .error x) : d.payload m buf = .error x := by
  have hfk : d.fields[k]? = some d.fields[k] := List.getElem?_eq_getElem hkl
  rw [Decl.payload, Decl.payloadBounds, hk]
  dsimp only
  rw [hfk]
  dsimp only
  by_cases hlt : j < k
  · obtain ⟨rest, hr⟩ := lens_prefix (d := d) (m := m) (buf := buf) (show j + 1 ≤ k from hlt) (by omega)
    have hco : curOff m (d.before m buf k).bit (d.before m buf k).lens = .error x := by
      rw [hr, before_lens_succ hf he, hs, hx, List.append_assoc, curOff, before_bit]
      refine foldlM_uadd_fails rest sizes _ hov
    rw [hco]; rfl
  · obtain rfl : j = k := by omega
    rw [hf] at hfk
    cases hfk
    rw [before_bit, hs, curOff_ok (by unfold usizeCard; omega), ok_bind, he]
    dsimp only
    rw [hx]; rfl

/-- Sizes that do not wrap, for the state of the generated code. -/
theorem NoWrap.lens {m : Mode} {d : Decl} (h : NoWrap m d) : m = .debug ∨ ∀ b k (sizes : List Nat),
    (d.before m b k).lens = sizes.map .ok → d.bits / 8 + sizes.sum < 2 ^ 63 := by
  refine h.imp_right fun h b k sizes hl => ?_
  have hbits : ∀ k, bitsSum (d.fields.take k) ≤ d.bits := fun k => bitsSum_take_le _ _
  have key : ∀ k, k ≤ d.fields.length → ∀ sizes : List Nat,
      (d.before m b k).lens = sizes.map .ok → Sizes d m b k sizes := by
    intro k
    induction k with
    | zero =>
      intro _ sizes hs
      have : (sizes.map (Except.ok : Nat → Res Nat)) = [] := hs.symm
      rw [List.map_eq_nil_iff.mp this]
      exact .nil
    | succ k ih =>
      intro hk sizes hs
      have hf : d.fields[k]? = some d.fields[k] := List.getElem?_eq_getElem (by omega)
      cases hl : d.fields[k].len with
      | none =>
        rw [before_lens_succ_none hf hl] at hs
        exact .plain (ih (by omega) _ hs) hf hl
      | some e =>
        rw [before_lens_succ hf hl] at hs
        obtain ⟨a, c, rfl, ha, hb⟩ := List.map_eq_append_iff.mp hs.symm
        obtain ⟨n, rfl, hn⟩ := List.map_eq_singleton_iff.mp hb
        have hsz := ih (by omega) a ha.symm
        have hlt := h b k a hsz
        rw [fixedBits_eq, show bitsSum d.fields = d.bits from rfl] at hlt
        refine .sized hsz hf hl ?_
        rw [← lenExpr_eq (by omega) ha.symm, ← hn]
        rw [startOf_eq]
        have := hbits k
        omega
  have : d.before m b k = d.before m b (min k d.fields.length) := by
    rw [Decl.before, Decl.before, ← List.take_eq_take_min]
  rw [this] at hl
  have := h b _ sizes (key _ (by omega) sizes hl)
  rwa [fixedBits_eq] at this

theorem noWrap_of_lens {m : Mode} {d : Decl} (h : m = .debug ∨ ∀ b k (sizes : List Nat),
    (d.before m b k).lens = sizes.map .ok → d.bits / 8 + sizes.sum < 2 ^ 63) : NoWrap m d := by
  refine h.imp_right fun h b k sizes hs => ?_
  have hbits : ∀ k, bitsSum (d.fields.take k) ≤ d.bits := fun k => bitsSum_take_le _ _
  have key : d.bits / 8 + sizes.sum < 2 ^ 63 ∧ (d.before m b k).lens = sizes.map .ok := by
    induction hs with
    | nil => exact ⟨h b 0 [] rfl, rfl⟩
    | @plain k f sizes _ hf hl ih =>
      have : (d.before m b (k + 1)).lens = sizes.map .ok := by rw [before_lens_succ_none hf hl, ih.2]
      exact ⟨h _ _ _ this, this⟩
    | @sized k f sizes e n _ hf hl he ih =>
      have hk : k < d.fields.length := (List.getElem?_eq_some_iff.mp hf).1
      have : (d.before m b (k + 1)).lens = (sizes ++ [n]).map .ok := by
        rw [before_lens_succ hf hl, ih.2, lenExpr_eq (by omega) ih.2 ?_ e, he, List.map_append]
        · rfl
        · rw [startOf_eq]
          have := hbits k
          have := ih.1
          omega
      exact ⟨h _ _ _ this, this⟩
  rw [fixedBits_eq]
  exact key.1

theorem new_bits {d : Decl} {buf : Buf} (hnew : (d.newPacket buf).isSome = true) :
    bitsSum d.fields ≤ 8 * buf.length := by
  have hb := minSize_bits d
  have hd : d.bits = bitsSum d.fields := rfl
  simp only [Decl.newPacket] at hnew
  split at hnew
  · omega
  · simp at hnew

theorem accepted_fields {d : Decl} (h : d.accepted = true) : acceptedFields 0 d.fields = true := by
  simp only [Decl.accepted, Bool.and_eq_true] at h; exact h.1

theorem decode_splice {pre post : List Bool} {P : Nat} {w : Wire} {ty : Ty} {v : Val}
    (hv : typed w ty v) (hvec : ty.isVec = false) (hP : pre.length = P) :
    decodeFixed (pre ++ encField w ty v ++ post) P ty = normField w ty v := by
  have key : ∀ (n v : Nat) (pre post : List Bool), bitSlice (pre ++ (toBits n v ++ post)) pre.length n = toBits n v := by
    intro n v pre post
    unfold bitSlice
    rw [List.drop_left, List.take_left' (toBits_length n v)]
  cases ty with
  | prim p =>
    cases v <;> simp only [typed] at hv
    subst hP
    simp only [decodeFixed, encField, normField, List.append_assoc, key, ofBits_toBits]
  | misc args =>
    cases v <;> simp only [typed] at hv
    rename_i ns
    subst hP
    simp only [decodeFixed, encField, normField, Val.nums.injEq]
    rw [List.append_assoc]
    induction args generalizing ns pre with
    | nil => simp [decodeInts]
    | cons p ps ih =>
      cases ns with
      | nil => simp at hv
      | cons n ns =>
        simp only [List.map_cons, decodeInts, List.zipWith_cons_cons, List.flatten_cons, List.append_assoc, key,
          ofBits_toBits, List.cons.injEq, true_and]
        have := ih (pre := pre ++ toBits p.size n) (ns := ns) rfl (by simpa using hv)
        simpa [List.append_assoc] using this
  | vecPrim p => simp [Ty.isVec] at hvec
  | vecPkt c => simp [Ty.isVec] at hvec

theorem new_len {d : Decl} {buf : Buf} (h : (d.newPacket buf).isSome = true) :
    d.minSize ≤ buf.length := by
  simp only [Decl.newPacket] at h
  split at h
  · assumption
  · simp at h

end Verif
