import Verif.Proofs.WriteBack
import Verif.Proofs.Trailing
import Verif.Proofs.Crate

/-! Writing the same value once more. -/

namespace Verif
open Spec

theorem setPrim_again {p : Prim} (hp : p.endian = .big) {s : Nat} (hacc : p.accepted s = true)
    {buf b1 x : Buf} {co v : Nat} (h : setPrim p s buf co v = .ok b1)
    (hx : Agree b1 x (8 * co + s + p.size)) : setPrim p s x co v = .ok x := by
  obtain ⟨h1, h2, h3⟩ := setPrim_inv hp hacc h
  obtain ⟨n, e⟩ := p
  dsimp only at hp hx h1 h3
  subst hp
  have hf : fits s n := accepted_fits hacc
  have hlen := hx.1
  have hnb := numBytes_bounds hf
  obtain ⟨new, g1, g2, g3⟩ := setPrim_big hf x co v (by omega)
  rw [g1]
  congr 1
  apply bitsOf_inj
  rw [g3]
  have hsl := hx.bitSlice (s := 8 * co + s) (n := n) (Nat.le_refl _)
  have hb : bitSlice (bitsOf b1) (8 * co + s) n = toBits n v := by
    rw [h3]
    unfold bitSlice
    have hl : ((bitsOf buf).take (8 * co + s)).length = 8 * co + s := by
      rw [List.length_take, bitsOf_length]; omega
    rw [List.append_assoc, List.drop_append_of_le_length (by omega), List.drop_eq_nil_of_le (by omega),
      List.nil_append, List.take_append_of_le_length (by rw [toBits_length]; omega),
      List.take_of_length_le (by rw [toBits_length]; omega)]
  rw [← hb, hsl]
  have hd := List.take_append_drop n ((bitsOf x).drop (8 * co + s))
  rw [List.drop_drop] at hd
  rw [bitSlice, List.append_assoc, hd, List.take_append_drop]

theorem setArgs_again {m : Mode} {lensOf : Buf → List (Res Nat)} {sizes : List Nat} {P : Nat}
    {buf0 : Buf} (hlens : ∀ b, Agree buf0 b P → lensOf b = sizes.map .ok)
    (args : List Prim) (vs : List Nat) (hlen : vs.length = args.length)
    (hbig : args.all (·.endian == .big) = true) (bit : Nat)
    (hacc : acceptedArgs bit args = true)
    (hnw : m = .debug ∨ (bit + (args.map (·.size)).sum) / 8 + sizes.sum < 2 ^ 63)
    {buf new x : Buf} (hag : Agree buf0 buf P) (hagx : Agree buf0 x P)
    (hP : P ≤ bit + 8 * sizes.sum) (h : setArgs m lensOf bit args vs buf = .ok new)
    (hx : Agree new x (bit + 8 * sizes.sum + (args.map (·.size)).sum)) :
    setArgs m lensOf bit args vs x = .ok x := by
  induction args generalizing vs bit buf with
  | nil => rw [setArgs.eq_def]
  | cons p ps ih =>
    cases vs with
    | nil => simp at hlen
    | cons v vs =>
      simp only [List.all_cons, Bool.and_eq_true, beq_iff_eq] at hbig
      simp only [acceptedArgs, Bool.and_eq_true] at hacc
      simp only [List.map_cons, List.sum_cons] at hnw hx
      rw [setArgs, hlens buf hag, bind_eq_ok] at h
      obtain ⟨co, hco, h⟩ := h
      have hc := curOff_inv (hnw.imp_right fun h => by omega) hco
      rw [bind_eq_ok] at h
      obtain ⟨b1, h1, h2⟩ := h
      obtain ⟨g1, g2, g3⟩ := setPrim_inv hbig.1 hacc.1 h1
      have w1 := within_of_bits (toBits_length _ _) g1 g2 g3
      have e : 8 * co + bit % 8 = bit + 8 * sizes.sum := by omega
      rw [e] at w1
      have w2 := setArgs_within hlens ps vs (by simpa using hlen) hbig.2 (bit + p.size) hacc.2
        (hnw.imp_right fun h => by omega) (buf := b1) (hag.trans (w1.agree.mono hP)) (by omega) h2
      have h3 := setPrim_again hbig.1 hacc.1 h1 (x := x)
        ((w2.agree.mono (by omega)).trans (hx.mono (by omega)))
      rw [setArgs, hlens x hagx, hco, ok_bind, h3, ok_bind]
      exact ih vs (by simpa using hlen) hbig.2 (bit + p.size) hacc.2 (hnw.imp_right fun h => by omega)
        (hag.trans (w1.agree.mono hP)) (by omega) h2 (hx.mono (by omega))

/-- What is needed of an inner packet type: `populate` changes nothing if the packet was written with
the same value, whatever comes after it. -/
def AgainC (m : Mode) (c : Codec) : Prop :=
  ∀ buf v new n x, SliceLen buf.length → c.populate m buf v = .ok new → c.packetSize m new = .ok n →
    x.length = new.length → x.take n = new.take n → c.populate m x v = .ok x ∧ c.packetSize m x = .ok n

theorem setPackets_again {m : Mode} {c : Codec} (hc : ConfinedC m c) (ha : AgainC m c) {endOff : Nat}
    (vs : List Val) {cur : Nat} {buf new x : Buf} (hsl : SliceLen buf.length)
    (h : setPackets m c endOff cur vs buf = .ok new) (hl : x.length = new.length)
    (hx : x.take endOff = new.take endOff) : setPackets m c endOff cur vs x = .ok x := by
  induction vs generalizing cur buf with
  | nil => rw [setPackets]
  | cons v vs ih =>
    have hall := setPackets_within hc (v :: vs) hsl h
    rw [setPackets, bind_eq_ok] at h
    obtain ⟨sub, h1, h2⟩ := h
    have hcur : cur ≤ buf.length ∧ sub = buf.drop cur := by
      rw [sliceFrom] at h1; split at h1
      · cases h1; exact ⟨by assumption, rfl⟩
      · simp at h1
    obtain ⟨hcur, rfl⟩ := hcur
    split at h2
    · rename_i hmin
      rw [bind_eq_ok] at h2
      obtain ⟨sub', h3, h4⟩ := h2
      dsimp only at h4
      rw [bind_eq_ok] at h4
      obtain ⟨size, h5, h6⟩ := h4
      rw [bind_eq_ok] at h6
      obtain ⟨cur', h7, h8⟩ := h6
      split at h8
      · rename_i hend
        unfold SliceLen at hsl
        have hsl' : SliceLen (buf.drop cur).length := by unfold SliceLen; rw [List.length_drop]; omega
        obtain ⟨g1, g2⟩ := hc.1 _ v sub' size hsl' h3 h5
        have hc' : cur' = cur + size := uadd_inv
          (hc.2.imp_right fun hh => by have := hh _ _ h5; omega) h7
        rw [List.length_drop] at g1
        have hbl : (buf.take cur ++ sub').length = buf.length := by
          rw [List.length_append, List.length_take]; omega
        have hslb : SliceLen (buf.take cur ++ sub').length := by rw [hbl]; exact hsl
        obtain ⟨i1, i2, i3⟩ := setPackets_within hc vs hslb h8
        have htl : (buf.take cur).length = cur := by rw [List.length_take]; omega
        -- the bytes of this packet in `x`
        have e1 : (x.drop cur).take size = sub'.take size := by
          have a1 : x.take cur' = new.take cur' := by
            have := congrArg (List.take cur') hx
            rwa [List.take_take, List.take_take, Nat.min_eq_left hend] at this
          rw [i2, hc'] at a1
          have a2 := congrArg (List.drop cur) a1
          rw [List.drop_take, List.drop_take, Nat.add_sub_cancel_left,
            List.drop_left' (l₁ := buf.take cur) (l₂ := sub') htl] at a2
          exact a2
        have hxl : x.length = buf.length := by omega
        obtain ⟨p1, p2⟩ := ha _ v sub' size (x.drop cur) hsl' h3 h5 (by rw [List.length_drop]; omega) e1
        rw [setPackets, sliceFrom, if_pos (by omega), ok_bind, if_pos (by
          rw [List.length_drop] at hmin ⊢; omega), p1, ok_bind]
        dsimp only
        rw [List.take_append_drop, p2, ok_bind, h7, ok_bind, if_pos hend]
        exact ih hslb h8
      · simp at h8
    · simp at h2

section
variable {m : Mode} {d : Decl} (hreg : regular d = true) (hloc : localLens d.fields)
  (hnw : NoWrap m d) (helem : ∀ f ∈ d.fields, ∀ c, f.ty = .vecPkt c → ConfinedC m c)
  (hagain : ∀ f ∈ d.fields, ∀ c, f.ty = .vecPkt c → AgainC m c)
include hreg hloc hnw helem hagain

theorem set_again {buf b1 x : Buf} (hsl : SliceLen buf.length) {k : Nat} {f : Field} {v : Val}
    (hf : d.fields[k]? = some f) (h : d.set m buf k v = .ok b1) {sizes : List Nat} {sz : Nat}
    (hs : (d.before m buf k).lens = sizes.map .ok)
    (hsz : ∀ e, f.len = some e → lenExpr m buf (d.before m buf k) e = .ok sz)
    (hx : Agree b1 x (bitsSum (d.fields.take k) + 8 * sizes.sum + f.ty.bits + 8 * sz))
    (hopen : f.len = none → f.ty.isVec = true → x = b1) : d.set m x k v = .ok x := by
  have hk : k < d.fields.length := (List.getElem?_eq_some_iff.mp hf).1
  have hregk := regularFields_drop hreg k
  rw [Nat.zero_add, drop_of_getElem? hf] at hregk
  simp only [regularFields, Bool.and_eq_true] at hregk
  obtain ⟨⟨⟨hplain, hacc⟩, hshape⟩, -⟩ := hregk
  have hcl := closedFields_take hreg hk
  have hbf := bitsSum_field_le hf
  have hdb : d.bits = bitsSum d.fields := rfl
  have hbit := before_bit d m buf k
  obtain ⟨sizes', sz', q1, -, -, w⟩ := set_within hreg hloc hnw helem hsl hf h
  have : sizes' = sizes := map_ok_inj (q1.symm.trans hs)
  subst this
  have hagx : Agree buf x (bitsSum (d.fields.take k) + 8 * sizes'.sum) := w.agree.trans (hx.mono (by omega))
  have hst := before_stable hreg hloc hsl hcl hs hagx
  have hxl : x.length = buf.length := hagx.1.symm
  have hn : m = .debug ∨ d.bits / 8 + sizes'.sum < 2 ^ 63 := hnw.lens.imp_right fun hh => hh buf k sizes' hs
  have hlx : ∀ e, f.len = some e → lenExpr m x (d.before m buf k) e = .ok sz := by
    intro e he
    rw [← hsz e he, lenExpr, lenExpr]
    exact hloc f (List.mem_of_getElem? hf) e he _ _ _ _
  have hoff : ∀ co, curOff m (d.before m buf k).bit (d.before m buf k).lens = .ok co →
      co = bitsSum (d.fields.take k) / 8 + sizes'.sum := by
    intro co hco
    rw [hs, hbit] at hco
    exact curOff_inv (hn.imp_right fun h => by omega) hco
  rw [Decl.set, hf] at h ⊢
  dsimp only at h ⊢
  rw [← hst]
  cases hty : f.ty with
  | prim p =>
    rw [hty] at h hplain hacc hbf hx
    cases v <;> simp only [] at h <;> first | (simp at h; done) | skip
    rw [bind_eq_ok] at h
    obtain ⟨co, hco, h⟩ := h
    simp only [plainTy, beq_iff_eq] at hplain
    simp only [Ty.accepted] at hacc
    simp only [Ty.bits] at hx
    dsimp only
    rw [hco, ok_bind]
    have := hoff co hco
    rw [hbit] at h ⊢
    exact setPrim_again hplain hacc h (hx.mono (by omega))
  | misc args =>
    rw [hty] at h hplain hacc hbf hx
    cases v <;> simp only [] at h <;> first | (simp at h; done) | skip
    rename_i ns
    simp only [plainTy] at hplain
    simp only [Ty.accepted, Bool.and_eq_true] at hacc
    simp only [Ty.bits] at hx hbf
    split at h
    · rename_i hlen
      dsimp only
      rw [if_pos hlen]
      rw [hbit] at h ⊢
      exact setArgs_again (P := bitsSum (d.fields.take k) + 8 * sizes'.sum) (buf0 := buf)
        (fun b hb => by rw [← before_stable hreg hloc hsl hcl hs hb, hs]) args ns hlen hplain _
        hacc.2 (hn.imp_right fun h => by omega) (Agree.refl _ _) hagx (Nat.le_refl _) h (hx.mono (by omega))
    · simp at h
  | vecPrim p =>
    rw [hty] at h hplain hacc hshape hx hopen
    cases v <;> simp only [] at h <;> first | (simp at h; done) | skip
    rename_i ns
    simp only [plainTy, beq_iff_eq] at hplain
    rw [if_pos (by rfl)] at hshape
    simp only [Bool.and_eq_true, beq_iff_eq] at hshape
    rw [bind_eq_ok] at h
    obtain ⟨co, hco, h⟩ := h
    have hcoe := hoff co hco
    have hP : 8 * co = bitsSum (d.fields.take k) + 8 * sizes'.sum := by omega
    have key : (f.len = none ∨ ns.length ≤ sz) → copyInto buf co (ns.map UInt8.ofNat) = .ok b1 →
        copyInto x co (ns.map UInt8.ofNat) = .ok x := by
      intro hns hcp
      rw [copyInto] at hcp ⊢
      split at hcp
      · rename_i hle
        rw [if_pos (by omega)]
        have hin : (b1.drop co).take ns.length = ns.map UInt8.ofNat := by
          cases hcp
          have htl : (buf.take co).length = co := by rw [List.length_take]; omega
          rw [List.append_assoc, List.drop_append_of_le_length (by omega), List.drop_eq_nil_of_le (by omega),
            List.nil_append, List.take_append_of_le_length (by rw [List.length_map]; omega),
            List.take_of_length_le (by rw [List.length_map]; omega)]
        have hxin : (x.drop co).take ns.length = ns.map UInt8.ofNat := by
          rcases hns with hno | hns
          · rw [hopen hno rfl, hin]
          · rw [← hin]
            exact (hx.bytes (x := co) (n := ns.length) (by simp only [Ty.bits]; omega)).symm
        rw [← hxin, List.length_take, List.length_drop]
        rw [List.length_map] at hle
        rw [Nat.min_eq_left (by omega), List.append_assoc, ← List.drop_drop, List.take_append_drop,
          List.take_append_drop]
      · simp at hcp
    rw [if_pos hplain] at h
    dsimp only
    rw [hco, ok_bind, if_pos hplain]
    cases he : f.len with
    | none =>
      rw [he] at h
      exact key (.inl he) (by simpa using h)
    | some e =>
      rw [he] at h
      dsimp only at h ⊢
      rw [bind_eq_ok] at h
      obtain ⟨len, hlen, h⟩ := h
      have : len = sz := by rw [hsz e he] at hlen; cases hlen; rfl
      subst this
      rw [hlx e he, ok_bind]
      split at h
      · rename_i hle
        rw [if_pos hle]
        exact key (.inr hle) (by simpa using h)
      · simp at h
  | vecPkt c =>
    rw [hty] at h hplain hacc hshape hx hopen
    cases v <;> simp only [] at h <;> first | (simp at h; done) | skip
    rename_i vs
    rw [if_pos (by rfl)] at hshape
    simp only [Bool.and_eq_true, beq_iff_eq] at hshape
    rw [bind_eq_ok] at h
    obtain ⟨co, hco, h⟩ := h
    have hcoe := hoff co hco
    rw [bind_eq_ok] at h
    obtain ⟨len, hlen, h⟩ := h
    rw [bind_eq_ok] at h
    obtain ⟨endOff, hend, h⟩ := h
    have hb1 : b1.length = buf.length := w.1
    have hlenx : fieldLen m x (d.before m buf k) f = .ok len := by
      rw [← hlen, fieldLen, fieldLen]
      cases he : f.len with
      | none => dsimp only; rw [hxl]
      | some e => dsimp only; rw [hlx e he, hsz e he]
    dsimp only
    rw [hco, ok_bind, hlenx, ok_bind, hend, ok_bind]
    refine setPackets_again (helem f (List.mem_of_getElem? hf) c hty) (hagain f (List.mem_of_getElem? hf) c hty)
      vs hsl h (by omega) ?_
    cases he : f.len with
    | none => rw [hopen he rfl]
    | some e =>
      have hle : len = sz := by
        rw [fieldLen, he] at hlen
        dsimp only at hlen
        rw [hsz e he] at hlen; cases hlen; rfl
      subst hle
      have hnx : (d.before m buf (k + 1)).lens = (sizes' ++ [len]).map .ok := by
        rw [before_succ hf, St.step, he]
        dsimp only
        rw [hs, hsz e he]; simp
      have hsum : endOff = co + len := by
        refine uadd_inv (hnw.lens.imp_right fun hh => ?_) hend
        have := hh buf (k + 1) _ hnx
        rw [List.sum_append, List.sum_cons, List.sum_nil] at this
        omega
      have := hx.bytes (x := 0) (n := endOff) (by simp only [Ty.bits]; omega)
      simpa using this.symm

omit hagain in
/-- The state before the next field after a setter, unless the field is open. -/
theorem before_after_set {buf b1 : Buf} (hsl : SliceLen buf.length) {k : Nat} {f : Field} {v : Val}
    (hf : d.fields[k]? = some f) (h : d.set m buf k v = .ok b1)
    (hcl : f.ty.isVec = true → f.len.isSome = true) :
    ∃ (sizes : List Nat) (sz : Nat) (sizes1 : List Nat), (d.before m buf k).lens = sizes.map .ok ∧
      (∀ e, f.len = some e → lenExpr m buf (d.before m buf k) e = .ok sz) ∧
      Within buf b1 (bitsSum (d.fields.take k) + 8 * sizes.sum)
        (bitsSum (d.fields.take k) + 8 * sizes.sum + f.ty.bits + 8 * sz) ∧
      (d.before m b1 (k + 1)).lens = sizes1.map .ok ∧ sizes1.sum = sizes.sum + sz := by
  have hk' : k < d.fields.length := (List.getElem?_eq_some_iff.mp hf).1
  obtain ⟨sizes, sz, hs, g2, g3, w⟩ := set_within hreg hloc hnw helem hsl hf h
  have hst := before_stable hreg hloc hsl (closedFields_take hreg hk') hs w.agree
  have hsz : ∃ sizes1 : List Nat, (d.before m b1 (k + 1)).lens = sizes1.map .ok ∧
      sizes1.sum = sizes.sum + sz := by
    rw [before_succ hf, St.step, ← hst]
    cases he : f.len with
    | none =>
      have hv : f.ty.isVec = false := by
        cases hv : f.ty.isVec with
        | false => rfl
        | true => have := hcl hv; rw [he] at this; simp at this
      exact ⟨sizes, hs, by rw [g2 he hv]; rfl⟩
    | some e =>
      refine ⟨sizes ++ [sz], ?_, by simp⟩
      dsimp only
      have : lenExpr m b1 (d.before m buf k) e = .ok sz := by
        rw [← g3 e he, lenExpr, lenExpr]
        exact hloc f (List.mem_of_getElem? hf) e he _ _ _ _
      rw [hs, this]; simp
  obtain ⟨sizes1, hs1, hsum1⟩ := hsz
  exact ⟨sizes, sz, sizes1, hs, g3, w, hs1, hsum1⟩

omit hloc hnw helem hagain in
/-- A field before the last is not open. -/
theorem not_open {k : Nat} {f : Field} (hf : d.fields[k]? = some f) (hk : k + 1 < d.fields.length) :
    f.ty.isVec = true → f.len.isSome = true := by
  have := closedFields_take hreg hk f
  rw [List.take_add_one, hf] at this
  exact this (by simp)

omit hagain in
theorem populateFrom_agree (vs : List Val) (k : Nat) (hk : k + vs.length = d.fields.length)
    {buf new : Buf} (hsl : SliceLen buf.length) (h : d.populateFrom m k vs buf = .ok new)
    {sizes : List Nat} (hs : (d.before m buf k).lens = sizes.map .ok) :
    Agree buf new (bitsSum (d.fields.take k) + 8 * sizes.sum) := by
  induction vs generalizing k buf sizes with
  | nil => rw [populateFrom_nil] at h; cases h; exact Agree.refl _ _
  | cons v vs ih =>
    simp only [List.length_cons] at hk
    have hk' : k < d.fields.length := by omega
    have hf : d.fields[k]? = some d.fields[k] := List.getElem?_eq_getElem hk'
    generalize d.fields[k] = f at hf
    rw [Decl.populateFrom, bind_eq_ok] at h
    obtain ⟨b1, h1, h2⟩ := h
    cases hvs : vs with
    | nil =>
      subst hvs
      rw [populateFrom_nil] at h2; cases h2
      obtain ⟨sizes0, sz, g1, -, -, w⟩ := set_within hreg hloc hnw helem hsl hf h1
      have : sizes0 = sizes := map_ok_inj (g1.symm.trans hs)
      subst this
      exact w.agree
    | cons v' vs' =>
      have hlen : vs.length = vs'.length + 1 := by rw [hvs]; rfl
      obtain ⟨sizes0, sz, sizes1, g1, -, w, g2, g3⟩ := before_after_set hreg hloc hnw helem hsl hf h1
        (not_open hreg hf (by omega))
      have : sizes0 = sizes := map_ok_inj (g1.symm.trans hs)
      subst this
      have hbs := bitsSum_take_succ hf
      have := ih (k + 1) (by omega) (by have := w.1; rw [this]; exact hsl) h2 g2
      exact w.agree.trans (this.mono (by omega))

theorem populateFrom_again (vs : List Val) (k : Nat) (hk : k + vs.length = d.fields.length)
    {buf new x : Buf} (hsl : SliceLen buf.length) (h : d.populateFrom m k vs buf = .ok new)
    (hx : ∀ j f (sizes : List Nat), d.fields[j]? = some f → (f.ty.isVec = true → f.len.isSome = true) →
      (d.before m new (j + 1)).lens = sizes.map .ok →
      Agree new x (bitsSum (d.fields.take (j + 1)) + 8 * sizes.sum))
    (hopen : closed d = false → x = new) : d.populateFrom m k vs x = .ok x := by
  induction vs generalizing k buf with
  | nil => rw [populateFrom_nil]
  | cons v vs ih =>
    simp only [List.length_cons] at hk
    have hk' : k < d.fields.length := by omega
    have hf : d.fields[k]? = some d.fields[k] := List.getElem?_eq_getElem hk'
    generalize d.fields[k] = f at hf
    rw [Decl.populateFrom, bind_eq_ok] at h
    obtain ⟨b1, h1, h2⟩ := h
    have hbs := bitsSum_take_succ hf
    have hset : d.set m x k v = .ok x := by
      by_cases hop : f.ty.isVec = true ∧ f.len = none
      · have hvs : vs = [] := by
          cases vs with
          | nil => rfl
          | cons a l =>
            have := not_open hreg hf (by simp only [List.length_cons] at hk; omega) hop.1
            rw [hop.2] at this; cases this
        subst hvs
        rw [populateFrom_nil] at h2; cases h2
        have hnc : closed d = false := by
          cases hc : closed d with
          | false => rfl
          | true =>
            have := closed_fields hc f (List.mem_of_getElem? hf) hop.1
            rw [hop.2] at this; cases this
        obtain ⟨sizes0, sz, g1, -, g3, w⟩ := set_within hreg hloc hnw helem hsl hf h1
        exact set_again hreg hloc hnw helem hagain hsl hf h1 g1 g3
          (by rw [hopen hnc]; exact Agree.refl _ _) (fun _ _ => hopen hnc)
      · have hcl : f.ty.isVec = true → f.len.isSome = true := by
          intro hv
          cases he : f.len with
          | none => exact absurd ⟨hv, he⟩ hop
          | some e => rfl
        obtain ⟨sizes0, sz, sizes1, g1, g3, w, g4, g5⟩ := before_after_set hreg hloc hnw helem hsl hf h1 hcl
        have hsl1 : SliceLen b1.length := by have := w.1; rw [this]; exact hsl
        have hag := populateFrom_agree hreg hloc hnw helem vs (k + 1) (by omega) hsl1 h2 g4
        have hst := before_stable hreg hloc hsl1 (closedFields_upTo hreg hf hcl) g4 hag
        have := hx k f sizes1 hf hcl (by rw [← hst]; exact g4)
        exact set_again hreg hloc hnw helem hagain hsl hf h1 g1 g3 ((hag.trans this).mono (by omega))
          (fun he hv => absurd ⟨hv, he⟩ hop)
    rw [Decl.populateFrom, hset, ok_bind]
    have w1 : b1.length = buf.length := by
      obtain ⟨_, _, _, _, _, w⟩ := set_within hreg hloc hnw helem hsl hf h1
      exact w.1
    exact ih (k + 1) (by omega) (by rw [w1]; exact hsl) h2

theorem populate_again {buf new : Buf} {v : Val} (hsl : SliceLen buf.length)
    (h : d.populate m buf v = .ok new) : d.populate m new v = .ok new := by
  cases v <;> simp only [Decl.populate] at h ⊢ <;> first | (simp at h; done) | skip
  split at h
  · rename_i hl
    rw [if_pos hl]
    exact populateFrom_again hreg hloc hnw helem hagain _ 0 (by omega) hsl h
      (fun _ _ _ _ _ _ => Agree.refl _ _) (fun _ => rfl)
  · simp at h

theorem againC (hclosed : closed d = true) (hbytes : d.bits % 8 = 0) : AgainC m d.codec := by
  intro buf v new n x hsl h hn hl hx
  have hlen := ((confined_codec hreg hloc hnw helem hclosed hbytes).1 buf v new n hsl h hn).1
  have hsln : SliceLen new.length := by rw [hlen]; exact hsl
  by_cases hnl : n ≤ new.length
  · have hsame : SameBits new x (8 * n) := by
      refine ⟨by omega, by omega, ?_⟩
      rw [← bitsOf_take, ← bitsOf_take, hx]
    refine ⟨?_, packetSize_sameBits hreg hloc hnw hbytes hsln hn hsame hclosed⟩
    change d.populate m buf v = .ok new at h
    change d.populate m x v = .ok x
    cases v <;> simp only [Decl.populate] at h ⊢ <;> first | (simp at h; done) | skip
    split at h
    · rename_i hl'
      rw [if_pos hl']
      refine populateFrom_again hreg hloc hnw helem hagain _ 0 (by omega) hsl h ?_
        (fun hc => by rw [hclosed] at hc; cases hc)
      intro j f sizes hf hcl hs
      have hj : j < d.fields.length := (List.getElem?_eq_some_iff.mp hf).1
      obtain ⟨-, sizes', h1, h2⟩ := before_same_size hreg hloc hnw hbytes hsln hn hsame (k := j + 1)
        (by omega) (closedFields_upTo hreg hf hcl)
      have : sizes' = sizes := map_ok_inj (h1.symm.trans hs)
      subst this
      have hle : bitsSum (d.fields.take (j + 1)) ≤ d.bits := bitsSum_take_le _ _
      obtain ⟨all, hall, hn'⟩ := packetSize_sum hnw hn
      rw [final_eq_before] at hall
      obtain ⟨rest, hr⟩ := lens_prefix (d := d) (m := m) (buf := new) (j := j + 1) (k := d.fields.length)
        (by omega) (Nat.le_refl _)
      rw [hall] at hr
      obtain ⟨s, t, e1, -, rfl⟩ := map_ok_append hr
      have : s = sizes' := map_ok_inj (e1.symm.trans hs)
      subst this
      rw [List.sum_append] at hn'
      exact ⟨hl.symm, (hsame.mono (by omega)).2.2⟩
    · simp at h
  · have : x = new := by
      rwa [List.take_of_length_le (by omega), List.take_of_length_le (by omega)] at hx
    subst this
    exact ⟨populate_again hreg hloc hnw helem hagain hsl h, hn⟩

end

end Verif
