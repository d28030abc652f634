import Verif.Proofs.Options

/-! Writing packets that do not fit. -/

namespace Verif
open Spec

theorem copyInto_short {buf new : Buf} {a : Nat} (h : buf.length < a + new.length) :
    copyInto buf a new = panic := by
  rw [copyInto, if_neg (by omega)]

/-- The loop of a `Vec<packet>` setter: the exact result. -/
theorem setPackets_result {m : Mode} {c : Codec} {w : Wire} (hc : Lawful m c w) (hs : Strict m c w)
    (vs : List Val) (hv : ∀ v ∈ vs, w.valid v) (pre rest : Buf) (endOff : Nat)
    (hend : pre.length ≤ endOff) (hsl : SliceLen (pre ++ rest).length)
    (hen : SliceLen (pre.length + (vs.flatMap w.enc).length)) :
    setPackets m c endOff pre.length vs (pre ++ rest) =
      if pre.length + (vs.flatMap w.enc).length ≤ endOff ∧ (vs.flatMap w.enc).length ≤ rest.length
      then .ok (pre ++ vs.flatMap w.enc ++ rest.drop (vs.flatMap w.enc).length) else panic := by
  induction vs generalizing pre rest with
  | nil => simp [setPackets, hend]
  | cons v vs ih =>
    have hval := hv v (by simp)
    have hmin := hc.min v hval
    have hsl' := hsl
    have hen' := hen
    simp only [List.flatMap_cons, List.length_append] at hen hen' ⊢
    unfold SliceLen at hsl' hen'
    simp only [List.length_append] at hsl'
    have hs1 : SliceLen rest.length := by unfold SliceLen; omega
    rw [setPackets, sliceFrom, if_pos (by simp only [List.length_append]; omega), ok_bind,
      List.drop_left]
    by_cases hshort : rest.length < (w.enc v).length
    · rw [if_neg (c := _ ∧ _) (by omega)]
      by_cases hm : c.minSize ≤ rest.length
      · rw [if_pos hm, hs v rest hval (by unfold SliceLen; omega) hm hs1 hshort]; rfl
      · rw [if_neg hm]
    · have hlt : (w.enc v).length ≤ rest.length := by omega
      rw [if_pos (by omega), hc.pop v rest hval hlt hs1, ok_bind]
      dsimp only
      rw [List.take_left, hc.size v _ hval (by unfold SliceLen; simp; omega), ok_bind,
        uadd_ok (by unfold usizeCard; omega), ok_bind]
      by_cases he : pre.length + (w.enc v).length ≤ endOff
      · rw [if_pos he]
        have := ih (fun x hx => hv x (by simp [hx])) (pre ++ w.enc v) (rest.drop (w.enc v).length)
          (by rw [List.length_append]; exact he)
          (by unfold SliceLen; simp only [List.length_append, List.length_drop]; omega)
          (by unfold SliceLen; simp only [List.length_append]; omega)
        simp only [List.length_append, List.append_assoc, List.length_drop, List.drop_drop] at this
        rw [this]
        simp only [List.append_assoc, Nat.add_assoc]
        by_cases hc2 : pre.length + ((w.enc v).length + (vs.flatMap w.enc).length) ≤ endOff ∧
            (vs.flatMap w.enc).length ≤ rest.length - (w.enc v).length
        · rw [if_pos hc2, if_pos (by omega)]
        · rw [if_neg hc2, if_neg (by omega)]
      · rw [if_neg he, if_neg (by omega)]

/-- The setter of a vector that does not fit panics. -/
theorem set_short {m : Mode} {E : Nat → Wire} {d : Decl} {buf : Buf} (hsl : SliceLen buf.length)
    (hreg : regular d = true) (hlaw : LawfulElems m E d) (hstrict : StrictElems m E d) {vs : List Val}
    (htyped : typedFields E 0 d.fields vs) (hlens : lensAgree m E 0 [] d.fields vs) {k : Nat}
    {f : Field} {v : Val} (hf : d.fields[k]? = some f) (hv : vs[k]? = some v)
    (hvec : f.ty.isVec = true) {post : List Bool}
    (h : bitsOf buf = encFields E 0 (d.fields.take k) (vs.take k) ++ post)
    (hsz : SliceLen ((encFields E 0 d.fields vs).length / 8))
    (hshort : post.length < (encField (E k) f.ty v).length) :
    d.set m buf k v = panic := by
  have hk : k < d.fields.length := (List.getElem?_eq_some_iff.mp hf).1
  obtain ⟨hb, hszs⟩ := before_enc hsl hreg hlaw hk htyped
    (lensLocal_on post (lensLocal_take (lensLocal_of_agree hlens) k)) h
  generalize encSizes E 0 (d.fields.take k) (vs.take k) = sizes at hb hszs
  have hl := congrArg List.length h
  simp only [bitsOf_length, List.length_append] at hl
  have hsl' := hsl
  unfold SliceLen at hsl'
  have hsp := congrArg List.length (encFields_split E 0 d.fields vs k)
  rw [Nat.zero_add, drop_of_getElem? hf, drop_of_getElem? hv, encFields, List.length_append,
    List.length_append] at hsp
  unfold SliceLen at hsz
  have hco : curOff m (bitsSum (d.fields.take k)) (sizes.map .ok) =
      .ok (bitsSum (d.fields.take k) / 8 + sizes.sum) := curOff_ok (by unfold usizeCard; omega)
  have hregk := regularFields_drop hreg k
  have htk := typedFields_drop htyped k
  have hlk := lensAgree_drop hlens htyped k
  rw [Nat.zero_add] at hregk htk hlk
  rw [drop_of_getElem? hf] at hregk
  rw [drop_of_getElem? hf, drop_of_getElem? hv] at htk hlk
  rw [List.nil_append] at hlk
  simp only [regularFields, Bool.and_eq_true] at hregk
  obtain ⟨⟨⟨hplain, -⟩, hshape⟩, -⟩ := hregk
  have htv := htk.1
  rw [hvec, if_pos rfl] at hshape
  simp only [Bool.and_eq_true, beq_iff_eq] at hshape
  have hb8 := hshape.1
  have hlenv : ∀ e, f.len = some e → lenExpr m buf ⟨bitsSum (d.fields.take k), sizes.map .ok,
        (normFields E 0 (d.fields.take k) (vs.take k)).map .ok⟩ e =
          .ok ((encField (E k) f.ty v).length / 8) := by
    intro e he
    rw [lenExpr, env_eq_get]
    dsimp only
    rw [hco, ok_bind, sliceFrom, if_pos (by omega)]
    exact hlk.1 e he _
  rw [Decl.set, hf]
  dsimp only
  rw [hb]
  dsimp only
  cases hty : f.ty with
  | prim p => rw [hty] at hvec; cases hvec
  | misc args => rw [hty] at hvec; cases hvec
  | vecPrim p =>
    rw [hty] at hplain htv hlenv hshort
    cases v <;> simp only [typed] at htv
    rename_i ns
    simp only [plainTy, beq_iff_eq] at hplain
    simp only [encField, hplain, flatMap_toBits8, bitsOf_length, List.length_map] at hshort hlenv
    have hcp : copyInto buf (bitsSum (d.fields.take k) / 8 + sizes.sum) (ns.map UInt8.ofNat) = panic :=
      copyInto_short (by rw [List.length_map]; omega)
    dsimp only
    rw [hco, ok_bind]
    cases he : f.len with
    | none => simp only [if_true, hplain]; simpa using hcp
    | some e =>
      simp only []
      rw [hlenv e he, ok_bind, if_pos (by omega)]
      simpa [hplain] using hcp
  | vecPkt c =>
    rw [hty] at htv hlenv hshort hsp
    cases v <;> simp only [typed] at htv
    rename_i ws
    simp only [encField, bitsOf_length] at hshort hlenv hsp
    have hend : ∃ n, fieldLen m buf ⟨bitsSum (d.fields.take k), sizes.map .ok,
        (normFields E 0 (d.fields.take k) (vs.take k)).map .ok⟩ f = .ok n ∧
        (n = buf.length ∨ n = (ws.flatMap (E k).enc).length) := by
      cases he : f.len with
      | none => exact ⟨buf.length, by rw [fieldLen, he], .inl rfl⟩
      | some e =>
        refine ⟨_, ?_, .inr rfl⟩
        rw [fieldLen, he]
        dsimp only
        rw [hlenv e he]
        congr 1
        omega
    obtain ⟨n, hn, hn1⟩ := hend
    have htake : (buf.take (bitsSum (d.fields.take k) / 8 + sizes.sum)).length =
        bitsSum (d.fields.take k) / 8 + sizes.sum := by rw [List.length_take]; omega
    have key := setPackets_result (hlaw k f c hf hty) (hstrict k f c hf hty) ws htv
      (buf.take (bitsSum (d.fields.take k) / 8 + sizes.sum))
      (buf.drop (bitsSum (d.fields.take k) / 8 + sizes.sum))
      (bitsSum (d.fields.take k) / 8 + sizes.sum + n) (by rw [htake]; omega)
      (by rw [List.take_append_drop]; exact hsl)
      (by rw [htake]; unfold SliceLen; omega)
    rw [List.take_append_drop, htake, if_neg (by rw [List.length_drop]; omega)] at key
    dsimp only
    rw [hco, ok_bind, hn, ok_bind, uadd_ok (by unfold usizeCard; omega), ok_bind]
    exact key

theorem encFields_fixed_length {E : Nat → Wire} {fs : List Field} {vs : List Val} {i : Nat}
    (hfix : fs.all (fun f => !f.ty.isVec) = true) (htyped : typedFields E i fs vs) :
    (encFields E i fs vs).length = bitsSum fs := by
  induction fs generalizing i vs with
  | nil => simp [encFields, bitsSum]
  | cons f fs ih => cases vs with
    | nil => exact absurd htyped (by simp [typedFields])
    | cons v vs =>
      simp only [List.all_cons, Bool.and_eq_true, Bool.not_eq_true'] at hfix
      have := ih hfix.2 htyped.2
      simp only [encFields, List.length_append, encField_fixed_length htyped.1 hfix.1, this, bitsSum,
        List.map_cons, List.sum_cons]

/-- With the vectors last, the fields before a fixed-size field are of fixed size. -/
theorem vecsLast_before {fs : List Field} (h : vecsLast fs = true) {k : Nat} {f : Field}
    (hf : fs[k]? = some f) (hfix : f.ty.isVec = false) :
    (fs.take (k + 1)).all (fun f => !f.ty.isVec) = true := by
  induction fs generalizing k with
  | nil => simp at hf
  | cons g fs ih =>
    simp only [vecsLast] at h
    cases k with
    | zero =>
      simp only [List.getElem?_cons_zero, Option.some.injEq] at hf
      subst hf
      simp [hfix]
    | succ k =>
      simp only [List.getElem?_cons_succ] at hf
      cases hg : g.ty.isVec with
      | true =>
        rw [hg, if_pos rfl, List.all_eq_true] at h
        rw [h f (List.mem_of_getElem? hf)] at hfix
        cases hfix
      | false =>
        rw [hg, if_neg (by decide)] at h
        rw [List.take_succ_cons, List.all_cons, hg, ih h hf]
        rfl

theorem populateFrom_short {m : Mode} {E : Nat → Wire} {d : Decl} {vs : List Val}
    (hreg : regular d = true) (hlast : vecsLast d.fields = true) (hlaw : LawfulElems m E d)
    (hstrict : StrictElems m E d)
    (htyped : typedFields E 0 d.fields vs) (hlens : lensAgree m E 0 [] d.fields vs)
    (hsz : SliceLen ((encFields E 0 d.fields vs).length / 8))
    (k : Nat) (hk : k ≤ d.fields.length) (buf : Buf) (hsl : SliceLen buf.length)
    (hmin : bitsSum d.fields ≤ 8 * buf.length)
    (post : List Bool) (h : bitsOf buf = encFields E 0 (d.fields.take k) (vs.take k) ++ post)
    (hshort : 8 * buf.length < (encFields E 0 d.fields vs).length) :
    d.populateFrom m k (vs.drop k) buf = panic := by
  have hlen := typedFields_length htyped
  obtain ⟨n, hn⟩ : ∃ n, n = d.fields.length - k := ⟨_, rfl⟩
  induction n generalizing k buf post with
  | zero =>
    have : k = d.fields.length := by omega
    subst this
    have hl := congrArg List.length h
    rw [List.take_length, ← hlen, List.take_length, List.length_append, bitsOf_length] at hl
    omega
  | succ n ih =>
    have hk' : k < d.fields.length := by omega
    have hf : d.fields[k]? = some d.fields[k] := List.getElem?_eq_getElem hk'
    have hv : vs[k]? = some (vs[k]'(by omega)) := List.getElem?_eq_getElem (by omega)
    generalize d.fields[k] = f at hf
    generalize vs[k]'(by omega) = v at hv
    have htk := encFields_take_succ (E := E) hf hv
    have hl := congrArg List.length h
    rw [List.length_append, bitsOf_length] at hl
    rw [drop_of_getElem? hv, Decl.populateFrom]
    by_cases hfit : (encField (E k) f.ty v).length ≤ post.length
    · obtain ⟨b1, h1, h2, h3⟩ := set_enc hsl hreg hlaw htyped
        (fun tail => lensLocal_on _ (lensLocal_take (lensLocal_of_agree hlens) k)) hf hv
        (old := post.take (encField (E k) f.ty v).length)
        (post := post.drop (encField (E k) f.ty v).length)
        (by rw [h, List.append_assoc, List.take_append_drop])
        (by rw [List.length_take]; omega)
        (fun e he rest hrest => by
          have hlk := lensAgree_drop hlens htyped k
          rw [Nat.zero_add, drop_of_getElem? hf, drop_of_getElem? hv, List.nil_append] at hlk
          refine ⟨_, hlk.1 e he _, Nat.le_refl _, ?_⟩
          have hr := congrArg List.length hrest
          rw [List.take_append_drop, bitsOf_length] at hr
          omega)
      rw [h1, ok_bind]
      exact ih (k + 1) (by omega) b1 (by rw [h2]; exact hsl) (by rw [h2]; exact hmin) _
        (by rw [h3, htk]) (by rw [h2]; exact hshort) (by omega)
    · have hvec : f.ty.isVec = true := by
        cases hvec : f.ty.isVec with
        | true => rfl
        | false =>
          have h1 := encFields_fixed_length (vecsLast_before hlast hf hvec) (typedFields_take htyped (k + 1))
          have h2 := bitsSum_take_le d.fields (k + 1)
          rw [htk, List.length_append] at h1
          omega
      rw [set_short hsl hreg hlaw hstrict htyped hlens hf hv hvec h hsz (by omega)]
      rfl

/-- `populate` panics when the buffer is at least the minimum size but shorter than the encoding. -/
theorem populate_short {m : Mode} {E : Nat → Wire} {d : Decl} {vs : List Val}
    (hreg : regular d = true) (hlast : vecsLast d.fields = true) (hlaw : LawfulElems m E d)
    (hstrict : StrictElems m E d)
    (htyped : typedFields E 0 d.fields vs) (hlens : lensAgree m E 0 [] d.fields vs)
    (hsz : SliceLen ((encFields E 0 d.fields vs).length / 8)) (buf : Buf) (hsl : SliceLen buf.length)
    (hmin : d.minSize ≤ buf.length)
    (hshort : 8 * buf.length < (encFields E 0 d.fields vs).length) :
    d.populate m buf (.list vs) = panic := by
  rw [Decl.populate, if_pos (typedFields_length htyped)]
  have hm : bitsSum d.fields ≤ 8 * buf.length := by
    have : d.bits = bitsSum d.fields := rfl
    unfold Decl.minSize at hmin
    split at hmin <;> omega
  exact populateFrom_short hreg hlast hlaw hstrict htyped hlens hsz 0 (by omega) buf hsl hm
    (bitsOf buf) (by simp [encFields]) hshort

/-- A declaration with its vectors last is strict. -/
theorem strict_codec {m : Mode} {E : Nat → Wire} {d : Decl} (hreg : regular d = true)
    (hlast : vecsLast d.fields = true) (hbytes : d.bits % 8 = 0)
    (hlaw : LawfulElems m E d) (hstrict : StrictElems m E d) : Strict m d.codec (declWire m E d) := by
  rintro (_ | _ | vs) buf hv hsz hmin hsl hshort <;> simp only [declWire] at hv hsz hshort
  obtain ⟨n, hn⟩ := encFields_length hreg hv.1
  have hb : d.bits = bitsSum d.fields := rfl
  rw [packBits_length] at hshort hsz
  exact populate_short hreg hlast hlaw hstrict hv.1 hv.2 hsz buf hsl hmin (by omega)

theorem Inner.strict {d : Decl} (h : Inner d) (hlast : vecsLast d.fields = true) (m : Mode)
    (E : Nat → Wire) : Strict m d.codec (declWire m E d) :=
  strict_codec h.reg hlast h.bytes
    (fun _ f c hf hc => absurd hc (h.flat f (List.mem_of_getElem? hf) c))
    (fun _ f c hf hc => absurd hc (h.flat f (List.mem_of_getElem? hf) c))

/-- The setter of a vector of inner packets: the exact result. -/
theorem set_options_eq {d : Decl} {m : Mode} {buf : Buf} {k area : Nat} {f : Field} {d' : Decl}
    {vs : List Val} {bytes : Buf} {c : Nat} (hin : Inner d') (hlast : vecsLast d'.fields = true)
    (hf : d.fields[k]? = some f) (hty : f.ty = .vecPkt d'.codec)
    (hco : curOff m (d.before m buf k).bit (d.before m buf k).lens = .ok c) (hc : c ≤ buf.length)
    (hlen : fieldLen m buf (d.before m buf k) f = .ok area) (harea : c + area < 2 ^ 64)
    (hv : ∀ v ∈ vs, (declWire m noWire d').valid v)
    (hb : vs.flatMap (declWire m noWire d').enc = bytes)
    (hsl : SliceLen buf.length) (hsz : SliceLen (c + bytes.length)) :
    d.set m buf k (.list vs) = if bytes.length ≤ area ∧ c + bytes.length ≤ buf.length then
      .ok (buf.take c ++ bytes ++ buf.drop (c + bytes.length)) else panic := by
  have hsl' := hsl
  unfold SliceLen at hsl'
  rw [Decl.set, hf]
  simp only [hty, hco, ok_bind, hlen]
  rw [uadd_ok (by unfold usizeCard; omega), ok_bind]
  have hc' : (buf.take c).length = c := by rw [List.length_take]; omega
  have := setPackets_result (hin.lawful m noWire) (hin.strict hlast m noWire) vs hv (buf.take c)
    (buf.drop c) (c + area) (by rw [hc']; omega) (by rw [List.take_append_drop]; exact hsl)
    (by rw [hc', hb]; exact hsz)
  rw [List.take_append_drop, hc', hb, List.length_drop, List.drop_drop] at this
  rw [this]
  by_cases h : bytes.length ≤ area ∧ c + bytes.length ≤ buf.length
  · rw [if_pos h, if_pos (by omega)]
  · rw [if_neg h, if_neg (by omega)]

end Verif
