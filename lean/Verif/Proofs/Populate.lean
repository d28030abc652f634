import Verif.Proofs.Codec

/-! Writing whole packets. -/

namespace Verif
open Spec

theorem setArgs_enc {m : Mode} {lensOf : Buf → List (Res Nat)} {sizes : List Nat}
    {pre0 : List Bool} {n : Nat} (hn : SliceLen n)
    (hlens : ∀ b post, b.length = n → bitsOf b = pre0 ++ post → lensOf b = sizes.map .ok)
    (args : List Prim) (vs : List Nat) (hlen : vs.length = args.length)
    (hbig : args.all (·.endian == .big) = true) (bit : Nat)
    (hacc : acceptedArgs bit args = true) (buf : Buf) (hbl : buf.length = n)
    {done old post : List Bool} (h : bitsOf buf = pre0 ++ done ++ old ++ post)
    (hpre : (pre0 ++ done).length = bit + 8 * sizes.sum)
    (hold : old.length = (args.map (·.size)).sum) :
    ∃ new, setArgs m lensOf bit args vs buf = .ok new ∧ new.length = n ∧
      bitsOf new = pre0 ++ done ++ encArgs args vs ++ post := by
  induction args generalizing vs bit done old buf with
  | nil =>
    simp only [List.map_nil, List.sum_nil, List.length_eq_zero_iff] at hold
    subst hold
    exact ⟨buf, by rw [setArgs.eq_def], hbl, by simpa [encArgs] using h⟩
  | cons p ps ih =>
    cases vs with
    | nil => simp at hlen
    | cons v vs =>
      simp only [List.all_cons, Bool.and_eq_true, beq_iff_eq] at hbig
      simp only [acceptedArgs, Bool.and_eq_true] at hacc
      simp only [List.map_cons, List.sum_cons] at hold
      have hl := congrArg List.length h
      simp only [bitsOf_length, List.length_append] at hl
      unfold SliceLen at hn
      have hpre' := hpre
      simp only [List.length_append] at hpre'
      have hco : curOff m bit (sizes.map .ok) = .ok (bit / 8 + sizes.sum) :=
        curOff_ok (by unfold usizeCard; omega)
      obtain ⟨b1, h1, h2, h3⟩ := setPrim_enc hbig.1 hacc.1 (buf := buf) (pre := pre0 ++ done)
        (old := old.take p.size) (post := old.drop p.size ++ post) v (co := bit / 8 + sizes.sum)
        (by rw [h]; simp only [List.append_assoc]; rw [← List.append_assoc (old.take p.size), List.take_append_drop])
        (by omega) (by simp; omega)
      obtain ⟨new, h4, h5, h6⟩ := ih vs (by simpa using hlen) hbig.2 (bit + p.size) hacc.2 b1
        (by omega) (done := done ++ toBits p.size v) (old := old.drop p.size)
        (by rw [h3]; simp only [List.append_assoc]) (by simp; omega) (by simp; omega)
      refine ⟨new, ?_, h5, ?_⟩
      · rw [setArgs, hlens buf (done ++ old ++ post) hbl (by rw [h]; simp only [List.append_assoc]),
          hco, ok_bind, h1, ok_bind, h4]
      · rw [h6]; simp [encArgs, List.append_assoc]

theorem copyInto_enc {buf new : Buf} {pre old post : List Bool}
    (h : bitsOf buf = pre ++ old ++ post) {a : Nat} (ha : pre.length = 8 * a)
    (ho : old.length = 8 * new.length) :
    ∃ b, copyInto buf a new = .ok b ∧ b.length = buf.length ∧
      bitsOf b = pre ++ bitsOf new ++ post := by
  obtain ⟨h1, -, h3, h4⟩ := buf_split h ha ho
  refine ⟨_, by rw [copyInto, if_pos h4], ?_, ?_⟩
  · simp; omega
  · rw [bitsOf_append, bitsOf_append, h1, h3]

theorem setPackets_enc {m : Mode} {c : Codec} {w : Wire} (hc : Lawful m c w) (vs : List Val)
    (hv : ∀ v ∈ vs, w.valid v) (pre old post : Buf) (endOff : Nat)
    (hold : old.length = (vs.flatMap w.enc).length)
    (hend : pre.length + old.length ≤ endOff)
    (hsl : SliceLen (pre ++ old ++ post).length) :
    setPackets m c endOff pre.length vs (pre ++ old ++ post) =
      .ok (pre ++ vs.flatMap w.enc ++ post) := by
  induction vs generalizing pre old with
  | nil =>
    simp only [List.flatMap_nil, List.length_nil, List.length_eq_zero_iff] at hold
    subst hold
    simp [setPackets]
  | cons v vs ih =>
    have hval := hv v (by simp)
    have hmin := hc.min v hval
    simp only [List.flatMap_cons, List.length_append] at hold
    have hlt : (w.enc v).length ≤ (old ++ post).length := by simp; omega
    have hsl' := hsl
    unfold SliceLen at hsl'
    simp only [List.length_append] at hsl'
    have hs1 : SliceLen (old ++ post).length := by unfold SliceLen; simp; omega
    rw [setPackets, sliceFrom, if_pos (by simp only [List.length_append]; omega), ok_bind,
      List.append_assoc, List.drop_left, if_pos (by omega), hc.pop v (old ++ post) hval hlt hs1, ok_bind]
    dsimp only
    have hdrop : (old ++ post).drop (w.enc v).length = old.drop (w.enc v).length ++ post := by
      rw [List.drop_append_of_le_length (by omega)]
    rw [hdrop, List.take_left,
      hc.size v _ hval (by unfold SliceLen; simp; omega), ok_bind,
      uadd_ok (by unfold usizeCard; omega), ok_bind, if_pos (by omega)]
    have := ih (fun x hx => hv x (by simp [hx])) (pre ++ w.enc v) (old.drop (w.enc v).length)
      (by rw [List.length_drop]; omega) (by rw [List.length_append, List.length_drop]; omega)
      (by unfold SliceLen; simp only [List.length_append, List.length_drop]; omega)
    simp only [List.length_append, List.append_assoc] at this
    rw [this]
    simp [List.append_assoc]

/-! ## Length expressions that look at the field itself -/

/-- Every length expression gives the size of its field as long as the bytes from the field on start
with the field. -/
def lensLocal (m : Mode) (E : Nat → Wire) : (i : Nat) → (seen : List Val) → List Field → List Val → Prop
  | i, seen, f :: fs, v :: vs =>
    (∀ e, f.len = some e → ∀ (rest : Buf) (tail : List Bool),
      bitsOf rest = encField (E i) f.ty v ++ tail →
        e m (env seen) (.ok rest) = .ok ((encField (E i) f.ty v).length / 8)) ∧
      lensLocal m E (i + 1) (seen ++ [normField (E i) f.ty v]) fs vs
  | _, _, _, _ => True

theorem lensLocal_of_agree {m : Mode} {E : Nat → Wire} {i : Nat} {seen : List Val}
    {fs : List Field} {vs : List Val} (h : lensAgree m E i seen fs vs) :
    lensLocal m E i seen fs vs := by
  induction fs generalizing i vs seen with
  | nil => simp [lensLocal]
  | cons f fs ih => cases vs with
    | nil => simp [lensLocal]
    | cons v vs => exact ⟨fun e he rest _ _ => h.1 e he _, ih h.2⟩

theorem lensLocal_on {m : Mode} {E : Nat → Wire} (tail : List Bool) {i : Nat} {seen : List Val}
    {fs : List Field} {vs : List Val} (h : lensLocal m E i seen fs vs) :
    lensAgreeOn m E tail i seen fs vs := by
  induction fs generalizing i vs seen with
  | nil => simp [lensAgreeOn]
  | cons f fs ih => cases vs with
    | nil => simp [lensAgreeOn]
    | cons v vs => exact ⟨fun e he rest hr => h.1 e he rest _ (by rw [hr, List.append_assoc]), ih h.2⟩

theorem lensLocal_take {m : Mode} {E : Nat → Wire} {i : Nat} {seen : List Val}
    {fs : List Field} {vs : List Val} (h : lensLocal m E i seen fs vs) (k : Nat) :
    lensLocal m E i seen (fs.take k) (vs.take k) := by
  induction fs generalizing i vs seen k with
  | nil => simp [lensLocal]
  | cons f fs ih => cases vs with
    | nil => simp [lensLocal]
    | cons v vs => cases k with
      | zero => simp [lensLocal]
      | succ k => exact ⟨h.1, ih h.2 k⟩

/-- A setter replaces its field's bits, when the buffer starts with the encodings of the earlier
fields and the field's length is large enough. -/
theorem set_enc {m : Mode} {E : Nat → Wire} {d : Decl} {buf : Buf} (hsl : SliceLen buf.length)
    (hreg : regular d = true) (hlaw : LawfulElems m E d) {vs : List Val}
    (htyped : typedFields E 0 d.fields vs) {k : Nat} {f : Field} {v : Val}
    (hlens : ∀ tail, lensAgreeOn m E tail 0 [] (d.fields.take k) (vs.take k))
    (hf : d.fields[k]? = some f) (hv : vs[k]? = some v) {old post : List Bool}
    (h : bitsOf buf = encFields E 0 (d.fields.take k) (vs.take k) ++ old ++ post)
    (hold : old.length = (encField (E k) f.ty v).length)
    (hset : ∀ e, f.len = some e → ∀ rest : Buf, bitsOf rest = old ++ post →
      ∃ n, e m (env (normFields E 0 (d.fields.take k) (vs.take k))) (.ok rest) = .ok n ∧
        (encField (E k) f.ty v).length / 8 ≤ n ∧ n ≤ rest.length) :
    ∃ new, d.set m buf k v = .ok new ∧ new.length = buf.length ∧
      bitsOf new = encFields E 0 (d.fields.take k) (vs.take k) ++ encField (E k) f.ty v ++ post := by
  have hk : k < d.fields.length := (List.getElem?_eq_some_iff.mp hf).1
  have hbefore : ∀ (b : Buf) (rest : List Bool), b.length = buf.length →
      bitsOf b = encFields E 0 (d.fields.take k) (vs.take k) ++ rest →
      d.before m b k = ⟨bitsSum (d.fields.take k),
        (encSizes E 0 (d.fields.take k) (vs.take k)).map .ok,
        (normFields E 0 (d.fields.take k) (vs.take k)).map .ok⟩ ∧
      (encFields E 0 (d.fields.take k) (vs.take k)).length =
        bitsSum (d.fields.take k) + 8 * (encSizes E 0 (d.fields.take k) (vs.take k)).sum := by
    intro b rest hb hbits
    exact before_enc (by rw [hb]; exact hsl) hreg hlaw hk htyped
      (hlens _) hbits
  generalize encSizes E 0 (d.fields.take k) (vs.take k) = sizes at hbefore
  obtain ⟨hb, hsz⟩ := hbefore buf (old ++ post) rfl (by rw [h, List.append_assoc])
  have hl := congrArg List.length h
  simp only [bitsOf_length, List.length_append] at hl
  have hsl' := hsl
  unfold SliceLen at hsl'
  have hco : curOff m (bitsSum (d.fields.take k)) (sizes.map .ok) =
      .ok (bitsSum (d.fields.take k) / 8 + sizes.sum) := curOff_ok (by unfold usizeCard; omega)
  have hregk := regularFields_drop hreg k
  have htk := typedFields_drop htyped k
  rw [Nat.zero_add] at hregk htk
  rw [drop_of_getElem? hf] at hregk
  rw [drop_of_getElem? hf, drop_of_getElem? hv] at htk
  simp only [regularFields, Bool.and_eq_true] at hregk
  obtain ⟨⟨⟨hplain, hacc⟩, hshape⟩, -⟩ := hregk
  have htv := htk.1
  have hlenv : bitsSum (d.fields.take k) % 8 = 0 → ∀ e, f.len = some e →
      ∃ n, lenExpr m buf ⟨bitsSum (d.fields.take k), sizes.map .ok,
        (normFields E 0 (d.fields.take k) (vs.take k)).map .ok⟩ e = .ok n ∧
        (encField (E k) f.ty v).length / 8 ≤ n ∧ n ≤ buf.length := by
    intro hb8 e he
    obtain ⟨n, hn, h1, h2⟩ := hset e he (buf.drop (bitsSum (d.fields.take k) / 8 + sizes.sum)) (by
      rw [bitsOf_drop, h, show 8 * (bitsSum (List.take k d.fields) / 8 + sizes.sum) =
        (encFields E 0 (d.fields.take k) (vs.take k)).length by omega, List.append_assoc,
        List.drop_left])
    refine ⟨n, ?_, h1, by rw [List.length_drop] at h2; omega⟩
    rw [lenExpr, env_eq_get]
    dsimp only
    rw [hco, ok_bind, sliceFrom, if_pos (by omega)]
    exact hn
  rw [Decl.set, hf]
  dsimp only
  rw [hb]
  dsimp only
  cases hty : f.ty with
  | prim p =>
    rw [hty] at hplain hacc htv hold
    cases v <;> simp only [typed] at htv
    rename_i n
    simp only [plainTy, beq_iff_eq] at hplain
    simp only [Ty.accepted] at hacc
    simp only [encField, toBits_length] at hold ⊢
    obtain ⟨new, h1, h2, h3⟩ := setPrim_enc hplain hacc n h (co := bitsSum (d.fields.take k) / 8 + sizes.sum)
      (by omega) hold
    exact ⟨new, by rw [hco, ok_bind, h1], h2, h3⟩
  | misc args =>
    rw [hty] at hplain hacc htv hold
    cases v <;> simp only [typed] at htv
    rename_i ns
    simp only [plainTy] at hplain
    simp only [Ty.accepted, Bool.and_eq_true] at hacc
    simp only [encField] at hold ⊢
    rw [encArgs_length htv] at hold
    rw [if_pos htv]
    have hlensOf : ∀ b post, b.length = buf.length →
        bitsOf b = encFields E 0 (d.fields.take k) (vs.take k) ++ post →
        (d.before m b k).lens = sizes.map .ok := by
      intro b post hbl hbb
      rw [(hbefore b post hbl hbb).1]
    obtain ⟨new, h1, h2, h3⟩ := setArgs_enc (m := m)
      (lensOf := fun b => (d.before m b k).lens) hsl hlensOf args ns htv hplain
      (bitsSum (d.fields.take k)) hacc.2 buf rfl (done := []) (old := old) (post := post)
      (by simpa using h) (by simpa using hsz) hold
    exact ⟨new, h1, h2, by simpa using h3⟩
  | vecPrim p =>
    rw [hty] at hplain htv hold hlenv hshape
    cases v <;> simp only [typed] at htv
    rename_i ns
    simp only [plainTy, beq_iff_eq] at hplain
    rw [if_pos (by rfl)] at hshape
    simp only [Bool.and_eq_true, beq_iff_eq] at hshape
    have hb8 := hshape.1
    simp only [encField, hplain, flatMap_toBits8, bitsOf_length, List.length_map] at hold hlenv ⊢
    obtain ⟨new, h1, h2, h3⟩ := copyInto_enc (new := ns.map UInt8.ofNat) h
      (a := bitsSum (d.fields.take k) / 8 + sizes.sum) (by omega) (by simpa using hold)
    refine ⟨new, ?_, h2, h3⟩
    rw [hco, ok_bind]
    cases he : f.len with
    | none => simp only [if_true]; simpa using h1
    | some e =>
      simp only []
      obtain ⟨n, hn, h4, -⟩ := hlenv hb8 e he
      rw [hn, ok_bind, if_pos (by omega)]
      simpa using h1
  | vecPkt c =>
    rw [hty] at htv hold hlenv hshape
    cases v <;> simp only [typed] at htv
    rename_i ws
    rw [if_pos (by rfl)] at hshape
    simp only [Bool.and_eq_true, beq_iff_eq, Bool.or_eq_true] at hshape
    have hb8 := hshape.1
    simp only [encField, bitsOf_length] at hold hlenv ⊢
    obtain ⟨g1, g2, g3, g4⟩ := buf_split h (a := bitsSum (d.fields.take k) / 8 + sizes.sum)
      (b := (ws.flatMap (E k).enc).length) (by omega) (by omega)
    have hbuf : buf = buf.take (bitsSum (d.fields.take k) / 8 + sizes.sum) ++
        (buf.drop (bitsSum (d.fields.take k) / 8 + sizes.sum)).take (ws.flatMap (E k).enc).length ++
        buf.drop (bitsSum (d.fields.take k) / 8 + sizes.sum + (ws.flatMap (E k).enc).length) := by
      rw [List.append_assoc, ← List.drop_drop (j := bitsSum (d.fields.take k) / 8 + sizes.sum), List.take_append_drop, List.take_append_drop]
    have hend : ∃ n, fieldLen m buf ⟨bitsSum (d.fields.take k), sizes.map .ok,
        (normFields E 0 (d.fields.take k) (vs.take k)).map .ok⟩ f = .ok n ∧
        (ws.flatMap (E k).enc).length ≤ n ∧ n ≤ buf.length := by
      cases he : f.len with
      | none => exact ⟨buf.length, by rw [fieldLen, he], by omega, by omega⟩
      | some e =>
        obtain ⟨n, hn, h4, h5⟩ := hlenv hb8 e he
        refine ⟨n, ?_, by omega, h5⟩
        rw [fieldLen, he]
        dsimp only
        rw [hn]
    obtain ⟨n, hn, hn1, hn2⟩ := hend
    have key := setPackets_enc (hlaw k f c hf hty) ws htv
      (buf.take (bitsSum (d.fields.take k) / 8 + sizes.sum))
      ((buf.drop (bitsSum (d.fields.take k) / 8 + sizes.sum)).take (ws.flatMap (E k).enc).length)
      (buf.drop (bitsSum (d.fields.take k) / 8 + sizes.sum + (ws.flatMap (E k).enc).length))
      (bitsSum (d.fields.take k) / 8 + sizes.sum + n)
      (by rw [List.length_take, List.length_drop]; omega)
      (by rw [List.length_take, List.length_take, List.length_drop]; omega) (by rw [← hbuf]; exact hsl)
    rw [← hbuf, List.length_take, Nat.min_eq_left (by omega)] at key
    refine ⟨_, by rw [hco, ok_bind, hn, ok_bind, uadd_ok (by unfold usizeCard; omega), ok_bind]; exact key, ?_, ?_⟩
    · simp only [List.length_append, List.length_take, List.length_drop]; omega
    · rw [bitsOf_append, bitsOf_append, g1, g3]

/-! ## `populate` -/

theorem populateFrom_nil (d : Decl) (m : Mode) (k : Nat) (buf : Buf) :
    d.populateFrom m k [] buf = .ok buf := by rw [Decl.populateFrom]

theorem encFields_take_succ {E : Nat → Wire} {fs : List Field} {vs : List Val} {k : Nat} {f : Field}
    {v : Val} (hf : fs[k]? = some f) (hv : vs[k]? = some v) :
    encFields E 0 (fs.take (k + 1)) (vs.take (k + 1)) =
      encFields E 0 (fs.take k) (vs.take k) ++ encField (E k) f.ty v := by
  obtain ⟨hk, rfl⟩ := List.getElem?_eq_some_iff.mp hf
  obtain ⟨hk', rfl⟩ := List.getElem?_eq_some_iff.mp hv
  rw [encFields_split E 0 (fs.take (k + 1)) (vs.take (k + 1)) k, Nat.zero_add]
  rw [List.take_take, List.take_take, Nat.min_eq_left (by omega), List.drop_take, List.drop_take,
    show k + 1 - k = 1 by omega, List.drop_eq_getElem_cons hk, List.drop_eq_getElem_cons hk']
  simp only [List.take_succ_cons, List.take_zero, encFields, List.append_nil]

/-- The length expression of field `k`, on a buffer with the earlier fields already written over `bits`,
leaves space for the value of the field. -/
def Settable (m : Mode) (E : Nat → Wire) (d : Decl) (vs : List Val) (bits : List Bool) (k : Nat) : Prop :=
  ∀ f v e, d.fields[k]? = some f → vs[k]? = some v → f.len = some e → ∀ rest : Buf,
    bitsOf rest = bits.drop (encFields E 0 (d.fields.take k) (vs.take k)).length →
    ∃ n, e m (env (normFields E 0 (d.fields.take k) (vs.take k))) (.ok rest) = .ok n ∧
      (encField (E k) f.ty v).length / 8 ≤ n ∧ n ≤ rest.length

theorem populateFrom_enc {m : Mode} {E : Nat → Wire} {d : Decl} {vs : List Val}
    (hreg : regular d = true) (hlaw : LawfulElems m E d)
    (htyped : typedFields E 0 d.fields vs) (hlens : lensLocal m E 0 [] d.fields vs)
    (bits : List Bool) (j : Nat) (hj : j ≤ d.fields.length)
    (hset : ∀ k < j, Settable m E d vs bits k)
    (hfit : (encFields E 0 (d.fields.take j) (vs.take j)).length ≤ bits.length)
    (k : Nat) (hk : k ≤ j) (buf : Buf) (hsl : SliceLen buf.length)
    (h : bitsOf buf = encFields E 0 (d.fields.take k) (vs.take k) ++
      bits.drop (encFields E 0 (d.fields.take k) (vs.take k)).length) :
    ∃ new, d.populateFrom m k ((vs.take j).drop k) buf = .ok new ∧ new.length = buf.length ∧
      bitsOf new = encFields E 0 (d.fields.take j) (vs.take j) ++
        bits.drop (encFields E 0 (d.fields.take j) (vs.take j)).length := by
  have hlen := typedFields_length htyped
  obtain ⟨n, hn⟩ : ∃ n, n = j - k := ⟨_, rfl⟩
  induction n generalizing k buf with
  | zero =>
    have : k = j := by omega
    subst this
    refine ⟨buf, ?_, rfl, h⟩
    rw [List.drop_eq_nil_of_le (by rw [List.length_take]; omega), populateFrom_nil]
  | succ n ih =>
    have hk' : k < d.fields.length := by omega
    have hf : d.fields[k]? = some d.fields[k] := List.getElem?_eq_getElem hk'
    have hv : vs[k]? = some (vs[k]'(by omega)) := List.getElem?_eq_getElem (by omega)
    have hvj : (vs.take j)[k]? = some (vs[k]'(by omega)) := by
      rw [List.getElem?_take_of_lt (by omega), hv]
    have htk := encFields_take_succ (E := E) hf hv
    have hsp := congrArg List.length (encFields_split E 0 (d.fields.take j) (vs.take j) (k + 1))
    rw [List.length_append, List.take_take, List.take_take, Nat.min_eq_left (by omega), htk,
      List.length_append] at hsp
    obtain ⟨b1, h1, h2, h3⟩ := set_enc hsl hreg hlaw htyped
      (fun tail => lensLocal_on _ (lensLocal_take hlens k)) hf hv
      (old := (bits.drop (encFields E 0 (d.fields.take k) (vs.take k)).length).take
        (encField (E k) d.fields[k].ty (vs[k]'(by omega))).length)
      (post := (bits.drop (encFields E 0 (d.fields.take k) (vs.take k)).length).drop
        (encField (E k) d.fields[k].ty (vs[k]'(by omega))).length)
      (by rw [h, List.append_assoc, List.take_append_drop])
      (by rw [List.length_take, List.length_drop]; omega)
      (fun e he rest hrest => hset k (by omega) _ _ e hf hv he rest
        (by rw [hrest, List.take_append_drop]))
    obtain ⟨new, h4, h5, h6⟩ := ih (k + 1) (by omega) b1 (by rw [h2]; exact hsl)
      (by rw [h3, htk, List.drop_drop, List.length_append]) (by omega)
    refine ⟨new, ?_, by omega, h6⟩
    rw [drop_of_getElem? hvj, Decl.populateFrom, h1, ok_bind, h4]

/-- `populate` on a buffer where the length expressions allow the struct's vectors. -/
theorem populate_on {m : Mode} {E : Nat → Wire} {d : Decl} {vs : List Val}
    (hreg : regular d = true) (hlaw : LawfulElems m E d)
    (htyped : typedFields E 0 d.fields vs) (hlens : lensLocal m E 0 [] d.fields vs)
    (buf : Buf) (hsl : SliceLen buf.length) (hset : ∀ k, Settable m E d vs (bitsOf buf) k)
    (hfit : (encFields E 0 d.fields vs).length ≤ 8 * buf.length) :
    ∃ new, d.populate m buf (.list vs) = .ok new ∧ new.length = buf.length ∧
      bitsOf new = encFields E 0 d.fields vs ++
        (bitsOf buf).drop (encFields E 0 d.fields vs).length := by
  have hlen := typedFields_length htyped
  have e1 : d.fields.take d.fields.length = d.fields := List.take_length
  have e2 : vs.take d.fields.length = vs := by rw [← hlen, List.take_length]
  obtain ⟨new, h1, h2, h3⟩ := populateFrom_enc hreg hlaw htyped hlens (bitsOf buf) d.fields.length
    (Nat.le_refl _) (fun k _ => hset k) (by rw [e1, e2, bitsOf_length]; exact hfit) 0 (by omega) buf hsl
    (by simp [encFields])
  rw [e2] at h1
  rw [e1, e2] at h3
  refine ⟨new, ?_, h2, h3⟩
  rw [Decl.populate, if_pos hlen]
  simpa using h1

/-- Length expressions that do not look at the following bytes allow every setter. -/
theorem settable_of_agree {m : Mode} {E : Nat → Wire} {d : Decl} {vs : List Val} {bits : List Bool}
    (htyped : typedFields E 0 d.fields vs) (hlens : lensAgree m E 0 [] d.fields vs)
    (hfit : (encFields E 0 d.fields vs).length ≤ bits.length) (k : Nat) :
    Settable m E d vs bits k := by
  intro f v e hf hv he rest hrest
  have hlk := lensAgree_drop hlens htyped k
  rw [Nat.zero_add, drop_of_getElem? hf, drop_of_getElem? hv, List.nil_append] at hlk
  refine ⟨_, hlk.1 e he _, Nat.le_refl _, ?_⟩
  have hl := congrArg List.length hrest
  rw [bitsOf_length, List.length_drop] at hl
  have hsp := congrArg List.length (encFields_split E 0 d.fields vs k)
  rw [Nat.zero_add, drop_of_getElem? hf, drop_of_getElem? hv, encFields, List.length_append,
    List.length_append] at hsp
  omega

/-- `populate` writes the encoding and nothing else. -/
theorem populate_enc {m : Mode} {E : Nat → Wire} {d : Decl} {vs : List Val}
    (hreg : regular d = true) (hlaw : LawfulElems m E d)
    (htyped : typedFields E 0 d.fields vs) (hlens : lensAgree m E 0 [] d.fields vs)
    (buf : Buf) (hsl : SliceLen buf.length)
    (hfit : (encFields E 0 d.fields vs).length ≤ 8 * buf.length) :
    ∃ new, d.populate m buf (.list vs) = .ok new ∧ new.length = buf.length ∧
      bitsOf new = encFields E 0 d.fields vs ++
        (bitsOf buf).drop (encFields E 0 d.fields vs).length :=
  populate_on hreg hlaw htyped (lensLocal_of_agree hlens) buf hsl
    (settable_of_agree htyped hlens (by rw [bitsOf_length]; exact hfit)) hfit

/-! ## A declaration is a lawful inner packet type -/

theorem bitsOf_packBits {l : List Bool} (h : l.length % 8 = 0) : bitsOf (packBits l) = l := by
  obtain ⟨n, hn⟩ : ∃ n, l.length = 8 * n := ⟨l.length / 8, by omega⟩
  induction n generalizing l with
  | zero =>
    have : l = [] := List.length_eq_zero_iff.mp (by omega)
    subst this; rfl
  | succ n ih =>
    have h8 : (l.take 8).length = 8 := by rw [List.length_take]; omega
    have hd : (l.drop 8).length = 8 * n := by rw [List.length_drop]; omega
    have hp : packBits l = UInt8.ofNat (ofBits (l.take 8)) :: packBits (l.drop 8) := by
      rw [packBits, hn, show 8 * (n + 1) / 8 = n + 1 by omega, List.range_succ_eq_map, List.map_cons,
        List.map_map, packBits, hd, show 8 * n / 8 = n by omega]
      congr 1
      apply List.map_congr_left
      intro i _
      simp only [Function.comp, bitSlice, List.drop_drop, Nat.succ_eq_add_one]
      rw [show 8 * (i + 1) = 8 + 8 * i by omega]
    rw [hp, bitsOf_cons, ih (by omega) hd, byteBits_eq_toBits, UInt8.toNat_ofNat', toBits_mod]
    have := toBits_ofBits (l.take 8)
    rw [h8] at this
    rw [this, List.take_append_drop]

theorem packBits_length (l : List Bool) : (packBits l).length = l.length / 8 := by simp [packBits]

theorem encFields_length {E : Nat → Wire} {fs : List Field} {vs : List Val} {i bit : Nat}
    (hreg : regularFields bit fs = true) (htyped : typedFields E i fs vs) :
    ∃ n, (encFields E i fs vs).length = bitsSum fs + 8 * n := by
  induction fs generalizing i vs bit with
  | nil => exact ⟨0, by simp [encFields, bitsSum]⟩
  | cons f fs ih => cases vs with
    | nil => simp [typedFields] at htyped
    | cons v vs =>
      simp only [regularFields, Bool.and_eq_true] at hreg
      obtain ⟨n, hn⟩ := ih hreg.2 htyped.2
      simp only [bitsSum] at hn
      by_cases hvec : f.ty.isVec = true
      · obtain ⟨packet, hp⟩ := encField_vec_length htyped.1 hvec hreg.1.1.1
        refine ⟨n + packet.length, ?_⟩
        simp only [encFields, bitsSum, List.length_append, hp, bitsOf_length, List.map_cons,
          List.sum_cons, isVec_bits hvec, hn]
        omega
      · have hv : f.ty.isVec = false := by simpa using hvec
        refine ⟨n, ?_⟩
        simp only [encFields, bitsSum, List.length_append, List.map_cons, List.sum_cons, hn,
          encField_fixed_length htyped.1 hv]
        omega

/-- A regular declaration with declared lengths throughout is a lawful inner packet type. -/
theorem lawful_codec {m : Mode} {E : Nat → Wire} {d : Decl} (hreg : regular d = true)
    (hclosed : closed d = true) (hbytes : d.bits % 8 = 0) (hpos : 8 ≤ d.bits)
    (hlaw : LawfulElems m E d) : Lawful m d.codec (declWire m E d) := by
  have hmin : d.minSize = d.bits / 8 := by rw [Decl.minSize, if_pos hbytes]
  have hbits : ∀ vs, typedFields E 0 d.fields vs → ∃ n, (encFields E 0 d.fields vs).length = d.bits + 8 * n :=
    fun vs ht => encFields_length hreg ht
  have hpack : ∀ vs, typedFields E 0 d.fields vs →
      bitsOf (packBits (encFields E 0 d.fields vs)) = encFields E 0 d.fields vs := by
    intro vs ht
    obtain ⟨n, hn⟩ := hbits vs ht
    exact bitsOf_packBits (by omega)
  refine ⟨?_, ?_, ?_, ?_, ?_⟩
  · rintro (_ | _ | vs) hv <;> simp only [declWire] at hv ⊢
    obtain ⟨n, hn⟩ := hbits vs hv.1
    rw [packBits_length]; omega
  · rintro (_ | _ | vs) hv <;> simp only [declWire] at hv ⊢
    obtain ⟨n, hn⟩ := hbits vs hv.1
    rw [packBits_length]
    show d.minSize ≤ _
    omega
  · rintro (_ | _ | vs) tail hv hsl <;> simp only [declWire] at hv hsl ⊢
    rw [packBits_length]
    exact packetSize_enc hsl hreg hlaw hv.1 (lensAgree_on _ hv.2)
      (by rw [bitsOf_append, hpack vs hv.1]) hclosed
  · rintro (_ | _ | vs) tail hv hsl <;> simp only [declWire] at hv hsl ⊢
    exact fromPacket_enc hsl hreg hlaw hv.1 (lensAgree_on (bitsOf tail) hv.2)
      (by rw [bitsOf_append, hpack vs hv.1]) (.inl hclosed)
  · rintro (_ | _ | vs) buf hv hlen hsl <;> simp only [declWire] at hv hlen ⊢
    obtain ⟨n, hn⟩ := hbits vs hv.1
    rw [packBits_length] at hlen
    obtain ⟨new, h1, h2, h3⟩ := populate_enc hreg hlaw hv.1 hv.2 buf hsl (by omega)
    show d.populate m buf (.list vs) = _
    rw [h1]
    congr 1
    apply bitsOf_inj
    rw [h3, bitsOf_append, hpack vs hv.1, bitsOf_drop, packBits_length]
    congr 2
    omega

end Verif
