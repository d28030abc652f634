import Verif.Proofs.Derive

/-! Reading back and writing whole packets. -/

namespace Verif
open Spec

/-- Fixed bits of a field list. -/
abbrev bitsSum (fs : List Field) : Nat := (fs.map (·.ty.bits)).sum

theorem env_eq_get (bit : Nat) (lens : List (Res Nat)) (seen : List Val) :
    (St.mk bit lens (seen.map .ok)).get = env seen := by
  funext i
  simp only [St.get, env, List.getElem?_map]
  cases seen[i]? <;> rfl

theorem isVec_bits {ty : Ty} (h : ty.isVec = true) : ty.bits = 0 := by
  cases ty <;> simp [Ty.isVec] at h <;> rfl

/-- A list of fields, each variable-length one with a declared length. -/
def closedFields (fs : List Field) : Prop := ∀ f ∈ fs, f.ty.isVec = true → f.len.isSome = true

/-- Inner packet types are lawful. -/
def lawfulFrom (m : Mode) (E : Nat → Wire) (i : Nat) (fs : List Field) : Prop :=
  ∀ j f c, fs[j]? = some f → f.ty = .vecPkt c → Lawful m c (E (i + j))

theorem lawfulFrom_cons {m : Mode} {E : Nat → Wire} {i : Nat} {f : Field} {fs : List Field}
    (h : lawfulFrom m E i (f :: fs)) :
    (∀ c, f.ty = .vecPkt c → Lawful m c (E i)) ∧ lawfulFrom m E (i + 1) fs := by
  refine ⟨fun c hc => h 0 f c rfl hc, fun j g c hg hc => ?_⟩
  have := h (j + 1) g c (by simpa using hg) hc
  rwa [show i + (j + 1) = i + 1 + j by omega] at this

/-- Byte sizes of the fields with a declared length. -/
def encSizes (E : Nat → Wire) : (i : Nat) → List Field → List Val → List Nat
  | i, f :: fs, v :: vs =>
    (if f.len.isSome then [(encField (E i) f.ty v).length / 8] else []) ++ encSizes E (i + 1) fs vs
  | _, _, _ => []

/-- Reading the fields of an encoding (the macro's loop over a list of fields with declared
lengths). -/
theorem run_enc {m : Mode} {E : Nat → Wire} {buf : Buf} (hsl : SliceLen buf.length)
    (fs : List Field) (vs : List Val) (i bit : Nat) (sizes : List Nat) (seen : List Val)
    (pre tail : List Bool)
    (hreg : regularFields bit fs = true) (hclosed : closedFields fs)
    (hlaw : lawfulFrom m E i fs) (htyped : typedFields E i fs vs)
    (hlens : lensAgreeOn m E tail i seen fs vs)
    (h : bitsOf buf = pre ++ encFields E i fs vs ++ tail)
    (hpre : pre.length = bit + 8 * sizes.sum) :
    St.run m buf ⟨bit, sizes.map .ok, seen.map .ok⟩ fs =
        ⟨bit + bitsSum fs, (sizes ++ encSizes E i fs vs).map .ok,
          (seen ++ normFields E i fs vs).map .ok⟩ ∧
      (encFields E i fs vs).length = bitsSum fs + 8 * (encSizes E i fs vs).sum := by
  induction fs generalizing vs i bit sizes seen pre with
  | nil =>
    cases vs with
    | nil => simp [St.run, normFields, encFields, bitsSum, encSizes]
    | cons v vs => simp [typedFields] at htyped
  | cons f fs ih =>
    cases vs with
    | nil => simp [typedFields] at htyped
    | cons v vs =>
      obtain ⟨htv, htvs⟩ := htyped
      obtain ⟨hlen, hlens⟩ := hlens
      obtain ⟨hlf, hlaw⟩ := lawfulFrom_cons hlaw
      simp only [regularFields, Bool.and_eq_true] at hreg
      obtain ⟨⟨⟨hplain, hacc⟩, hshape⟩, hreg⟩ := hreg
      simp only [encFields] at h
      have hcl : closedFields fs := fun g hg => hclosed g (List.mem_cons_of_mem _ hg)
      have hl := congrArg List.length h
      simp only [bitsOf_length, List.length_append] at hl
      have hsl' := hsl
      unfold SliceLen at hsl'
      have hco : curOff m bit (sizes.map .ok) = .ok (bit / 8 + sizes.sum) :=
        curOff_ok (by unfold usizeCard; omega)
      have h' : bitsOf buf =
          pre ++ encField (E i) f.ty v ++ (encFields E (i + 1) fs vs ++ tail) := by
        rw [h]; simp only [List.append_assoc]
      have h'' : bitsOf buf =
          (pre ++ encField (E i) f.ty v) ++ encFields E (i + 1) fs vs ++ tail := by
        rw [h]; simp only [List.append_assoc]
      by_cases hvec : f.ty.isVec = true
      · -- variable-length field
        have hsome := hclosed f (by simp) hvec
        obtain ⟨e, he⟩ := Option.isSome_iff_exists.mp hsome
        rw [hvec, if_pos rfl] at hshape
        simp only [Bool.and_eq_true, beq_iff_eq] at hshape
        have hb8 := hshape.1
        obtain ⟨packet, hpk⟩ := encField_vec_length htv hvec hplain
        have hdiv : (encField (E i) f.ty v).length = 8 * ((encField (E i) f.ty v).length / 8) := by
          rw [hpk, bitsOf_length]; omega
        have hrest : bitsOf (buf.drop (bit / 8 + sizes.sum)) =
            encField (E i) f.ty v ++ encFields E (i + 1) fs vs ++ tail := by
          rw [bitsOf_drop, h', show 8 * (bit / 8 + sizes.sum) = pre.length by omega,
            List.append_assoc, List.drop_left, List.append_assoc]
        have hlenv : lenExpr m buf ⟨bit, sizes.map .ok, seen.map .ok⟩ e =
            .ok ((encField (E i) f.ty v).length / 8) := by
          rw [lenExpr, env_eq_get, hco, ok_bind, sliceFrom, if_pos (by omega)]
          exact hlen e he _ hrest
        have hget : getField m buf bit (sizes.map .ok)
            (fieldLen m buf ⟨bit, sizes.map .ok, seen.map .ok⟩ f) f.ty =
            .ok (normField (E i) f.ty v) :=
          getField_enc hlf hplain hacc htv h' hpre hsl
            (fun _ => ⟨hb8, .inl (by rw [fieldLen, he]; exact hlenv)⟩)
        obtain ⟨hrun, hsz⟩ := ih vs (i + 1) bit
          (sizes ++ [(encField (E i) f.ty v).length / 8]) (seen ++ [normField (E i) f.ty v])
          (pre ++ encField (E i) f.ty v) (by rw [isVec_bits hvec] at hreg; exact hreg) hcl hlaw htvs hlens h''
          (by simp only [List.length_append, List.sum_append, List.sum_cons, List.sum_nil]; omega)
        refine ⟨?_, ?_⟩
        · rw [St.run, List.foldl_cons, ← St.run, St.step]
          dsimp only
          rw [he]
          dsimp only
          rw [hlenv, isVec_bits hvec, hget]
          have e1 : (sizes.map (Except.ok (ε := Fail))) ++
              [Except.ok ((encField (E i) f.ty v).length / 8)] =
              (sizes ++ [(encField (E i) f.ty v).length / 8]).map .ok := by simp
          have e2 : (seen.map (Except.ok (ε := Fail))) ++ [Except.ok (normField (E i) f.ty v)] =
              (seen ++ [normField (E i) f.ty v]).map .ok := by simp
          rw [e1, e2, Nat.add_zero, hrun]
          simp [bitsSum, isVec_bits hvec, normFields, encSizes, he]
        · simp only [encFields, List.length_append, bitsSum, List.map_cons, List.sum_cons,
            isVec_bits hvec, encSizes, hsome, if_true, List.sum_append, List.sum_nil] at hsz ⊢
          omega
      · -- fixed-size field
        have hvec' : f.ty.isVec = false := by simpa using hvec
        rw [hvec'] at hshape
        simp only [Bool.false_eq_true, if_false] at hshape
        have hnone : f.len = none := by simpa using hshape
        have hel := encField_fixed_length htv hvec'
        have hget : getField m buf bit (sizes.map .ok)
            (fieldLen m buf ⟨bit, sizes.map .ok, seen.map .ok⟩ f) f.ty =
            .ok (normField (E i) f.ty v) :=
          getField_enc hlf hplain hacc htv h' hpre hsl (fun hc => absurd hc hvec)
        obtain ⟨hrun, hsz⟩ := ih vs (i + 1) (bit + f.ty.bits) sizes
          (seen ++ [normField (E i) f.ty v]) (pre ++ encField (E i) f.ty v) hreg hcl hlaw htvs
          hlens h'' (by simp only [List.length_append]; omega)
        refine ⟨?_, ?_⟩
        · rw [St.run, List.foldl_cons, ← St.run, St.step]
          dsimp only
          rw [hnone]
          dsimp only
          rw [hget]
          have e2 : (seen.map (Except.ok (ε := Fail))) ++ [Except.ok (normField (E i) f.ty v)] =
              (seen ++ [normField (E i) f.ty v]).map .ok := by simp
          rw [e2, hrun]
          simp [bitsSum, normFields, Nat.add_assoc, encSizes, hnone]
        · simp only [encFields, List.length_append, bitsSum, List.map_cons, List.sum_cons, encSizes,
            hnone, Option.isSome_none, Bool.false_eq_true, if_false, List.nil_append] at hsz ⊢
          omega

/-! ## Splitting at a field -/

theorem regularFields_take {bit : Nat} {fs : List Field} (h : regularFields bit fs = true) (k : Nat) :
    regularFields bit (fs.take k) = true := by
  induction fs generalizing bit k with
  | nil => simpa using h
  | cons f fs ih =>
    cases k with
    | zero => rfl
    | succ k =>
      simp only [regularFields, Bool.and_eq_true, List.take_succ_cons] at h ⊢
      refine ⟨⟨h.1.1, ?_⟩, ih h.2 k⟩
      have h2 := h.1.2
      split at h2
      · rename_i hv
        rw [if_pos hv]
        simp only [Bool.and_eq_true, Bool.or_eq_true, List.isEmpty_iff] at h2 ⊢
        refine ⟨h2.1, h2.2.imp id fun hn => by rw [hn, List.take_nil]⟩
      · rename_i hv
        rw [if_neg hv]; exact h2

theorem regularFields_drop {bit : Nat} {fs : List Field} (h : regularFields bit fs = true) (k : Nat) :
    regularFields (bit + bitsSum (fs.take k)) (fs.drop k) = true := by
  induction fs generalizing bit k with
  | nil => simp [bitsSum, regularFields]
  | cons f fs ih =>
    cases k with
    | zero => simpa [bitsSum] using h
    | succ k =>
      simp only [regularFields, Bool.and_eq_true] at h
      have := ih h.2 k
      simpa [bitsSum, Nat.add_assoc] using this

/-- All fields before another one have declared lengths. -/
theorem closedFields_take {bit : Nat} {fs : List Field} (h : regularFields bit fs = true) {k : Nat}
    (hk : k < fs.length) : closedFields (fs.take k) := by
  induction fs generalizing bit k with
  | nil => simp at hk
  | cons f fs ih =>
    cases k with
    | zero => intro g hg; simp at hg
    | succ k =>
      simp only [regularFields, Bool.and_eq_true] at h
      simp only [List.length_cons] at hk
      intro g hg hv
      simp only [List.take_succ_cons, List.mem_cons] at hg
      rcases hg with rfl | hg
      · have h2 := h.1.2
        rw [if_pos hv] at h2
        simp only [Bool.and_eq_true, Bool.or_eq_true, List.isEmpty_iff] at h2
        rcases h2.2 with h3 | h3
        · exact h3
        · subst h3; simp at hk
      · exact ih h.2 (by omega) g hg hv

theorem typedFields_length {E : Nat → Wire} {i : Nat} {fs : List Field} {vs : List Val}
    (h : typedFields E i fs vs) : vs.length = fs.length := by
  induction fs generalizing i vs with
  | nil => cases vs with
    | nil => rfl
    | cons v vs => simp [typedFields] at h
  | cons f fs ih => cases vs with
    | nil => simp [typedFields] at h
    | cons v vs => simp [ih h.2]

theorem typedFields_take {E : Nat → Wire} {i : Nat} {fs : List Field} {vs : List Val}
    (h : typedFields E i fs vs) (k : Nat) : typedFields E i (fs.take k) (vs.take k) := by
  induction fs generalizing i vs k with
  | nil => cases vs with
    | nil => simp [typedFields]
    | cons v vs => simp [typedFields] at h
  | cons f fs ih => cases vs with
    | nil => simp [typedFields] at h
    | cons v vs => cases k with
      | zero => simp [typedFields]
      | succ k => exact ⟨h.1, ih h.2 k⟩

theorem typedFields_drop {E : Nat → Wire} {i : Nat} {fs : List Field} {vs : List Val}
    (h : typedFields E i fs vs) (k : Nat) : typedFields E (i + k) (fs.drop k) (vs.drop k) := by
  induction fs generalizing i vs k with
  | nil => cases vs with
    | nil => simp [typedFields]
    | cons v vs => simp [typedFields] at h
  | cons f fs ih => cases vs with
    | nil => simp [typedFields] at h
    | cons v vs => cases k with
      | zero => exact h
      | succ k =>
        have := ih h.2 k
        rwa [show i + 1 + k = i + (k + 1) by omega] at this

theorem encFields_split (E : Nat → Wire) (i : Nat) (fs : List Field) (vs : List Val) (k : Nat) :
    encFields E i fs vs = encFields E i (fs.take k) (vs.take k) ++
      encFields E (i + k) (fs.drop k) (vs.drop k) := by
  induction fs generalizing i vs k with
  | nil => simp [encFields]
  | cons f fs ih => cases vs with
    | nil => cases k <;> simp [encFields]
    | cons v vs => cases k with
      | zero => simp [encFields]
      | succ k =>
        simp only [List.take_succ_cons, List.drop_succ_cons, encFields, List.append_assoc]
        rw [ih (i + 1) vs k, show i + 1 + k = i + (k + 1) by omega]

theorem normFields_split (E : Nat → Wire) (i : Nat) (fs : List Field) (vs : List Val) (k : Nat) :
    normFields E i fs vs = normFields E i (fs.take k) (vs.take k) ++
      normFields E (i + k) (fs.drop k) (vs.drop k) := by
  induction fs generalizing i vs k with
  | nil => simp [normFields]
  | cons f fs ih => cases vs with
    | nil => cases k <;> simp [normFields]
    | cons v vs => cases k with
      | zero => simp [normFields]
      | succ k =>
        simp only [List.take_succ_cons, List.drop_succ_cons, normFields, List.cons_append]
        rw [ih (i + 1) vs k, show i + 1 + k = i + (k + 1) by omega]

theorem lawfulFrom_take {m : Mode} {E : Nat → Wire} {i : Nat} {fs : List Field}
    (h : lawfulFrom m E i fs) (k : Nat) : lawfulFrom m E i (fs.take k) := by
  intro j f c hf hc
  rw [List.getElem?_take] at hf
  split at hf
  · exact h j f c hf hc
  · simp at hf

theorem lensAgreeOn_take {m : Mode} {E : Nat → Wire} {tail : List Bool} {i : Nat} {seen : List Val}
    {fs : List Field} {vs : List Val} (h : lensAgreeOn m E tail i seen fs vs)
    (htyped : typedFields E i fs vs) (k : Nat) :
    lensAgreeOn m E (encFields E (i + k) (fs.drop k) (vs.drop k) ++ tail) i seen
      (fs.take k) (vs.take k) := by
  induction fs generalizing i vs k seen with
  | nil => simp [lensAgreeOn]
  | cons f fs ih => cases vs with
    | nil => simp [typedFields] at htyped
    | cons v vs => cases k with
      | zero => simp [lensAgreeOn]
      | succ k =>
        have := ih h.2 htyped.2 k
        rw [show i + 1 + k = i + (k + 1) by omega] at this
        refine ⟨fun e he rest hr => h.1 e he rest ?_, this⟩
        rw [hr, encFields_split E (i + 1) fs vs k]
        simp only [List.drop_succ_cons, List.append_assoc, show i + 1 + k = i + (k + 1) by omega]

theorem lensAgreeOn_drop {m : Mode} {E : Nat → Wire} {tail : List Bool} {i : Nat} {seen : List Val}
    {fs : List Field} {vs : List Val} (h : lensAgreeOn m E tail i seen fs vs)
    (htyped : typedFields E i fs vs) (k : Nat) :
    lensAgreeOn m E tail (i + k) (seen ++ normFields E i (fs.take k) (vs.take k))
      (fs.drop k) (vs.drop k) := by
  induction fs generalizing i vs k seen with
  | nil => simp [lensAgreeOn]
  | cons f fs ih => cases vs with
    | nil => simp [typedFields] at htyped
    | cons v vs => cases k with
      | zero => simpa [normFields] using h
      | succ k =>
        have := ih h.2 htyped.2 k
        rw [show i + 1 + k = i + (k + 1) by omega] at this
        simpa [normFields] using this

theorem lensAgree_on {m : Mode} {E : Nat → Wire} (tail : List Bool) {i : Nat} {seen : List Val}
    {fs : List Field} {vs : List Val} (h : lensAgree m E i seen fs vs) :
    lensAgreeOn m E tail i seen fs vs := by
  induction fs generalizing i vs seen with
  | nil => simp [lensAgreeOn]
  | cons f fs ih => cases vs with
    | nil => simp [lensAgreeOn]
    | cons v vs => exact ⟨fun e he rest _ => h.1 e he _, ih h.2⟩

theorem lensAgree_take {m : Mode} {E : Nat → Wire} {i : Nat} {seen : List Val}
    {fs : List Field} {vs : List Val} (h : lensAgree m E i seen fs vs) (k : Nat) :
    lensAgree m E i seen (fs.take k) (vs.take k) := by
  induction fs generalizing i vs seen k with
  | nil => simp [lensAgree]
  | cons f fs ih => cases vs with
    | nil => simp [lensAgree]
    | cons v vs => cases k with
      | zero => simp [lensAgree]
      | succ k => exact ⟨h.1, ih h.2 k⟩

theorem lensAgree_drop {m : Mode} {E : Nat → Wire} {i : Nat} {seen : List Val}
    {fs : List Field} {vs : List Val} (h : lensAgree m E i seen fs vs)
    (htyped : typedFields E i fs vs) (k : Nat) :
    lensAgree m E (i + k) (seen ++ normFields E i (fs.take k) (vs.take k))
      (fs.drop k) (vs.drop k) := by
  induction fs generalizing i vs k seen with
  | nil => simp [lensAgree]
  | cons f fs ih => cases vs with
    | nil => simp [typedFields] at htyped
    | cons v vs => cases k with
      | zero => simpa [normFields] using h
      | succ k =>
        have := ih h.2 htyped.2 k
        rw [show i + 1 + k = i + (k + 1) by omega] at this
        simpa [normFields] using this

/-! ## Whole packets -/

/-- State before field `k` when the buffer starts with the encodings of the fields before it. -/
theorem before_enc {m : Mode} {E : Nat → Wire} {d : Decl} {buf : Buf} (hsl : SliceLen buf.length)
    (hreg : regular d = true) (hlaw : LawfulElems m E d) {vs : List Val} {k : Nat}
    (hk : k < d.fields.length) (htyped : typedFields E 0 d.fields vs) {post : List Bool}
    (hlens : lensAgreeOn m E post 0 [] (d.fields.take k) (vs.take k))
    (h : bitsOf buf = encFields E 0 (d.fields.take k) (vs.take k) ++ post) :
    d.before m buf k = ⟨bitsSum (d.fields.take k),
        (encSizes E 0 (d.fields.take k) (vs.take k)).map .ok,
        (normFields E 0 (d.fields.take k) (vs.take k)).map .ok⟩ ∧
      (encFields E 0 (d.fields.take k) (vs.take k)).length =
        bitsSum (d.fields.take k) + 8 * (encSizes E 0 (d.fields.take k) (vs.take k)).sum := by
  have hl : lawfulFrom m E 0 d.fields := by
    intro j f c hf hc
    have := hlaw j f c hf hc
    rwa [Nat.zero_add]
  obtain ⟨h1, h2⟩ := run_enc (m := m) (E := E) hsl (d.fields.take k) (vs.take k) 0 0 [] [] []
    post (regularFields_take hreg k) (closedFields_take hreg hk) (lawfulFrom_take hl k)
    (typedFields_take htyped k) hlens (by simpa using h) (by simp)
  refine ⟨?_, h2⟩
  simpa [Decl.before, St.init] using h1

theorem normFields_getElem? {E : Nat → Wire} {i : Nat} {fs : List Field} {vs : List Val} {k : Nat}
    {f : Field} {v : Val} (hf : fs[k]? = some f) (hv : vs[k]? = some v) :
    (normFields E i fs vs)[k]? = some (normField (E (i + k)) f.ty v) := by
  induction fs generalizing i vs k with
  | nil => simp at hf
  | cons g fs ih => cases vs with
    | nil => simp at hv
    | cons w vs => cases k with
      | zero =>
        simp only [List.getElem?_cons_zero, Option.some.injEq] at hf hv
        subst hf hv; simp [normFields]
      | succ k =>
        simp only [List.getElem?_cons_succ] at hf hv
        simp only [normFields, List.getElem?_cons_succ]
        rw [ih hf hv, show i + 1 + k = i + (k + 1) by omega]

theorem drop_of_getElem? {α : Type} {l : List α} {k : Nat} {a : α} (h : l[k]? = some a) :
    l.drop k = a :: l.drop (k + 1) := by
  obtain ⟨hk, rfl⟩ := List.getElem?_eq_some_iff.mp h
  exact List.drop_eq_getElem_cons hk

/-- Every getter reads its field back from an encoding. -/
theorem get_enc {m : Mode} {E : Nat → Wire} {d : Decl} {buf : Buf} (hsl : SliceLen buf.length)
    (hreg : regular d = true) (hlaw : LawfulElems m E d) {vs : List Val}
    (htyped : typedFields E 0 d.fields vs) {tail : List Bool}
    (hlens : lensAgreeOn m E tail 0 [] d.fields vs)
    (h : bitsOf buf = encFields E 0 d.fields vs ++ tail)
    (htail : closed d = true ∨ tail = []) {k : Nat} {f : Field} {v : Val}
    (hf : d.fields[k]? = some f) (hv : vs[k]? = some v) :
    d.get m buf k = .ok (normField (E k) f.ty v) := by
  have hk : k < d.fields.length := (List.getElem?_eq_some_iff.mp hf).1
  have hsplit : bitsOf buf = encFields E 0 (d.fields.take k) (vs.take k) ++
      (encFields E (0 + k) (d.fields.drop k) (vs.drop k) ++ tail) := by
    rw [h, encFields_split E 0 d.fields vs k, List.append_assoc]
  obtain ⟨hb, hsz⟩ := before_enc hsl hreg hlaw hk htyped (lensAgreeOn_take hlens htyped k) hsplit
  generalize encSizes E 0 (d.fields.take k) (vs.take k) = sizes at hb hsz
  have hl := congrArg List.length hsplit
  simp only [bitsOf_length, List.length_append] at hl
  have hsl' := hsl
  unfold SliceLen at hsl'
  have hco : curOff m (bitsSum (d.fields.take k)) (sizes.map .ok) =
      .ok (bitsSum (d.fields.take k) / 8 + sizes.sum) := curOff_ok (by unfold usizeCard; omega)
  rw [Decl.get, hf]
  dsimp only
  rw [hb]
  dsimp only
  have hregk := regularFields_drop hreg k
  have htk := typedFields_drop htyped k
  have hlk := lensAgreeOn_drop hlens htyped k
  rw [Nat.zero_add] at hregk htk hlk hsplit
  rw [drop_of_getElem? hf] at hregk
  rw [drop_of_getElem? hf, drop_of_getElem? hv] at htk hlk hsplit
  simp only [regularFields, Bool.and_eq_true] at hregk
  obtain ⟨⟨⟨hplain, hacc⟩, hshape⟩, -⟩ := hregk
  simp only [encFields] at hsplit
  have h' : bitsOf buf = encFields E 0 (d.fields.take k) (vs.take k) ++ encField (E k) f.ty v ++
      (encFields E (k + 1) (d.fields.drop (k + 1)) (vs.drop (k + 1)) ++ tail) := by
    rw [hsplit]; simp only [List.append_assoc]
  refine getField_enc (hlaw k f · hf) hplain hacc htk.1 h' hsz hsl fun hvec => ?_
  rw [if_pos hvec] at hshape
  simp only [Bool.and_eq_true, beq_iff_eq, Bool.or_eq_true, List.isEmpty_iff] at hshape
  refine ⟨hshape.1, ?_⟩
  cases he : f.len with
  | some e =>
    refine .inl ?_
    rw [fieldLen, he]
    dsimp only
    rw [lenExpr, env_eq_get]
    dsimp only
    rw [hco, ok_bind, sliceFrom, if_pos (by omega)]
    have hb8 := hshape.1
    refine hlk.1 e he _ ?_
    rw [bitsOf_drop, hsplit, show 8 * (bitsSum (List.take k d.fields) / 8 + sizes.sum) =
      (encFields E 0 (d.fields.take k) (vs.take k)).length by omega, List.drop_left]
  | none =>
    refine .inr ⟨?_, by rw [fieldLen, he]⟩
    have hnil : d.fields.drop (k + 1) = [] := by
      rcases hshape.2 with h3 | h3
      · rw [he] at h3; simp at h3
      · exact h3
    rcases htail with hc | ht
    · simp only [closed, List.all_eq_true] at hc
      have := hc f (List.mem_of_getElem? hf)
      rw [hvec, he] at this
      simp at this
    · rw [hnil, ht]; simp [encFields]

/-! ## `from_packet` as the list of all getters -/

theorem run_append (m : Mode) (buf : Buf) (st : St) (a b : List Field) :
    St.run m buf st (a ++ b) = St.run m buf (St.run m buf st a) b := by
  simp [St.run]

theorem before_succ {d : Decl} {m : Mode} {buf : Buf} {k : Nat} {f : Field}
    (hf : d.fields[k]? = some f) :
    d.before m buf (k + 1) = (d.before m buf k).step m buf f := by
  obtain ⟨hk, rfl⟩ := List.getElem?_eq_some_iff.mp hf
  rw [Decl.before, List.take_succ_eq_append_getElem hk, run_append, ← Decl.before]
  rfl

theorem before_vals {d : Decl} {m : Mode} {buf : Buf} (k : Nat) (hk : k ≤ d.fields.length) :
    (d.before m buf k).vals = (List.range k).map (d.get m buf) := by
  induction k with
  | zero => rfl
  | succ k ih =>
    have hf : d.fields[k]? = some d.fields[k] := List.getElem?_eq_getElem (by omega)
    rw [before_succ hf, St.step, List.range_succ, List.map_append]
    dsimp only
    rw [ih (by omega)]
    congr 1
    rw [List.map_singleton, Decl.get, hf]

theorem final_eq_before (d : Decl) (m : Mode) (buf : Buf) :
    d.final m buf = d.before m buf d.fields.length := by
  rw [Decl.before, List.take_length]; rfl

theorem final_vals (d : Decl) (m : Mode) (buf : Buf) :
    (d.final m buf).vals = (List.range d.fields.length).map (d.get m buf) := by
  rw [final_eq_before, before_vals _ (Nat.le_refl _)]

theorem mapM_id_ok (l : List Val) : (l.map (Except.ok (ε := Fail))).mapM id = .ok l := by
  induction l with
  | nil => rfl
  | cons a l ih => simp [List.mapM_cons, ih]

theorem normFields_length {E : Nat → Wire} {i : Nat} {fs : List Field} {vs : List Val}
    (h : vs.length = fs.length) : (normFields E i fs vs).length = fs.length := by
  induction fs generalizing i vs with
  | nil => simp [normFields]
  | cons f fs ih => cases vs with
    | nil => simp at h
    | cons v vs => simp only [normFields, List.length_cons]; rw [ih (by simpa using h)]

theorem fromPacket_enc {m : Mode} {E : Nat → Wire} {d : Decl} {buf : Buf} (hsl : SliceLen buf.length)
    (hreg : regular d = true) (hlaw : LawfulElems m E d) {vs : List Val}
    (htyped : typedFields E 0 d.fields vs) {tail : List Bool}
    (hlens : lensAgreeOn m E tail 0 [] d.fields vs)
    (h : bitsOf buf = encFields E 0 d.fields vs ++ tail)
    (htail : closed d = true ∨ tail = []) :
    d.fromPacket m buf = .ok (.list (normFields E 0 d.fields vs)) := by
  have hlen := typedFields_length htyped
  have : (List.range d.fields.length).map (d.get m buf) =
      (normFields E 0 d.fields vs).map .ok := by
    apply List.ext_getElem
    · simp [normFields_length hlen]
    · intro k h1 h2
      simp only [List.length_map, List.length_range] at h1
      have hf : d.fields[k]? = some d.fields[k] := List.getElem?_eq_getElem h1
      have hv : vs[k]? = some (vs[k]'(by omega)) := List.getElem?_eq_getElem (by omega)
      simp only [List.getElem_map, List.getElem_range]
      rw [get_enc hsl hreg hlaw htyped hlens h htail hf hv]
      congr 1
      have := normFields_getElem? (E := E) (i := 0) hf hv
      rw [Nat.zero_add] at this
      exact (List.getElem?_eq_some_iff.mp this).2.symm
  rw [Decl.fromPacket, final_vals, this, mapM_id_ok]
  rfl

theorem closed_fields {d : Decl} (h : closed d = true) : closedFields d.fields := by
  intro f hf hv
  simp only [closed, List.all_eq_true] at h
  simpa [hv] using h f hf

/-- `packet_size` on an encoding, for declarations without an open-ended last field. -/
theorem packetSize_enc {m : Mode} {E : Nat → Wire} {d : Decl} {buf : Buf} (hsl : SliceLen buf.length)
    (hreg : regular d = true) (hlaw : LawfulElems m E d) {vs : List Val}
    (htyped : typedFields E 0 d.fields vs) {tail : List Bool}
    (hlens : lensAgreeOn m E tail 0 [] d.fields vs)
    (h : bitsOf buf = encFields E 0 d.fields vs ++ tail) (hclosed : closed d = true) :
    d.packetSize m buf = .ok ((encFields E 0 d.fields vs).length / 8) := by
  have hl : lawfulFrom m E 0 d.fields := by
    intro j f c hf hc
    have := hlaw j f c hf hc
    rwa [Nat.zero_add]
  obtain ⟨h1, h2⟩ := run_enc (m := m) (E := E) hsl d.fields vs 0 0 [] [] []
    tail hreg (closed_fields hclosed) hl htyped hlens (by simpa using h) (by simp)
  have hlen := congrArg List.length h
  simp only [bitsOf_length, List.length_append] at hlen
  unfold SliceLen at hsl
  rw [Decl.packetSize, Decl.final]
  simp only [List.map_nil, List.nil_append] at h1
  rw [show St.init = ⟨0, [], []⟩ from rfl, h1]
  dsimp only
  rw [curOff_ok (by unfold usizeCard; omega)]
  congr 1
  omega

end Verif
