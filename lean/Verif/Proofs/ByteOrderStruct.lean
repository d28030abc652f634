import Verif.Proofs.ByteOrder
import Verif.Proofs.Populate

/-! Structs whose integers have any byte order. -/

namespace Verif
open Spec

/-! ## Faithful fields -/

theorem digitAt_single {e : Endianness} {s n q : Nat} (h : s + n ≤ 8) (hq : q < n) :
    digitAt e s n q = n - 1 - q := by
  have h0 : (s + q) / 8 = 0 := by omega
  have ht : (s + n + 7) / 8 = 1 := by omega
  cases e <;> simp only [digitAt, lowest, portionEnd, touched, h0, ht] <;> omega

/-- The last digit place of the portion of byte `i` of a symmetric field. -/
theorem digitAt_symm {e : Endianness} (he : e ≠ .big) {s n q k : Nat} (hs : s < 8) (hk : 2 * s + n = 8 * k)
    (hq : q < n) :
    digitAt e s n q = (8 * ((s + q) / 8) - s) + (min (8 * ((s + q) / 8 + 1)) (s + n) - 1 - (s + q)) := by
  have ht : (s + n + 7) / 8 = k := by omega
  have hi : (s + q) / 8 < k := by omega
  generalize hi' : (s + q) / 8 = i at *
  cases e with
  | big => exact absurd rfl he
  | little => simp only [digitAt, lowest, portionEnd, touched, ht, hi']; omega
  | host => simp only [digitAt, lowest, portionEnd, touched, ht, hi']; omega

theorem digitAt_big {s n q : Nat} (hq : q < n) : digitAt .big s n q = n - 1 - q := by
  simp only [digitAt, lowest, portionEnd]; omega

theorem faithful_bij {p : Prim} {s : Nat} (h : fits s p.size) (hf : faithful p s = true) :
    (∀ q < p.size, digitAt p.endian s p.size q < p.size) ∧
    (∀ j < p.size, ∃ q < p.size, digitAt p.endian s p.size q = j) ∧
    (∀ q < p.size, ∀ q' < p.size, digitAt p.endian s p.size q = digitAt p.endian s p.size q' → q = q') := by
  obtain ⟨n, e⟩ := p
  dsimp only at *
  have hs : s < 8 := by have := h.1; omega
  simp only [faithful, decide_eq_true_eq] at hf
  have simple : (∀ q < n, digitAt e s n q = n - 1 - q) →
      (∀ q < n, digitAt e s n q < n) ∧ (∀ j < n, ∃ q < n, digitAt e s n q = j) ∧
      (∀ q < n, ∀ q' < n, digitAt e s n q = digitAt e s n q' → q = q') := by
    intro hd
    refine ⟨fun q hq => by rw [hd q hq]; omega, fun j hj => ⟨n - 1 - j, by omega, ?_⟩, fun q hq q' hq' hqq => ?_⟩
    · rw [hd _ (by omega)]; omega
    · rw [hd q hq, hd q' hq'] at hqq; omega
  by_cases hbig : e = .big
  · subst hbig
    exact simple fun q hq => digitAt_big hq
  by_cases hsingle : s + n ≤ 8
  · exact simple fun q hq => digitAt_single hsingle hq
  obtain ⟨k, hk⟩ : ∃ k, 2 * s + n = 8 * k := ⟨(2 * s + n) / 8, by
    have : (2 * s + n) % 8 = 0 := by
      rcases hf with h | h | h
      · exact absurd h hbig
      · exact absurd h hsingle
      · exact h
    omega⟩
  have hd := fun q (hq : q < n) => digitAt_symm hbig hs hk hq
  refine ⟨fun q hq => ?_, fun j hj => ?_, fun q hq q' hq' hqq => ?_⟩
  · rw [hd q hq]
    generalize hi : (s + q) / 8 = i
    omega
  · by_cases hj0 : j + s < 8
    · refine ⟨7 - s - j, by omega, ?_⟩
      rw [hd _ (by omega), show (s + (7 - s - j)) / 8 = 0 by omega]
      omega
    · generalize hi : (j + s) / 8 = i
      refine ⟨8 * i + min (8 * (i + 1)) (s + n) - 1 - 2 * s - j, by omega, ?_⟩
      rw [hd _ (by omega), show (s + (8 * i + min (8 * (i + 1)) (s + n) - 1 - 2 * s - j)) / 8 = i by omega]
      omega
  · rw [hd q hq, hd q' hq'] at hqq
    generalize hi : (s + q) / 8 = i at *
    generalize hi' : (s + q') / 8 = i' at *
    omega

/-- A faithful field reads back what was stored. -/
theorem readFrom_stored {p : Prim} {s : Nat} (h : fits s p.size) (hf : faithful p s = true) (v : Nat) :
    readFrom p s (stored p s v) = v % 2 ^ p.size := by
  obtain ⟨h1, h2, _⟩ := faithful_bij h hf
  have hn : p.size ≤ 64 := by have := h.2.2.1; omega
  have hsw := storageWidth_ge hn
  apply Nat.eq_of_testBit_eq
  intro j
  rw [Bool.eq_iff_iff, readFrom_testBit, Nat.testBit_mod_two_pow, Bool.and_eq_true, decide_eq_true_eq]
  constructor
  · rintro ⟨_, q, hq, hd, hl⟩
    simp only [stored, List.getElem?_map, List.getElem?_range hq, Option.map_some, Option.some.injEq,
      Bool.and_eq_true] at hl
    have := h1 q hq
    rw [hd] at hl this
    exact ⟨this, hl.2⟩
  · rintro ⟨hj, hv⟩
    obtain ⟨q, hq, hd⟩ := h2 j hj
    refine ⟨by omega, q, hq, hd, ?_⟩
    simp only [stored, List.getElem?_map, List.getElem?_range hq, Option.map_some, hd, hv]
    rw [decide_eq_true (by omega)]
    rfl

/-- A faithful field stores what was read. -/
theorem stored_readFrom {p : Prim} {s : Nat} (h : fits s p.size) (hf : faithful p s = true) (l : List Bool)
    (hl : l.length = p.size) : stored p s (readFrom p s l) = l := by
  obtain ⟨h1, _, h3⟩ := faithful_bij h hf
  have hn : p.size ≤ 64 := by have := h.2.2.1; omega
  have hsw := storageWidth_ge hn
  apply List.ext_getElem? 
  intro q
  by_cases hq : q < p.size
  · simp only [stored, List.getElem?_map, List.getElem?_range hq, Option.map_some]
    have := h1 q hq
    rw [decide_eq_true (by omega), Bool.true_and, List.getElem?_eq_getElem (by omega), Option.some.injEq,
      Bool.eq_iff_iff, readFrom_testBit]
    constructor
    · rintro ⟨_, q', hq', hd, hl'⟩
      have := h3 q' hq' q hq hd
      subst this
      rw [List.getElem?_eq_getElem (by omega)] at hl'
      exact Option.some.inj hl'
    · intro hb
      exact ⟨by omega, q, hq, rfl, by rw [List.getElem?_eq_getElem (by omega), hb]⟩
  · rw [List.getElem?_eq_none (by rw [stored_length]; omega), List.getElem?_eq_none (by omega)]

theorem toBits_toBig (p : Prim) (s v : Nat) : toBits p.size (toBig p s v) = stored p s v := by
  have := toBits_ofBits (stored p s v)
  rw [stored_length] at this
  exact this

theorem toBig_lt (p : Prim) (s v : Nat) : toBig p s v < 2 ^ p.size := by
  have := ofBits_lt (stored p s v)
  rw [stored_length] at this
  exact this

theorem fromBig_toBig {p : Prim} {s : Nat} (h : fits s p.size) (hf : faithful p s = true) (v : Nat) :
    fromBig p s (toBig p s v % 2 ^ p.size) = v % 2 ^ p.size := by
  rw [Nat.mod_eq_of_lt (toBig_lt p s v), fromBig, toBits_toBig, readFrom_stored h hf]

/-! ## Structs -/

theorem typed_toBig {w : Wire} {bit : Nat} {ty : Ty} {v : Val} (h : typed w ty v) :
    typed w (bigTy ty) (toBigVal bit ty v) := by
  cases ty <;> cases v <;> simp_all [typed, bigTy, toBigVal, toBigs_length]

theorem encArgs_toBigs (bit : Nat) (args : List Prim) (vs : List Nat) :
    (List.zipWith (fun p v => toBits p.size v) (args.map fun p => (⟨p.size, .big⟩ : Prim))
      (toBigs bit args vs)).flatten = storedArgs bit args vs := by
  induction args generalizing bit vs with
  | nil => cases vs <;> rfl
  | cons p ps ih =>
    cases vs with
    | nil => rfl
    | cons v vs => simp [toBigs, storedArgs, ih, toBits_toBig]

theorem encField_toBig (w : Wire) (bit : Nat) (ty : Ty) (v : Val) :
    encField w (bigTy ty) (toBigVal bit ty v) = storedField w bit ty v := by
  cases ty <;> cases v <;> simp [encField, bigTy, toBigVal, storedField, toBits_toBig, encArgs_toBigs]

/-- The struct values of the fields from `bit` on, recoded. -/
def recodeFields : (bit : Nat) → List Field → List Val → List Val
  | bit, f :: fs, v :: vs => toBigVal bit f.ty v :: recodeFields (bit + f.ty.bits) fs vs
  | _, _, vs => vs

theorem recodeFields_eq (fs : List Field) (vs : List Val) (bit : Nat) :
    recodeFields bit fs vs = vs.mapIdx fun i v => match fs[i]? with
      | some f => toBigVal (bit + ((fs.take i).map (·.ty.bits)).sum) f.ty v
      | none => v := by
  induction fs generalizing vs bit with
  | nil =>
    cases vs with
    | nil => rfl
    | cons v vs =>
      rw [recodeFields]
      · apply List.ext_getElem (by simp)
        intro i h1 h2
        rw [List.getElem_mapIdx]
        rfl
      · intros; contradiction
  | cons f fs ih =>
    cases vs with
    | nil => rfl
    | cons v vs =>
      rw [recodeFields, List.mapIdx_cons, ih]
      simp only [List.getElem?_cons_zero, List.take_zero, List.map_nil, List.sum_nil, Nat.add_zero,
        List.getElem?_cons_succ, List.take_succ_cons, List.map_cons, List.sum_cons, Nat.add_assoc]

theorem toBigStruct_eq (d : Decl) (vs : List Val) : toBigStruct d vs = recodeFields 0 d.fields vs := by
  rw [recodeFields_eq]
  unfold toBigStruct
  congr 1
  funext i v
  simp only [toBigAt, bitOf, Nat.zero_add]
  rfl

theorem encFields_toBig (d : Decl) (E : Nat → Wire) (bit i : Nat) (fs : List Field) (vs : List Val) :
    encFields E i (fs.map (bigField d)) (recodeFields bit fs vs) = storedFields E bit i fs vs := by
  induction fs generalizing bit i vs with
  | nil => cases vs <;> rfl
  | cons f fs ih =>
    cases vs with
    | nil => rfl
    | cons v vs =>
      simp only [List.map_cons, recodeFields, encFields, storedFields, ih]
      rw [show (bigField d f).ty = bigTy f.ty from rfl, encField_toBig]

theorem typedFields_toBig (d : Decl) (E : Nat → Wire) (bit i : Nat) (fs : List Field) (vs : List Val)
    (h : typedFields E i fs vs) : typedFields E i (fs.map (bigField d)) (recodeFields bit fs vs) := by
  induction fs generalizing bit i vs with
  | nil => cases vs with
    | nil => trivial
    | cons v vs => exact h
  | cons f fs ih =>
    cases vs with
    | nil => exact h
    | cons v vs =>
      simp only [typedFields] at h
      exact ⟨typed_toBig h.1, ih _ _ _ h.2⟩

theorem lawfulElems_big {m : Mode} {E : Nat → Wire} {d : Decl} (h : LawfulElems m E d) :
    LawfulElems m E (bigDecl d) := by
  intro i f c hf hc
  rw [bigDecl_get?] at hf
  cases hg : d.fields[i]? with
  | none => rw [hg] at hf; simp at hf
  | some g =>
    rw [hg] at hf
    simp only [Option.map_some, Option.some.injEq] at hf
    subst hf
    refine h i g c hg ?_
    simp only [bigField] at hc
    cases hty : g.ty <;> rw [hty] at hc <;> simp_all [bigTy]

/-- `populate` with integers of any byte order. -/
theorem populate_stored {m : Mode} {E : Nat → Wire} {d : Decl} (hreg : regular (bigDecl d) = true)
    (hacc : acceptedFields 0 d.fields = true) (hlaw : LawfulElems m E d) {vs : List Val}
    (htyped : typedFields E 0 d.fields vs)
    (hlens : lensAgree m E 0 [] (bigDecl d).fields (toBigStruct d vs))
    (buf : Buf) (hsl : SliceLen buf.length) (hfit : (storedFields E 0 0 d.fields vs).length ≤ 8 * buf.length) :
    ∃ new, d.populate m buf (.list vs) = .ok new ∧ new.length = buf.length ∧
      bitsOf new = storedFields E 0 0 d.fields vs ++
        (bitsOf buf).drop (storedFields E 0 0 d.fields vs).length := by
  rw [populate_recode d hacc]
  have ht := typedFields_toBig d E 0 0 d.fields vs htyped
  have he := encFields_toBig d E 0 0 d.fields vs
  rw [← toBigStruct_eq, ← bigDecl_fields] at ht he
  rw [← he] at hfit ⊢
  exact populate_enc hreg (lawfulElems_big hlaw) ht hlens buf hsl hfit

theorem fromBigs_norm {bit : Nat} {args : List Prim} {vs : List Nat} (hl : vs.length = args.length)
    (hacc : acceptedArgs bit args = true) (hf : faithfulArgs bit args = true) :
    fromBigs bit args (List.zipWith (fun p v => v % 2 ^ p.size) (args.map fun p => (⟨p.size, .big⟩ : Prim))
      (toBigs bit args vs)) = List.zipWith (fun p v => v % 2 ^ p.size) args vs := by
  induction args generalizing bit vs with
  | nil => cases vs with
    | nil => rfl
    | cons _ _ => simp at hl
  | cons p ps ih =>
    cases vs with
    | nil => simp at hl
    | cons v vs =>
      simp only [acceptedArgs, faithfulArgs, Bool.and_eq_true] at hacc hf
      simp only [List.map_cons, toBigs, List.zipWith_cons_cons, fromBigs]
      rw [fromBig_toBig (accepted_fits hacc.1) hf.1, ih (by simpa using hl) hacc.2 hf.2]

theorem fromBigVal_norm {w : Wire} {bit : Nat} {ty : Ty} {v : Val} (ht : typed w ty v)
    (hacc : ty.accepted bit = true) (hf : faithfulTy bit ty = true) :
    fromBigVal bit ty (normField w (bigTy ty) (toBigVal bit ty v)) = normField w ty v := by
  cases ty with
  | prim p =>
    cases v <;> simp only [typed] at ht
    simp only [toBigVal, bigTy, normField, fromBigVal]
    rw [fromBig_toBig (accepted_fits hacc) hf]
  | misc args =>
    cases v <;> simp only [typed] at ht
    simp only [Ty.accepted, Bool.and_eq_true] at hacc
    simp only [toBigVal, bigTy, normField, fromBigVal]
    rw [fromBigs_norm ht hacc.2 hf]
  | vecPrim p => cases v <;> simp only [typed] at ht; rfl
  | vecPkt c => cases v <;> simp only [typed] at ht; rfl

theorem storedArgs_length (bit : Nat) (args : List Prim) (vs : List Nat) (h : vs.length = args.length) :
    (storedArgs bit args vs).length = (args.map (·.size)).sum := by
  induction args generalizing bit vs with
  | nil => cases vs <;> simp_all [storedArgs]
  | cons p ps ih => cases vs with
    | nil => simp at h
    | cons v vs => simp [storedArgs, stored_length, ih _ _ (by simpa using h)]

theorem encField_length_toBig {w : Wire} {bit : Nat} {ty : Ty} {v : Val} (ht : typed w ty v) :
    (storedField w bit ty v).length = (encField w ty v).length := by
  cases ty with
  | prim p => cases v <;> simp only [typed] at ht; simp [storedField, encField, stored_length]
  | misc args =>
    cases v <;> simp only [typed] at ht
    rw [encField_fixed_length (w := w) (v := .nums _) (ty := .misc args) ht rfl]
    simp [storedField, storedArgs_length _ _ _ ht, Ty.bits]
  | vecPrim p => cases v <;> rfl
  | vecPkt c => cases v <;> rfl

theorem storedFields_length {E : Nat → Wire} {bit i : Nat} {fs : List Field} {vs : List Val}
    (ht : typedFields E i fs vs) : (storedFields E bit i fs vs).length = (encFields E i fs vs).length := by
  induction fs generalizing bit i vs with
  | nil => cases vs <;> rfl
  | cons f fs ih =>
    cases vs with
    | nil => rfl
    | cons v vs =>
      simp only [typedFields] at ht
      simp only [storedFields, encFields, List.length_append, ih ht.2, encField_length_toBig ht.1]

theorem fromBigAt_eq {d : Decl} {i bit : Nat} {f : Field} (hf : d.fields[i]? = some f) (hb : bit = bitOf d i)
    (x : Val) : fromBigAt d i x = fromBigVal bit f.ty x := by
  rw [fromBigAt, hf, hb]

theorem bitOf_succ {d : Decl} {i : Nat} {f : Field} (hf : d.fields[i]? = some f) :
    bitOf d (i + 1) = bitOf d i + f.ty.bits := by
  rw [bitOf_eq, bitOf_eq]
  exact bitsSum_take_succ hf

theorem drop_cons {d : Decl} {i : Nat} {f : Field} {fs : List Field} (h : f :: fs = d.fields.drop i) :
    d.fields[i]? = some f ∧ fs = d.fields.drop (i + 1) := by
  have h0 : (d.fields.drop i)[0]? = some f := by rw [← h]; rfl
  rw [List.getElem?_drop, Nat.add_zero] at h0
  refine ⟨h0, ?_⟩
  rw [show i + 1 = 1 + i by omega, Nat.add_comm 1 i, ← List.drop_drop, ← h]
  rfl

theorem lensAgree_toBig {m : Mode} {E : Nat → Wire} {d : Decl} {bit i : Nat} {fs : List Field} {vs : List Val}
    {seen seen' : List Val} (hfs : fs = d.fields.drop i) (hbit : bit = bitOf d i)
    (hacc : acceptedFields bit fs = true) (hfa : faithfulFields bit fs = true)
    (ht : typedFields E i fs vs) (hl : seen.length = i) (hl' : seen'.length = i)
    (hseen : ∀ j, seen[j]? = (seen'[j]?).map (fromBigAt d j))
    (h : lensAgree m E i seen fs vs) :
    lensAgree m E i seen' (fs.map (bigField d)) (recodeFields bit fs vs) := by
  induction fs generalizing bit i vs seen seen' with
  | nil => cases vs <;> trivial
  | cons f fs ih =>
    cases vs with
    | nil => trivial
    | cons v vs =>
      obtain ⟨hf, hfs'⟩ := drop_cons hfs
      simp only [typedFields] at ht
      simp only [lensAgree] at h
      unfold acceptedFields at hacc
      simp only [faithfulFields, Bool.and_eq_true] at hacc hfa
      simp only [List.map_cons, recodeFields, lensAgree]
      have hn : fromBigAt d i (normField (E i) (bigField d f).ty (toBigVal bit f.ty v)) =
          normField (E i) f.ty v := by
        rw [fromBigAt_eq hf hbit]
        exact fromBigVal_norm ht.1 hacc.1.1 hfa.1
      constructor
      · intro e he rest
        simp only [bigField, Option.map_eq_some_iff] at he
        obtain ⟨e0, h0, rfl⟩ := he
        have henv : (fun j => (env seen' j).map (fromBigAt d j)) = env seen := by
          funext j
          unfold env
          rw [hseen j]
          cases seen'[j]? <;> rfl
        simp only [henv]
        rw [h.1 e0 h0 rest]
        rw [show (bigField d f).ty = bigTy f.ty from rfl, encField_toBig, encField_length_toBig ht.1]
      · refine ih hfs' (by rw [bitOf_succ hf, hbit]) hacc.2 hfa.2 ht.2 (by simp [hl]) (by simp [hl']) ?_ h.2
        intro j
        by_cases hj : j < i
        · rw [List.getElem?_append_left (by omega), List.getElem?_append_left (by omega), hseen j]
        · by_cases hji : j = i
          · subst hji
            rw [List.getElem?_append_right (by omega), List.getElem?_append_right (by omega), hl, hl']
            simp only [Nat.sub_self, List.getElem?_cons_zero, Option.map_some, Option.some.injEq]
            exact hn.symm
          · rw [List.getElem?_eq_none (by simp; omega), List.getElem?_eq_none (by simp; omega)]
            rfl

theorem normFields_toBig {E : Nat → Wire} {d : Decl} {bit i : Nat} {fs : List Field} {vs : List Val}
    (hfs : fs = d.fields.drop i) (hbit : bit = bitOf d i)
    (hacc : acceptedFields bit fs = true) (hfa : faithfulFields bit fs = true) (ht : typedFields E i fs vs) :
    (normFields E i (fs.map (bigField d)) (recodeFields bit fs vs)).mapIdx (fun j => fromBigAt d (i + j)) =
      normFields E i fs vs := by
  induction fs generalizing bit i vs with
  | nil => cases vs <;> rfl
  | cons f fs ih =>
    cases vs with
    | nil => rfl
    | cons v vs =>
      obtain ⟨hf, hfs'⟩ := drop_cons hfs
      simp only [typedFields] at ht
      unfold acceptedFields at hacc
      simp only [faithfulFields, Bool.and_eq_true] at hacc hfa
      simp only [List.map_cons, recodeFields, normFields, List.mapIdx_cons, Nat.add_zero]
      have := ih hfs' (by rw [bitOf_succ hf, hbit]) hacc.2 hfa.2 ht.2
      simp only [Nat.add_assoc, Nat.add_comm 1] at this
      rw [this, fromBigAt_eq hf hbit]
      congr 1
      exact fromBigVal_norm ht.1 hacc.1.1 hfa.1

theorem lensAgree_bigDecl {m : Mode} {E : Nat → Wire} {d : Decl} (hacc : acceptedFields 0 d.fields = true)
    (hfa : faithfulFields 0 d.fields = true) {vs : List Val} (ht : typedFields E 0 d.fields vs)
    (h : lensAgree m E 0 [] d.fields vs) : lensAgree m E 0 [] (bigDecl d).fields (toBigStruct d vs) := by
  rw [toBigStruct_eq, bigDecl_fields]
  exact lensAgree_toBig (d := d) rfl rfl hacc hfa ht rfl rfl (fun j => by simp) h

/-- Reading back a populated struct with integers of any faithful byte order. -/
theorem fromPacket_stored {m : Mode} {E : Nat → Wire} {d : Decl} (hreg : regular (bigDecl d) = true)
    (hacc : acceptedFields 0 d.fields = true) (hfa : faithfulFields 0 d.fields = true)
    (hlaw : LawfulElems m E d) {vs : List Val}
    (htyped : typedFields E 0 d.fields vs) (hlens : lensAgree m E 0 [] d.fields vs)
    {new : Buf} (hsl : SliceLen new.length) {tail : List Bool}
    (hb : bitsOf new = storedFields E 0 0 d.fields vs ++ tail) (hopen : closed d = true ∨ tail = []) :
    d.fromPacket m new = .ok (.list (normFields E 0 d.fields vs)) := by
  have ht := typedFields_toBig d E 0 0 d.fields vs htyped
  have he := encFields_toBig d E 0 0 d.fields vs
  rw [← toBigStruct_eq, ← bigDecl_fields] at ht he
  rw [← he] at hb
  have hlens' := lensAgree_bigDecl hacc hfa htyped hlens
  have hc : closed d = true → closed (bigDecl d) = true := by
    intro h
    unfold closed at h ⊢
    rw [bigDecl_fields, List.all_map, List.all_eq_true]
    rw [List.all_eq_true] at h
    intro f hf
    simpa [bigField, bigTy_isVec] using h f hf
  have := fromPacket_enc hsl hreg (lawfulElems_big hlaw) ht (lensAgree_on _ hlens') hb
    (hopen.imp hc id)
  rw [fromPacket_recode d hacc]
  unfold Decl.fromPacket at this
  cases hm : ((bigDecl d).final m new).vals.mapM id with
  | error e => rw [hm] at this; cases this
  | ok ws =>
    rw [hm] at this
    have hw : ws = normFields E 0 (bigDecl d).fields (toBigStruct d vs) := by
      injection this with this
      injection this
    subst hw
    simp only [Except.map, fromBigStruct]
    rw [toBigStruct_eq, bigDecl_fields]
    have := normFields_toBig (d := d) (bit := 0) (i := 0) (fs := d.fields) rfl rfl hacc hfa htyped
    simp only [Nat.zero_add] at this
    exact congrArg (fun l => Except.ok (Val.list l)) this

end Verif
