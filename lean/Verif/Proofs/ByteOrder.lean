import Verif.Proofs.LittleEndian
import Verif.Proofs.Fields
import Verif.Proofs.Generic
import Verif.Spec.ByteOrder

/-! Fields of any byte order. -/

namespace Verif
open Spec

/-- The operation for byte `i` of a field, in closed form. -/
def opAt (e : Endianness) (s n i : Nat) : GetOperation :=
  { mask := (2 ^ (portionEnd s n i - max (8 * i) s) - 1) <<< (8 * (i + 1) - portionEnd s n i)
    shiftl := lowest e s n i
    shiftr := 8 * (i + 1) - portionEnd s n i }

set_option maxRecDepth 10000 in
theorem opAt_ops_table : ∀ s < 8, ∀ n < 65, fits s n →
    numBytes s n = touched s n ∧
      (List.range (touched s n)).map (opBE s n) = (List.range (touched s n)).map (opAt .big s n) ∧
      leOps s n = (List.range (touched s n)).map (opAt .little s n) := by
  decide +kernel

/-- All operations of a field copy the portions of the field. -/
def goodAt (s n : Nat) : Bool :=
  (List.range (touched s n)).all fun i =>
    decide (GoodOp (storageWidth n) (opAt .big s n i) (portionEnd s n i - max (8 * i) s)) &&
    decide (GoodOp (storageWidth n) (opAt .little s n i) (portionEnd s n i - max (8 * i) s))

set_option maxRecDepth 10000 in
theorem goodAt_table : ∀ s < 8, ∀ n < 65, fits s n → goodAt s n = true := by
  decide +kernel

theorem opAt_table (s : Nat) (hs : s < 8) (n : Nat) (hn : n < 65) (h : fits s n) :
    (numBytes s n = touched s n ∧
      (List.range (touched s n)).map (opBE s n) = (List.range (touched s n)).map (opAt .big s n) ∧
      leOps s n = (List.range (touched s n)).map (opAt .little s n)) ∧
    ∀ i < touched s n,
      GoodOp (storageWidth n) (opAt .big s n i) (portionEnd s n i - max (8 * i) s) ∧
      GoodOp (storageWidth n) (opAt .little s n i) (portionEnd s n i - max (8 * i) s) := by
  refine ⟨opAt_ops_table s hs n hn h, fun i hi => ?_⟩
  have := goodAt_table s hs n hn h
  simp only [goodAt, List.all_eq_true, List.mem_range, Bool.and_eq_true, decide_eq_true_eq] at this
  exact this i hi

theorem opAt_host (s n i : Nat) : opAt .host s n i = opAt .little s n i := rfl

theorem operations_any {s n : Nat} (h : fits s n) (e : Endianness) :
    operations s n e = some ((List.range (touched s n)).map (opAt e s n)) := by
  obtain ⟨⟨h0, h1, h2⟩, _⟩ := opAt_table s (by have := h.1; omega) n (by have := h.2.2.1; omega) h
  cases e with
  | big => rw [operations_big h, h0, h1]
  | little => rw [operations_little h _ (.inl rfl), h2]
  | host =>
    rw [operations_little h _ (.inr rfl), h2]
    congr 1

theorem opAt_good {s n i : Nat} (h : fits s n) (e : Endianness) (hi : i < touched s n) :
    GoodOp (storageWidth n) (opAt e s n i) (portionEnd s n i - max (8 * i) s) := by
  obtain ⟨_, h3⟩ := opAt_table s (by have := h.1; omega) n (by have := h.2.2.1; omega) h
  cases e with
  | big => exact (h3 i hi).1
  | little => exact (h3 i hi).2
  | host => exact (h3 i hi).2

theorem setOps_any {s n : Nat} (h : fits s n) (e : Endianness) (co v k idx : Nat) (buf : Buf)
    (hn : idx + k ≤ touched s n) (hb : co + idx + k ≤ buf.length) :
    ∃ new, setOpsFrom (storageWidth n) co v idx
        (toMutator ((List.range' idx k).map (opAt e s n))) buf = .ok new ∧ new.length = buf.length ∧
      ∀ p, bitAt new p =
        if 8 * co + s ≤ p ∧ p < 8 * co + s + n ∧ 8 * (co + idx) ≤ p ∧ p < 8 * (co + idx + k) then
          decide (digitAt e s n (p - (8 * co + s)) < 64) && v.testBit (digitAt e s n (p - (8 * co + s)))
        else bitAt buf p := by
  induction k generalizing idx buf with
  | zero =>
    refine ⟨buf, rfl, rfl, fun p => ?_⟩
    rw [if_neg (by omega)]
  | succ k ih =>
    obtain ⟨y, hy, hlt, hyb⟩ := (opAt_good h e (i := idx) (by omega)).set (storageWidth_ge8 n)
      (buf.getD (co + idx) 0) v
    obtain ⟨new, hnew, hlen, hbits⟩ := ih (idx + 1) (buf.set (co + idx) (UInt8.ofNat y))
      (by omega) (by simp; omega)
    refine ⟨new, ?_, by simpa using hlen, fun p => ?_⟩
    · rw [List.range'_succ, List.map_cons, toMutator, List.map_cons, setOpsFrom, index_eq_ok (by omega)]
      simp only [ok_bind, hy]
      rw [setIndex_ok (by omega)]
      simpa [toMutator] using hnew
    · rw [hbits, bitAt_set (by omega)]
      by_cases c : p / 8 = co + idx
      · rw [if_neg (by omega), if_pos c]
        have hyn : (UInt8.ofNat y).toNat = y := by
          rw [UInt8.toNat_ofNat']; exact Nat.mod_eq_of_lt hlt
        rw [hyn, hyb _ (by omega)]
        have hs8 : s < 8 := by have := h.1; omega
        simp only [opAt, portionEnd]
        have hc1 : (8 * (idx + 1) - min (8 * (idx + 1)) (s + n) ≤ 7 - p % 8 ∧
            7 - p % 8 < 8 * (idx + 1) - min (8 * (idx + 1)) (s + n) +
              (min (8 * (idx + 1)) (s + n) - max (8 * idx) s)) ↔
            (8 * co + s ≤ p ∧ p < 8 * co + s + n) := by omega
        have hc2 : (8 * co + s ≤ p ∧ p < 8 * co + s + n ∧ 8 * (co + idx) ≤ p ∧
            p < 8 * (co + idx + (k + 1))) ↔ (8 * co + s ≤ p ∧ p < 8 * co + s + n) := by omega
        simp only [hc1, hc2]
        split
        · rename_i c2
          have hd : 7 - p % 8 + lowest e s n idx - (8 * (idx + 1) - min (8 * (idx + 1)) (s + n)) =
              digitAt e s n (p - (8 * co + s)) := by
            unfold digitAt
            rw [show (s + (p - (8 * co + s))) / 8 = idx by omega]
            simp only [portionEnd]
            omega
          simp only [hd]
        · unfold bitAt; rw [c]
      · rw [if_neg c]
        have hc : (8 * co + s ≤ p ∧ p < 8 * co + s + n ∧ 8 * (co + (idx + 1)) ≤ p ∧
            p < 8 * (co + (idx + 1) + k)) ↔ (8 * co + s ≤ p ∧ p < 8 * co + s + n ∧ 8 * (co + idx) ≤ p ∧
            p < 8 * (co + idx + (k + 1))) := by omega
        simp only [hc]

theorem touched_eq {s n : Nat} (h : fits s n) : touched s n = numBytes s n :=
  (opAt_table s (by have := h.1; omega) n (by have := h.2.2.1; omega) h).1.1.symm

theorem stored_length (p : Prim) (s v : Nat) : (stored p s v).length = p.size := by simp [stored]

theorem stored_big {n : Nat} (s v : Nat) (hn : n ≤ 64) : stored ⟨n, .big⟩ s v = toBits n v := by
  unfold stored toBits
  apply List.map_congr_left
  intro q hq
  have hq : q < n := List.mem_range.mp hq
  have : digitAt .big s n q = n - 1 - q := by
    simp only [digitAt, lowest, portionEnd]; omega
  dsimp only
  rw [this, decide_eq_true (by omega), Bool.true_and]

/-- Effect of the setter of a field of any byte order. -/
theorem setPrim_stored {p : Prim} {s : Nat} (h : fits s p.size) (buf : Buf) (co v : Nat)
    (hb : co + numBytes s p.size ≤ buf.length) :
    ∃ new, setPrim p s buf co v = .ok new ∧ new.length = buf.length ∧
      bitsOf new = (bitsOf buf).take (8 * co + s) ++ stored p s v ++
        (bitsOf buf).drop (8 * co + s + p.size) := by
  have hbd := numBytes_bounds h
  have ht := touched_eq h
  obtain ⟨n, e⟩ := p
  dsimp only at *
  obtain ⟨new, hn, hl, hbits⟩ := setOps_any h e co v (touched s n) 0 buf (by omega) (by omega)
  refine ⟨new, ?_, hl, ?_⟩
  · simp only [setPrim, operations_any h e, setOps, List.range_eq_range']
    exact hn
  apply List.ext_getElem?
  intro p
  have htl : ((bitsOf buf).take (8 * co + s)).length = 8 * co + s := by simp; omega
  have hsl := stored_length ⟨n, e⟩ s v
  dsimp only at hsl
  by_cases hp : p < 8 * new.length
  · rw [bitsOf_getElem? _ _ hp, hbits]
    by_cases c1 : p < 8 * co + s
    · rw [if_neg (by omega), List.append_assoc, List.getElem?_append_left (by omega),
        List.getElem?_take_of_lt c1, bitsOf_getElem? _ _ (by omega)]
    · by_cases c2 : p < 8 * co + s + n
      · rw [if_pos (by omega), List.append_assoc, List.getElem?_append_right (by omega),
          List.getElem?_append_left (by rw [htl, hsl]; omega), htl]
        simp only [stored, List.getElem?_map]
        rw [List.getElem?_range (by omega)]
        rfl
      · rw [if_neg (by omega), List.getElem?_append_right
          (by rw [List.length_append, htl, hsl]; omega),
          List.length_append, htl, hsl, List.getElem?_drop]
        rw [show 8 * co + s + n + (p - (8 * co + s + n)) = p by omega,
          bitsOf_getElem? _ _ (by omega)]
  · rw [List.getElem?_eq_none (by simp; omega), List.getElem?_eq_none]
    simp only [List.length_append, htl, hsl, List.length_drop, bitsOf_length]
    omega

theorem setOps_fail {s n : Nat} (h : fits s n) (e : Endianness) (co v k idx : Nat) (buf : Buf)
    (hn : idx + k ≤ touched s n) (hk : 0 < k) (hb : buf.length < co + idx + k) :
    setOpsFrom (storageWidth n) co v idx (toMutator ((List.range' idx k).map (opAt e s n))) buf = panic := by
  induction k generalizing idx buf with
  | zero => omega
  | succ k ih =>
    rw [List.range'_succ, List.map_cons, toMutator, List.map_cons, setOpsFrom]
    by_cases hi : co + idx < buf.length
    · obtain ⟨y, hy, hlt, hyb⟩ := (opAt_good h e (i := idx) (by omega)).set (storageWidth_ge8 n)
        (buf.getD (co + idx) 0) v
      rw [index_eq_ok hi]
      simp only [ok_bind, hy]
      rw [setIndex_ok (by omega)]
      have := ih (idx + 1) (buf.set (co + idx) (UInt8.ofNat y)) (by omega) (by omega) (by simp; omega)
      simpa [toMutator] using this
    · rw [index_panic (by omega)]; rfl

theorem touched_pos {s n : Nat} (h : fits s n) : 0 < touched s n := by
  have h1 := touched_eq h
  have h2 := numBytes_bounds h
  have h3 := h.2.1
  omega

theorem setPrim_fail {p : Prim} {s : Nat} (h : fits s p.size) (buf : Buf) (co v : Nat)
    (hb : buf.length < co + numBytes s p.size) : setPrim p s buf co v = panic := by
  have := setOps_fail h p.endian co v (touched s p.size) 0 buf (by omega) (touched_pos h)
    (by rw [touched_eq h]; omega)
  simp only [setPrim, operations_any h p.endian, setOps, List.range_eq_range']
  exact this

/-- A setter of any byte order does what the big-endian one does with a recoded value. -/
theorem setPrim_recode {p : Prim} {s : Nat} (h : fits s p.size) (buf : Buf) (co v : Nat) :
    setPrim p s buf co v = setPrim ⟨p.size, .big⟩ s buf co (ofBits (stored p s v)) := by
  by_cases hb : co + numBytes s p.size ≤ buf.length
  · obtain ⟨a, a1, _, a3⟩ := setPrim_stored h buf co v hb
    obtain ⟨b, b1, _, b3⟩ := setPrim_big h buf co (ofBits (stored p s v)) hb
    rw [a1, b1]
    congr 1
    apply bitsOf_inj
    rw [a3, b3]
    congr 2
    have := toBits_ofBits (stored p s v)
    rw [stored_length] at this
    exact this.symm
  · rw [setPrim_fail h buf co v (by omega),
      setPrim_fail (p := ⟨p.size, .big⟩) h buf co _ (by dsimp only; omega)]

theorem getOps_any {s n : Nat} (h : fits s n) (e : Endianness) (co k idx : Nat) (buf : Buf)
    (hn : idx + k ≤ touched s n) (hb : co + idx + k ≤ buf.length) :
    ∃ y, getOpsFrom (storageWidth n) buf co idx ((List.range' idx k).map (opAt e s n)) = .ok y ∧
      ∀ j, y.testBit j = true ↔ j < storageWidth n ∧ ∃ q < n, 8 * idx ≤ s + q ∧ s + q < 8 * (idx + k) ∧
        digitAt e s n q = j ∧ bitAt buf (8 * co + s + q) = true := by
  induction k generalizing idx with
  | zero =>
    refine ⟨0, rfl, fun j => ?_⟩
    constructor
    · simp
    · rintro ⟨_, q, _, _, _, _⟩
      omega
  | succ k ih =>
    obtain ⟨y, hy, hyb⟩ := (opAt_good h e (i := idx) (by omega)).get (storageWidth_ge8 n)
      (buf.getD (co + idx) 0)
    obtain ⟨z, hz, hzb⟩ := ih (idx + 1) (by omega) (by omega)
    refine ⟨y ||| z, ?_, fun j => ?_⟩
    · rw [List.range'_succ, List.map_cons, getOpsFrom, index_eq_ok (by omega)]
      simp only [ok_bind, hy, hz]
    · rw [Nat.testBit_or, Bool.or_eq_true, hzb, hyb, Bool.and_eq_true, decide_eq_true_eq]
      have hs8 : s < 8 := by have := h.1; omega
      simp only [opAt, portionEnd]
      constructor
      · rintro (⟨⟨⟨h1, h2⟩, h3⟩, h4⟩ | ⟨h1, q, h2, h3, h4, h5, h6⟩)
        · refine ⟨h3, 8 * idx + 7 - (j + (8 * (idx + 1) - min (8 * (idx + 1)) (s + n)) - lowest e s n idx) - s,
            by omega, by omega, by omega, ?_, ?_⟩
          · unfold digitAt
            rw [show (s + (8 * idx + 7 - (j + (8 * (idx + 1) - min (8 * (idx + 1)) (s + n)) -
              lowest e s n idx) - s)) / 8 = idx by omega]
            simp only [portionEnd]
            omega
          · unfold bitAt
            rw [show (8 * co + s + (8 * idx + 7 - (j + (8 * (idx + 1) - min (8 * (idx + 1)) (s + n)) -
              lowest e s n idx) - s)) / 8 = co + idx by omega,
              show 7 - (8 * co + s + (8 * idx + 7 - (j + (8 * (idx + 1) - min (8 * (idx + 1)) (s + n)) -
              lowest e s n idx) - s)) % 8 = j + (8 * (idx + 1) - min (8 * (idx + 1)) (s + n)) -
              lowest e s n idx by omega]
            exact h4
        · exact ⟨h1, q, h2, by omega, by omega, h5, h6⟩
      · rintro ⟨h1, q, h2, h3, h4, h5, h6⟩
        by_cases c : s + q < 8 * (idx + 1)
        · left
          unfold digitAt at h5
          rw [show (s + q) / 8 = idx by omega] at h5
          simp only [portionEnd] at h5
          unfold bitAt at h6
          rw [show (8 * co + s + q) / 8 = co + idx by omega] at h6
          refine ⟨⟨⟨by omega, by omega⟩, h1⟩, ?_⟩
          rw [show j + (8 * (idx + 1) - min (8 * (idx + 1)) (s + n)) - lowest e s n idx =
            7 - (8 * co + s + q) % 8 by omega]
          exact h6
        · exact .inr ⟨h1, q, h2, by omega, by omega, h5, h6⟩

theorem getOps_fail {s n : Nat} (h : fits s n) (e : Endianness) (co k idx : Nat) (buf : Buf)
    (hn : idx + k ≤ touched s n) (hk : 0 < k) (hb : buf.length < co + idx + k) :
    getOpsFrom (storageWidth n) buf co idx ((List.range' idx k).map (opAt e s n)) = panic := by
  induction k generalizing idx with
  | zero => omega
  | succ k ih =>
    rw [List.range'_succ, List.map_cons, getOpsFrom]
    by_cases hi : co + idx < buf.length
    · obtain ⟨y, hy, _⟩ := (opAt_good h e (i := idx) (by omega)).get (storageWidth_ge8 n)
        (buf.getD (co + idx) 0)
      rw [index_eq_ok hi]
      simp only [ok_bind, hy]
      rw [ih (idx + 1) (by omega) (by omega) (by omega)]
      rfl
    · rw [index_panic (by omega)]; rfl

theorem foldl_or_testBit (f : Nat → Nat) (l : List Nat) (a j : Nat) :
    (l.foldl (fun a q => a ||| f q) a).testBit j = true ↔
      a.testBit j = true ∨ ∃ q ∈ l, (f q).testBit j = true := by
  induction l generalizing a with
  | nil => simp
  | cons x l ih =>
    rw [List.foldl_cons, ih, Nat.testBit_or, Bool.or_eq_true]
    simp only [List.mem_cons, exists_eq_or_imp, or_assoc]

theorem readFrom_testBit (p : Prim) (s : Nat) (l : List Bool) (j : Nat) :
    (readFrom p s l).testBit j = true ↔ j < storageWidth p.size ∧ ∃ q < p.size,
      digitAt p.endian s p.size q = j ∧ l[q]? = some true := by
  unfold readFrom
  rw [Nat.testBit_mod_two_pow, Bool.and_eq_true, decide_eq_true_eq, foldl_or_testBit]
  apply and_congr_right
  intro _
  simp only [Nat.zero_testBit, Bool.false_eq_true, false_or, List.mem_range, digitOf]
  constructor
  · rintro ⟨q, h1, h2⟩
    refine ⟨q, h1, ?_⟩
    split at h2
    · rename_i hl
      rw [Nat.testBit_two_pow] at h2
      exact ⟨of_decide_eq_true h2, hl⟩
    · simp at h2
  · rintro ⟨q, h1, h2, h3⟩
    exact ⟨q, h1, by rw [if_pos h3, Nat.testBit_two_pow, decide_eq_true h2]⟩

/-- The getter of a field of any byte order. -/
theorem getPrim_readFrom {p : Prim} {s : Nat} (h : fits s p.size) (buf : Buf) (co : Nat)
    (hb : co + numBytes s p.size ≤ buf.length) :
    getPrim p s buf co = .ok (readFrom p s (bitSlice (bitsOf buf) (8 * co + s) p.size)) := by
  have hbd := numBytes_bounds h
  have ht := touched_eq h
  obtain ⟨y, h1, h2⟩ := getOps_any h p.endian co (touched s p.size) 0 buf (by omega) (by omega)
  simp only [getPrim, operations_any h p.endian, getOps, List.range_eq_range', h1]
  congr 1
  apply Nat.eq_of_testBit_eq
  intro j
  rw [Bool.eq_iff_iff, h2, readFrom_testBit]
  apply and_congr_right
  intro _
  constructor
  · rintro ⟨q, a1, _, _, a2, a3⟩
    refine ⟨q, a1, a2, ?_⟩
    rw [bitSlice, List.getElem?_take_of_lt a1, List.getElem?_drop, bitsOf_getElem? _ _ (by omega), a3]
  · rintro ⟨q, a1, a2, a3⟩
    rw [bitSlice, List.getElem?_take_of_lt a1, List.getElem?_drop, bitsOf_getElem? _ _ (by omega)] at a3
    exact ⟨q, a1, by omega, by omega, a2, Option.some.inj a3⟩

theorem getPrim_fail {p : Prim} {s : Nat} (h : fits s p.size) (buf : Buf) (co : Nat)
    (hb : buf.length < co + numBytes s p.size) : getPrim p s buf co = panic := by
  have := getOps_fail h p.endian co (touched s p.size) 0 buf (by omega) (touched_pos h)
    (by rw [touched_eq h]; omega)
  simp only [getPrim, operations_any h p.endian, getOps, List.range_eq_range']
  exact this

/-- A getter of any byte order recodes what the big-endian one returns. -/
theorem getPrim_recode {p : Prim} {s : Nat} (h : fits s p.size) (buf : Buf) (co : Nat) :
    getPrim p s buf co =
      (getPrim ⟨p.size, .big⟩ s buf co).map fun x => readFrom p s (toBits p.size x) := by
  by_cases hb : co + numBytes s p.size ≤ buf.length
  · have hbd := numBytes_bounds h
    rw [getPrim_readFrom h buf co hb, getPrim_big h buf co hb]
    simp only [Except.map]
    congr 2
    have := toBits_ofBits (bitSlice (bitsOf buf) (8 * co + s) p.size)
    rw [show (bitSlice (bitsOf buf) (8 * co + s) p.size).length = p.size by
      rw [bitSlice, List.length_take, List.length_drop, bitsOf_length]; omega] at this
    exact this.symm
  · rw [getPrim_fail h buf co (by omega),
      getPrim_fail (p := ⟨p.size, .big⟩) h buf co (by dsimp only; omega)]
    rfl

/-! ## Declarations -/

theorem bigTy_bits (ty : Ty) : (bigTy ty).bits = ty.bits := by
  cases ty <;> simp [bigTy, Ty.bits, List.map_map, Function.comp_def]

theorem bigTy_isVec (ty : Ty) : (bigTy ty).isVec = ty.isVec := by cases ty <;> rfl

theorem accepted_endian (n : Nat) (e : Endianness) (s : Nat) :
    Prim.accepted ⟨n, .big⟩ s = Prim.accepted ⟨n, e⟩ s := by
  rw [Bool.eq_iff_iff]
  simp only [Prim.accepted, operations_isSome_iff]

theorem acceptedArgs_big (bit : Nat) (args : List Prim) :
    acceptedArgs bit (args.map fun p => ⟨p.size, .big⟩) = acceptedArgs bit args := by
  induction args generalizing bit with
  | nil => rfl
  | cons p ps ih => simp only [List.map_cons, acceptedArgs, ih, accepted_endian p.size p.endian]

theorem bigTy_accepted (bit : Nat) (ty : Ty) : (bigTy ty).accepted bit = ty.accepted bit := by
  cases ty with
  | prim p => simp only [bigTy, Ty.accepted, accepted_endian p.size p.endian]
  | misc args => simp only [bigTy, Ty.accepted, acceptedArgs_big, List.isEmpty_map]
  | vecPrim p => rfl
  | vecPkt c => rfl

theorem map_id_res {α : Type} (x : Res α) (f : α → α) (h : ∀ a, f a = a) : x.map f = x := by
  cases x <;> simp [Except.map, h]

theorem getArgs_recode (m : Mode) (lens : List (Res Nat)) (buf : Buf) (bit : Nat) (args : List Prim)
    (h : acceptedArgs bit args = true) :
    getArgs m lens buf bit args =
      (getArgs m lens buf bit (args.map fun p => ⟨p.size, .big⟩)).map (fromBigs bit args) := by
  induction args generalizing bit with
  | nil => rfl
  | cons p ps ih =>
    simp only [acceptedArgs, Bool.and_eq_true] at h
    simp only [List.map_cons, getArgs]
    cases curOff m bit lens with
    | error e => rfl
    | ok co =>
      simp only [ok_bind]
      rw [getPrim_recode (accepted_fits h.1), ih _ h.2]
      cases getPrim ⟨p.size, .big⟩ (bit % 8) buf co with
      | error e => rfl
      | ok x =>
        simp only [Except.map, ok_bind]
        cases getArgs m lens buf (bit + p.size) (ps.map fun p => ⟨p.size, .big⟩) <;> rfl

theorem getField_recode (m : Mode) (buf : Buf) (bit : Nat) (lens : List (Res Nat)) (len : Res Nat)
    (ty : Ty) (h : ty.accepted bit = true) :
    getField m buf bit lens len ty = (getField m buf bit lens len (bigTy ty)).map (fromBigVal bit ty) := by
  cases ty with
  | prim p =>
    simp only [bigTy, getField]
    cases curOff m bit lens with
    | error e => rfl
    | ok co =>
      simp only [ok_bind]
      rw [getPrim_recode (accepted_fits h)]
      cases getPrim ⟨p.size, .big⟩ (bit % 8) buf co <;> rfl
  | misc args =>
    simp only [Ty.accepted, Bool.and_eq_true] at h
    simp only [bigTy, getField]
    rw [getArgs_recode _ _ _ _ _ h.2]
    cases getArgs m lens buf bit (args.map fun p => ⟨p.size, .big⟩) <;> rfl
  | vecPrim p => exact (map_id_res _ (fromBigVal bit (.vecPrim p)) (fun v => by cases v <;> rfl)).symm
  | vecPkt c => exact (map_id_res _ (fromBigVal bit (.vecPkt c)) (fun v => by cases v <;> rfl)).symm

/-- The loop states of a declaration and of its big-endian form. -/
structure Recoded (d : Decl) (st st' : St) : Prop where
  bit : st.bit = st'.bit
  lens : st.lens = st'.lens
  length : st.vals.length = st'.vals.length
  vals : ∀ i, st.vals[i]? = (st'.vals[i]?).map (Except.map (fromBigAt d i))

theorem Recoded.get {d : Decl} {st st' : St} (h : Recoded d st st') (i : Nat) :
    st.get i = (st'.get i).map (fromBigAt d i) := by
  unfold St.get
  rw [h.vals i]
  cases st'.vals[i]? <;> rfl

/-- A field of the big-endian form. -/
def bigField (d : Decl) (f : Field) : Field := { f with
    ty := bigTy f.ty
    len := f.len.map fun e m get rest => e m (fun i => (get i).map (fromBigAt d i)) rest }

theorem Recoded.fieldLen {d : Decl} {st st' : St} (h : Recoded d st st') (m : Mode) (buf : Buf) (f : Field) :
    fieldLen m buf st f = fieldLen m buf st' (bigField d f) := by
  unfold Verif.fieldLen
  cases hf : f.len with
  | none => simp [bigField, hf]
  | some e =>
    simp only [bigField, hf, Option.map_some, lenExpr]
    rw [h.bit, h.lens, show st.get = fun i => (st'.get i).map (fromBigAt d i) from funext h.get]

theorem Recoded.step {d : Decl} {st st' : St} (h : Recoded d st st') (m : Mode) (buf : Buf) {f : Field}
    (hf : d.fields[st.vals.length]? = some f) (hbit : st.bit = bitOf d st.vals.length)
    (hacc : f.ty.accepted st.bit = true) :
    Recoded d (st.step m buf f) (st'.step m buf (bigField d f)) := by
  constructor
  · simp only [St.step, bigField, bigTy_bits, h.bit]
  · simp only [St.step]
    cases hl : f.len with
    | none => simp [bigField, hl, h.lens]
    | some e =>
      have := h.fieldLen m buf f
      simp only [Verif.fieldLen, hl, bigField, Option.map_some] at this
      simp only [bigField, hl, Option.map_some]
      rw [h.lens, this]
  · simp [St.step, h.length]
  · intro i
    simp only [St.step]
    by_cases hi : i < st.vals.length
    · rw [List.getElem?_append_left hi, List.getElem?_append_left (by rw [← h.length]; exact hi), h.vals i]
    · by_cases he : i = st.vals.length
      · subst he
        rw [List.getElem?_append_right (Nat.le_refl _), List.getElem?_append_right (by rw [h.length]; omega)]
        rw [h.length]
        simp only [Nat.sub_self, List.getElem?_cons_zero, Option.map_some, Option.some.injEq]
        rw [h.fieldLen m buf f, getField_recode _ _ _ _ _ _ hacc, ← h.bit, ← h.lens]
        have : fromBigVal st.bit f.ty = fromBigAt d st'.vals.length := by
          funext v
          rw [← h.length, fromBigAt, hf, hbit]
        rw [this]
        rfl
      · rw [List.getElem?_eq_none (by simp; omega), List.getElem?_eq_none (by rw [h.length] at hi he; simp; omega)]
        rfl

theorem bigDecl_fields (d : Decl) : (bigDecl d).fields = d.fields.map (bigField d) := rfl

theorem bitOf_eq (d : Decl) (k : Nat) : bitOf d k = bitsSum (d.fields.take k) := rfl

theorem before_recoded (d : Decl) (hacc : acceptedFields 0 d.fields = true) (m : Mode) (buf : Buf) (k : Nat)
    (hk : k ≤ d.fields.length) :
    Recoded d (d.before m buf k) ((bigDecl d).before m buf k) ∧ (d.before m buf k).vals.length = k := by
  induction k with
  | zero => exact ⟨⟨rfl, rfl, rfl, fun i => by simp [Decl.before, St.run, St.init]⟩, rfl⟩
  | succ k ih =>
    obtain ⟨h1, h2⟩ := ih (by omega)
    have hf : d.fields[k]? = some d.fields[k] := List.getElem?_eq_getElem (by omega)
    have hs : d.before m buf (k + 1) = (d.before m buf k).step m buf d.fields[k] := by
      unfold Decl.before
      rw [List.take_succ_eq_append_getElem (by omega), St.run, List.foldl_append]
      rfl
    have hs' : (bigDecl d).before m buf (k + 1) = ((bigDecl d).before m buf k).step m buf (bigField d d.fields[k]) := by
      unfold Decl.before
      rw [bigDecl_fields, List.take_succ_eq_append_getElem (by simp; omega), St.run, List.foldl_append]
      simp [St.run]
    rw [hs, hs']
    have hb : (d.before m buf k).bit = bitOf d k := before_bit d m buf k
    have ha := acceptedFields_get hacc hf
    rw [Nat.zero_add] at ha
    refine ⟨h1.step m buf (by rw [h2]; exact hf) (by rw [h2]; exact hb) (by rw [hb]; exact ha), ?_⟩
    simp [St.step, h2]

theorem bigDecl_get? (d : Decl) (k : Nat) :
    (bigDecl d).fields[k]? = (d.fields[k]?).map (bigField d) := by
  rw [bigDecl_fields, List.getElem?_map]

theorem bigDecl_bits (d : Decl) : (bigDecl d).bits = d.bits := by
  unfold Decl.bits
  rw [bigDecl_fields, List.map_map]
  congr 1
  apply List.map_congr_left
  intro f _
  simp [bigField, bigTy_bits]

theorem bigDecl_minSize (d : Decl) : (bigDecl d).minSize = d.minSize := by
  unfold Decl.minSize
  rw [bigDecl_bits]

theorem acceptedFields_big (d : Decl) (bit : Nat) (fs : List Field) :
    acceptedFields bit (fs.map (bigField d)) = acceptedFields bit fs := by
  induction fs generalizing bit with
  | nil => rfl
  | cons f fs ih =>
    rw [List.map_cons]
    unfold acceptedFields
    rw [ih]
    simp only [bigField, bigTy_accepted, bigTy_bits, bigTy_isVec, Option.isSome_map, List.isEmpty_map]

theorem bigDecl_acceptedFields (d : Decl) :
    acceptedFields 0 (bigDecl d).fields = acceptedFields 0 d.fields := acceptedFields_big d 0 d.fields

theorem bigDecl_accepted (d : Decl) : (bigDecl d).accepted = d.accepted := by
  unfold Decl.accepted
  rw [bigDecl_acceptedFields, bigDecl_fields, List.filter_map, List.length_map]
  rfl

theorem get_recode (d : Decl) (hacc : acceptedFields 0 d.fields = true) (m : Mode) (buf : Buf) (k : Nat) :
    d.get m buf k = ((bigDecl d).get m buf k).map (fromBigAt d k) := by
  unfold Decl.get
  rw [bigDecl_get?]
  cases hf : d.fields[k]? with
  | none => rfl
  | some f =>
    have hk : k < d.fields.length := (List.getElem?_eq_some_iff.mp hf).1
    obtain ⟨h, _⟩ := before_recoded d hacc m buf k (by omega)
    have hb : (d.before m buf k).bit = bitOf d k := before_bit d m buf k
    have ha := acceptedFields_get hacc hf
    rw [Nat.zero_add] at ha
    simp only [Option.map_some]
    rw [h.fieldLen m buf f, getField_recode _ _ _ _ _ _ (by rw [hb]; exact ha), h.lens]
    have : fromBigVal (d.before m buf k).bit f.ty = fromBigAt d k := by
      funext v
      rw [fromBigAt, hf, hb]
    rw [this, h.bit]
    rfl

theorem getRaw_recode (d : Decl) (hacc : acceptedFields 0 d.fields = true) (m : Mode) (buf : Buf) (k : Nat) :
    d.getRaw m buf k = (bigDecl d).getRaw m buf k := by
  unfold Decl.getRaw
  rw [bigDecl_get?]
  cases hf : d.fields[k]? with
  | none => rfl
  | some f =>
    have hk : k < d.fields.length := (List.getElem?_eq_some_iff.mp hf).1
    obtain ⟨h, _⟩ := before_recoded d hacc m buf k (by omega)
    simp only [Option.map_some]
    rw [h.fieldLen m buf f, h.lens, h.bit]

theorem final_recoded (d : Decl) (hacc : acceptedFields 0 d.fields = true) (m : Mode) (buf : Buf) :
    Recoded d (d.final m buf) ((bigDecl d).final m buf) := by
  have h := (before_recoded d hacc m buf d.fields.length (Nat.le_refl _)).1
  unfold Decl.before at h
  rw [List.take_length, bigDecl_fields, List.take_of_length_le (by simp)] at h
  exact h

theorem packetSize_recode (d : Decl) (hacc : acceptedFields 0 d.fields = true) (m : Mode) (buf : Buf) :
    d.packetSize m buf = (bigDecl d).packetSize m buf := by
  have h := final_recoded d hacc m buf
  unfold Decl.packetSize
  simp only [h.bit, h.lens]

theorem payloadBounds_recode (d : Decl) (hacc : acceptedFields 0 d.fields = true) (m : Mode) (buf : Buf) :
    d.payloadBounds m buf = (bigDecl d).payloadBounds m buf := by
  have hp : (bigDecl d).payloadIdx = d.payloadIdx := by
    unfold Decl.payloadIdx
    rw [bigDecl_fields, List.findIdx?_map]
    rfl
  unfold Decl.payloadBounds
  rw [hp]
  cases d.payloadIdx with
  | none => rfl
  | some k =>
    simp only []
    rw [bigDecl_get?]
    cases hf : d.fields[k]? with
    | none => rfl
    | some f =>
      have hk : k < d.fields.length := (List.getElem?_eq_some_iff.mp hf).1
      obtain ⟨h, _⟩ := before_recoded d hacc m buf k (by omega)
      simp only [Option.map_some]
      rw [h.bit, h.lens]
      have hl := h.fieldLen m buf f
      unfold Verif.fieldLen at hl
      cases he : f.len with
      | none => simp [bigField, he]
      | some e =>
        simp only [bigField, he, Option.map_some] at hl ⊢
        rw [hl]

theorem payload_recode (d : Decl) (hacc : acceptedFields 0 d.fields = true) (m : Mode) (buf : Buf) :
    d.payload m buf = (bigDecl d).payload m buf := by
  unfold Decl.payload
  rw [payloadBounds_recode d hacc]

theorem payloadMutCopy_recode (d : Decl) (hacc : acceptedFields 0 d.fields = true) (m : Mode) (buf new : Buf) :
    d.payloadMutCopy m buf new = (bigDecl d).payloadMutCopy m buf new := by
  unfold Decl.payloadMutCopy
  rw [payloadBounds_recode d hacc]

theorem toBigs_length (bit : Nat) (args : List Prim) (vs : List Nat) :
    (toBigs bit args vs).length = vs.length := by
  induction args generalizing bit vs with
  | nil => cases vs <;> rfl
  | cons p ps ih => cases vs with
    | nil => rfl
    | cons v vs => simp [toBigs, ih]

theorem setArgs_recode (m : Mode) (lensOf lensOf' : Buf → List (Res Nat)) (hl : ∀ b, lensOf b = lensOf' b)
    (bit : Nat) (args : List Prim) (h : acceptedArgs bit args = true) (vs : List Nat) (buf : Buf) :
    setArgs m lensOf bit args vs buf =
      setArgs m lensOf' bit (args.map fun p => ⟨p.size, .big⟩) (toBigs bit args vs) buf := by
  induction args generalizing bit vs buf with
  | nil => cases vs <;> rfl
  | cons p ps ih =>
    cases vs with
    | nil => rfl
    | cons v vs =>
      simp only [acceptedArgs, Bool.and_eq_true] at h
      simp only [List.map_cons, setArgs, toBigs, hl]
      cases curOff m bit (lensOf' buf) with
      | error e => rfl
      | ok co =>
        simp only [ok_bind]
        rw [setPrim_recode (accepted_fits h.1), toBig]
        cases setPrim ⟨p.size, .big⟩ (bit % 8) buf co (ofBits (stored p (bit % 8) v)) with
        | error e => rfl
        | ok b => simp only [ok_bind]; exact ih _ h.2 _ _

theorem set_recode (d : Decl) (hacc : acceptedFields 0 d.fields = true) (m : Mode) (buf : Buf) (k : Nat)
    (v : Val) : d.set m buf k v = (bigDecl d).set m buf k (toBigAt d k v) := by
  unfold Decl.set
  rw [bigDecl_get?]
  cases hf : d.fields[k]? with
  | none => rfl
  | some f =>
    have hk : k < d.fields.length := (List.getElem?_eq_some_iff.mp hf).1
    have h := fun b => (before_recoded d hacc m b k (by omega)).1
    have hb : (d.before m buf k).bit = bitOf d k := before_bit d m buf k
    have hb' : ((bigDecl d).before m buf k).bit = bitOf d k := by rw [← (h buf).bit]; exact hb
    have ha := acceptedFields_get hacc hf
    rw [Nat.zero_add, ← bitOf_eq] at ha
    simp only [Option.map_some, toBigAt, hf]
    have hl := (h buf).fieldLen m buf f
    cases hty : f.ty with
    | prim p =>
      rw [hty] at ha
      cases v with
      | num v =>
        simp only [bigField, hty, bigTy, toBigVal, hb, hb', (h buf).lens]
        cases curOff m (bitOf d k) ((bigDecl d).before m buf k).lens with
        | error e => rfl
        | ok co => simp only [ok_bind]; rw [setPrim_recode (accepted_fits ha)]; rfl
      | nums vs => simp [bigField, hty, bigTy, toBigVal]
      | list vs => simp [bigField, hty, bigTy, toBigVal]
    | misc args =>
      rw [hty] at ha
      simp only [Ty.accepted, Bool.and_eq_true] at ha
      cases v with
      | num v => simp [bigField, hty, bigTy, toBigVal]
      | nums vs =>
        simp only [bigField, hty, bigTy, toBigVal, hb, hb', toBigs_length, List.length_map]
        split
        · exact setArgs_recode m _ _ (fun b => (h b).lens) _ _ ha.2 _ _
        · rfl
      | list vs => simp [bigField, hty, bigTy, toBigVal]
    | vecPrim p =>
      cases v with
      | num v => simp [bigField, hty, bigTy, toBigVal]
      | list vs => simp [bigField, hty, bigTy, toBigVal]
      | nums vs =>
        unfold Verif.fieldLen at hl
        cases he : f.len with
        | none => simp only [bigField, hty, bigTy, toBigVal, he, Option.map_none, (h buf).bit, (h buf).lens]
        | some e =>
          simp only [bigField, he, Option.map_some] at hl
          simp only [bigField, hty, bigTy, toBigVal, he, Option.map_some, (h buf).bit, (h buf).lens, hl]
    | vecPkt c =>
      cases v with
      | num v => simp [bigField, hty, bigTy, toBigVal]
      | nums vs => simp [bigField, hty, bigTy, toBigVal]
      | list vs =>
        have hg : (bigField d f).ty = .vecPkt c := by simp [bigField, hty, bigTy]
        simp only [hg, toBigVal, (h buf).bit, (h buf).lens, hl]

theorem populateFrom_recode (d : Decl) (hacc : acceptedFields 0 d.fields = true) (m : Mode) (vs : List Val)
    (k : Nat) (buf : Buf) :
    d.populateFrom m k vs buf = (bigDecl d).populateFrom m k (vs.mapIdx fun i => toBigAt d (k + i)) buf := by
  induction vs generalizing k buf with
  | nil => rfl
  | cons v vs ih =>
    rw [List.mapIdx_cons]
    simp only [Decl.populateFrom, Nat.add_zero]
    rw [set_recode d hacc]
    cases (bigDecl d).set m buf k (toBigAt d k v) with
    | error e => rfl
    | ok b =>
      simp only [ok_bind]
      rw [ih]
      congr 1
      apply List.ext_getElem (by simp)
      intro i h1 h2
      simp [Nat.add_assoc, Nat.add_comm 1 i]

theorem populate_recode (d : Decl) (hacc : acceptedFields 0 d.fields = true) (m : Mode) (buf : Buf)
    (vs : List Val) : d.populate m buf (.list vs) = (bigDecl d).populate m buf (.list (toBigStruct d vs)) := by
  simp only [Decl.populate, toBigStruct, List.length_mapIdx, bigDecl_fields, List.length_map]
  split
  · rw [populateFrom_recode d hacc]
    simp
  · rfl

theorem mapM_recode {xs ys : List (Res Val)} (f : Nat → Val → Val) (hl : xs.length = ys.length)
    (h : ∀ i, xs[i]? = (ys[i]?).map (Except.map (f i))) :
    xs.mapM id = (ys.mapM id).map fun vs => vs.mapIdx f := by
  induction xs generalizing ys f with
  | nil =>
    cases ys with
    | nil => rfl
    | cons y ys => simp at hl
  | cons x xs ih =>
    cases ys with
    | nil => simp at hl
    | cons y ys =>
      have h0 := h 0
      simp at h0
      rw [List.mapM_cons, List.mapM_cons, h0]
      cases y with
      | error e => rfl
      | ok v =>
        simp only [id, Except.map, ok_bind]
        rw [ih (ys := ys) (fun i => f (i + 1)) (by simpa using hl) (fun i => by simpa using h (i + 1))]
        cases ys.mapM id with
        | error e => rfl
        | ok vs =>
          simp only [Except.map, ok_bind]
          simp only [pure, Except.pure, List.mapIdx_cons]

theorem fromPacket_recode (d : Decl) (hacc : acceptedFields 0 d.fields = true) (m : Mode) (buf : Buf) :
    d.fromPacket m buf = (((bigDecl d).final m buf).vals.mapM id).map fun vs => .list (fromBigStruct d vs) := by
  have h := final_recoded d hacc m buf
  unfold Decl.fromPacket
  rw [mapM_recode (fromBigAt d) h.length h.vals]
  cases ((bigDecl d).final m buf).vals.mapM id <;> rfl

end Verif
