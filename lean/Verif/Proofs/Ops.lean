import Verif.Model.Ops
import Verif.Proofs.Bits

/-! Closed form of the generated bit-field code and its effect on the bits of a buffer. -/

namespace Verif
open Spec

/-- Closed form of the `i`-th operation of a big-endian field. -/
def opBE (offset size i : Nat) : GetOperation :=
  let shiftr := 8 * (i + 1) - (offset + size)
  let top := 8 - (offset - 8 * i)
  { mask := (2 ^ (top - shiftr) - 1) <<< shiftr
    shiftl := (offset + size) - 8 * (i + 1)
    shiftr }

/-- Closed form of the mutator operation. -/
def sopBE (offset size i : Nat) : SetOperation :=
  let shiftr := 8 * (i + 1) - (offset + size)
  let shiftl := (offset + size) - 8 * (i + 1)
  let top := 8 - (offset - 8 * i)
  { saveMask := 255 - (2 ^ (top - shiftr) - 1) <<< shiftr
    valueMask := (2 ^ (top - shiftr) - 1) <<< shiftl
    shiftl := shiftr
    shiftr := shiftl }

/-- The whole field lies in the bytes that the macro looks at. -/
def fits (offset size : Nat) : Prop :=
  offset ≤ 7 ∧ 0 < size ∧ size ≤ 64 ∧ offset + size ≤ 8 * numBytes offset size

instance (offset size : Nat) : Decidable (fits offset size) := by unfold fits; infer_instance

set_option maxRecDepth 10000 in
theorem operations_big_table : ∀ offset < 8, ∀ size < 65, operations offset size .big =
    if fits offset size then
      some ((List.range (numBytes offset size)).map (opBE offset size)) else none := by
  decide +kernel

set_option maxRecDepth 10000 in
theorem toMutator_table : ∀ offset < 8, ∀ size < 65, fits offset size →
    toMutator ((List.range (numBytes offset size)).map (opBE offset size)) =
      (List.range (numBytes offset size)).map (sopBE offset size) := by
  decide +kernel

theorem operations_big {offset size : Nat} (h : fits offset size) :
    operations offset size .big =
      some ((List.range (numBytes offset size)).map (opBE offset size)) := by
  have := operations_big_table offset (by have := h.1; omega) size (by have := h.2.2.1; omega)
  rw [this, if_pos h]

theorem operations_none {offset size : Nat} (e : Endianness) (h : offset > 7 ∨ size = 0 ∨ size > 64) :
    operations offset size e = none := by
  simp [operations, h]

theorem operations_isSome_endian (offset size : Nat) (e : Endianness) :
    (operations offset size e).isSome = (operations offset size .big).isSome := by
  unfold operations
  split
  · rfl
  · dsimp only
    cases opsLoop offset size (numBytes offset size) (numBytes offset size) 0 offset size <;> rfl

theorem operations_isSome_iff (offset size : Nat) (e : Endianness) :
    (operations offset size e).isSome = true ↔ fits offset size := by
  rw [operations_isSome_endian]
  by_cases h : offset > 7 ∨ size = 0 ∨ size > 64
  · rw [operations_none _ h]
    simp [fits]; omega
  · rw [operations_big_table offset (by omega) size (by omega)]
    split <;> simp_all

/-! ### Getter -/

theorem applyShift_ok {W x left right : Nat} (h : left < right → right - left < W)
    (h' : right < left → left - right < W) :
    ∃ y, applyShift W x left right = .ok y ∧
      ∀ j, y.testBit j =
        (decide (left ≤ j + right ∧ (right < left → j < W)) && x.testBit (j + right - left)) := by
  unfold applyShift
  split
  · rename_i he
    subst he
    exact ⟨x, rfl, fun j => by simp⟩
  · split
    · rename_i hlt
      refine ⟨_, by rw [shl, if_pos (h' hlt)], fun j => ?_⟩
      rw [Nat.testBit_mod_two_pow, Nat.testBit_shiftLeft]
      by_cases hj : j < W
      · by_cases hk : left ≤ j + right
        · have : j ≥ left - right := by omega
          have e : j - (left - right) = j + right - left := by omega
          simp [hj, hk, this, e]
        · have : ¬ j ≥ left - right := by omega
          simp [hk, this]
      · simp [hj, hlt]
    · rename_i hne hlt
      refine ⟨_, by rw [shr, if_pos (h (by omega))], fun j => ?_⟩
      rw [Nat.testBit_shiftRight]
      have : left ≤ j + right := by omega
      have e : right - left + j = j + right - left := by omega
      simp [this, hlt, e]

theorem testBit_maskShift (n s k : Nat) :
    ((2 ^ n - 1) <<< s).testBit k = decide (s ≤ k ∧ k < s + n) := by
  rw [Nat.testBit_shiftLeft, Nat.testBit_two_pow_sub_one]
  by_cases h : s ≤ k
  · simp [h]; omega
  · simp [h]

theorem storageWidth_ge {size : Nat} (h : size ≤ 64) : size ≤ storageWidth size := by
  unfold storageWidth; (repeat' split) <;> omega

theorem storageWidth_ge8 (size : Nat) : 8 ≤ storageWidth size := by
  unfold storageWidth; (repeat' split) <;> omega

theorem numBytes_bounds {offset size : Nat} (h : fits offset size) :
    8 * numBytes offset size < offset + size + 8 ∧ offset + size ≤ 8 * numBytes offset size := by
  obtain ⟨h1, h2, h3, h4⟩ := h
  unfold numBytes at *
  split at h4 <;> rename_i hc
  · rw [if_pos hc]; constructor <;> omega
  · rw [if_neg hc]; constructor <;> omega

theorem testBit_byte_ge {b : UInt8} {k : Nat} (h : 8 ≤ k) : b.toNat.testBit k = false := by
  apply Nat.testBit_lt_two_pow
  exact Nat.lt_of_lt_of_le b.toNat_lt (Nat.pow_le_pow_right (n := 2) (by decide) h)

theorem opBE_eval {offset size i : Nat} (h : fits offset size) (hi : i < numBytes offset size)
    (b : UInt8) :
    ∃ y, (opBE offset size i).eval (storageWidth size) b.toNat = .ok y ∧
      ∀ j, y.testBit j = (decide (j < size ∧ (offset + size - 1 - j) / 8 = i) &&
        b.toNat.testBit (7 - (offset + size - 1 - j) % 8)) := by
  have hb := numBytes_bounds h
  have hW := storageWidth_ge h.2.2.1
  have hW8 := storageWidth_ge8 size
  obtain ⟨h1, h2, h3, h4⟩ := h
  have hx : (if (opBE offset size i).mask ≠ 0xFF then b.toNat &&& (opBE offset size i).mask
      else b.toNat) = b.toNat &&& (opBE offset size i).mask := by
    split
    · rfl
    · rename_i hm
      have hm : (opBE offset size i).mask = 2 ^ 8 - 1 := by simpa using hm
      rw [hm, Nat.and_two_pow_sub_one_eq_mod]
      exact (Nat.mod_eq_of_lt b.toNat_lt).symm
  unfold GetOperation.eval
  rw [hx]
  obtain ⟨y, hy, hbits⟩ := applyShift_ok (W := storageWidth size)
    (x := b.toNat &&& (opBE offset size i).mask)
    (left := (offset + size) - 8 * (i + 1)) (right := 8 * (i + 1) - (offset + size))
    (by omega) (by omega)
  refine ⟨y, hy, fun j => ?_⟩
  rw [hbits j, Nat.testBit_and]
  simp only [opBE, testBit_maskShift]
  by_cases hj : j < size ∧ (offset + size - 1 - j) / 8 = i
  · obtain ⟨hj1, hj2⟩ := hj
    have e : j + (8 * (i + 1) - (offset + size)) - (offset + size - 8 * (i + 1)) =
        7 - (offset + size - 1 - j) % 8 := by omega
    rw [e]
    have c1 : offset + size - 8 * (i + 1) ≤ j + (8 * (i + 1) - (offset + size)) := by omega
    have c2 : 8 * (i + 1) - (offset + size) < offset + size - 8 * (i + 1) →
      j < storageWidth size := by omega
    have c3 : 8 * (i + 1) - (offset + size) ≤ 7 - (offset + size - 1 - j) % 8 := by omega
    have c4 : 7 - (offset + size - 1 - j) % 8 < 8 * (i + 1) - (offset + size) +
      (8 - (offset - 8 * i) - (8 * (i + 1) - (offset + size))) := by omega
    simp [hj1, hj2, c1, c3, c4]
    intro; omega
  · rw [decide_eq_false hj, Bool.false_and]
    by_cases c1 : offset + size - 8 * (i + 1) ≤ j + (8 * (i + 1) - (offset + size))
    · by_cases c3 : (8 * (i + 1) - (offset + size)) ≤
          j + (8 * (i + 1) - (offset + size)) - (offset + size - 8 * (i + 1)) ∧
          j + (8 * (i + 1) - (offset + size)) - (offset + size - 8 * (i + 1)) <
          8 * (i + 1) - (offset + size) +
            (8 - (offset - 8 * i) - (8 * (i + 1) - (offset + size)))
      · exfalso; apply hj; omega
      · rw [decide_eq_false c3]; simp
    · have : ¬ (offset + size - 8 * (i + 1) ≤ j + (8 * (i + 1) - (offset + size)) ∧
        (8 * (i + 1) - (offset + size) < offset + size - 8 * (i + 1) → j < storageWidth size)) :=
        fun h => c1 h.1
      rw [decide_eq_false this]; simp

theorem index_eq_ok {buf : Buf} {i : Nat} (h : i < buf.length) : index buf i = .ok (buf.getD i 0) := by
  simp [index, h]

theorem index_panic {buf : Buf} {i : Nat} (h : buf.length ≤ i) : index buf i = panic := by
  simp [index, h]

theorem getOpsFrom_spec {offset size : Nat} (h : fits offset size) (buf : Buf) (co n idx : Nat)
    (hn : idx + n ≤ numBytes offset size) (hb : co + idx + n ≤ buf.length) :
    ∃ v, getOpsFrom (storageWidth size) buf co idx
        ((List.range' idx n).map (opBE offset size)) = .ok v ∧
      ∀ j, v.testBit j = (decide (j < size ∧ idx ≤ (offset + size - 1 - j) / 8 ∧
          (offset + size - 1 - j) / 8 < idx + n) &&
        bitAt buf (8 * co + (offset + size - 1 - j))) := by
  induction n generalizing idx with
  | zero => exact ⟨0, rfl, fun j => by simp; omega⟩
  | succ n ih =>
    obtain ⟨v, hv, hvb⟩ := ih (idx + 1) (by omega) (by omega)
    obtain ⟨y, hy, hyb⟩ := opBE_eval h (i := idx) (by omega) (buf.getD (co + idx) 0)
    refine ⟨y ||| v, ?_, fun j => ?_⟩
    · rw [List.range'_succ, List.map_cons, getOpsFrom, index_eq_ok (by omega)]
      simp only [ok_bind, hy, hv]
    · rw [Nat.testBit_or, hyb, hvb]
      by_cases hj : j < size
      · by_cases e : (offset + size - 1 - j) / 8 = idx
        · have h1 : (8 * co + (offset + size - 1 - j)) / 8 = co + idx := by omega
          have h2 : (8 * co + (offset + size - 1 - j)) % 8 = (offset + size - 1 - j) % 8 := by omega
          simp [hj, e, bitAt, h1, h2]
        · by_cases c : idx + 1 ≤ (offset + size - 1 - j) / 8 ∧
            (offset + size - 1 - j) / 8 < idx + 1 + n
          · have : idx ≤ (offset + size - 1 - j) / 8 ∧
              (offset + size - 1 - j) / 8 < idx + (n + 1) := by omega
            simp [hj, e, c, this]
          · have : ¬ (idx ≤ (offset + size - 1 - j) / 8 ∧
              (offset + size - 1 - j) / 8 < idx + (n + 1)) := by omega
            rw [decide_eq_false (by omega), decide_eq_false (by omega), decide_eq_false (by omega)]
            simp
      · simp [hj]

/-- The big-endian getter returns bits `8*co + offset ..` of the buffer. -/
theorem getPrim_big {offset size : Nat} (h : fits offset size) (buf : Buf) (co : Nat)
    (hb : co + numBytes offset size ≤ buf.length) :
    getPrim ⟨size, .big⟩ offset buf co =
      .ok (ofBits (bitSlice (bitsOf buf) (8 * co + offset) size)) := by
  unfold getPrim
  simp only [operations_big h]
  obtain ⟨v, hv, hvb⟩ := getOpsFrom_spec h buf co (numBytes offset size) 0 (by omega) (by omega)
  rw [List.range_eq_range', getOps, hv]
  congr 1
  apply Nat.eq_of_testBit_eq
  intro j
  have hbd := numBytes_bounds h
  have hlen : (bitSlice (bitsOf buf) (8 * co + offset) size).length = size := by
    simp [bitSlice]; omega
  rw [hvb, ofBits_testBit, hlen]
  by_cases hj : j < size
  · have c : j < size ∧ 0 ≤ (offset + size - 1 - j) / 8 ∧
      (offset + size - 1 - j) / 8 < 0 + numBytes offset size := by omega
    simp only [c, decide_true, Bool.true_and, and_self]
    rw [List.getD_eq_getElem?_getD, bitSlice, List.getElem?_take_of_lt (by omega),
      List.getElem?_drop, bitsOf_getElem? _ _ (by omega)]
    simp only [Option.getD_some]
    congr 1; omega
  · simp [hj]

/-- A getter that would read past the end panics. -/
theorem getOpsFrom_panic (W : Nat) (buf : Buf) (co idx : Nat) (ops : List GetOperation)
    (hne : ops ≠ []) (hb : buf.length < co + idx + ops.length) (v : Nat) :
    getOpsFrom W buf co idx ops ≠ .ok v := by
  induction ops generalizing idx v with
  | nil => exact absurd rfl hne
  | cons op ops ih =>
    rw [getOpsFrom]
    intro hc
    rw [bind_eq_ok] at hc
    obtain ⟨b, hb1, hc⟩ := hc
    rw [bind_eq_ok] at hc
    obtain ⟨y, _, hc⟩ := hc
    rw [bind_eq_ok] at hc
    obtain ⟨r, hr, _⟩ := hc
    by_cases hl : co + idx < buf.length
    · cases ops with
      | nil => simp at hb; omega
      | cons op' ops' =>
        exact ih (idx + 1) (by simp) (by simp only [List.length_cons] at hb ⊢; omega) r hr
    · rw [index_panic (by omega)] at hb1
      simp at hb1

/-! ### Setter -/

theorem testBit_255_sub {m k : Nat} (hm : m ≤ 255) (hk : k < 8) :
    (255 - m).testBit k = !m.testBit k := by
  have : 255 - m = 2 ^ 8 - (m + 1) := by omega
  rw [this, Nat.testBit_two_pow_sub_succ (by omega)]
  simp [hk]

theorem opMask_le {offset size i : Nat} (h : fits offset size) (_hi : i < numBytes offset size) :
    (opBE offset size i).mask ≤ 255 := by
  have hb := numBytes_bounds h
  have hlt : (opBE offset size i).mask < 2 ^ 8 := by
    apply Nat.lt_pow_two_of_testBit
    intro k hk
    simp only [opBE, testBit_maskShift, decide_eq_false_iff_not]
    omega
  omega

theorem sopBE_eval {offset size i : Nat} (h : fits offset size) (hi : i < numBytes offset size)
    (old : UInt8) (v : Nat) :
    ∃ y, (sopBE offset size i).eval (storageWidth size) old.toNat v = .ok y ∧ y < 256 ∧
      ∀ q, q < 8 → y.testBit (7 - q) =
        if offset ≤ 8 * i + q ∧ 8 * i + q < offset + size then
          v.testBit (offset + size - 1 - (8 * i + q)) else old.toNat.testBit (7 - q) := by
  have hb := numBytes_bounds h
  have hW := storageWidth_ge h.2.2.1
  have hW8 := storageWidth_ge8 size
  have hmle := opMask_le h hi
  obtain ⟨h1, h2, h3, h4⟩ := h
  -- the masked value
  obtain ⟨y, hy, hbits⟩ := applyShift_ok (W := storageWidth size)
    (x := if (sopBE offset size i).valueMask ≠ 0xFF then v &&& (sopBE offset size i).valueMask
      else v)
    (left := 8 * (i + 1) - (offset + size)) (right := (offset + size) - 8 * (i + 1))
    (by omega) (by omega)
  replace hy : applyShift (storageWidth size) _ (sopBE offset size i).shiftl
    (sopBE offset size i).shiftr = .ok y := hy
  have key : ∀ q, q < 8 → (y % 256).testBit (7 - q) =
      (decide (offset ≤ 8 * i + q ∧ 8 * i + q < offset + size) &&
        v.testBit (offset + size - 1 - (8 * i + q))) := by
    intro q hq
    rw [show (256 : Nat) = 2 ^ 8 by rfl, Nat.testBit_mod_two_pow, hbits]
    simp only [show 7 - q < 8 by omega, decide_true, Bool.true_and]
    by_cases hm : (sopBE offset size i).valueMask ≠ 0xFF
    · simp only [hm, ne_eq, not_false_eq_true, if_true, Nat.testBit_and]
      simp only [sopBE, testBit_maskShift]
      by_cases c : offset ≤ 8 * i + q ∧ 8 * i + q < offset + size
      · have e : 7 - q + (offset + size - 8 * (i + 1)) - (8 * (i + 1) - (offset + size)) =
          offset + size - 1 - (8 * i + q) := by omega
        rw [e, decide_eq_true c, decide_eq_true (by omega), decide_eq_true (by omega)]
        simp
      · rw [decide_eq_false c]
        by_cases c2 : (8 * (i + 1) - (offset + size)) ≤ 7 - q + (offset + size - 8 * (i + 1))
        · have c3 : ¬ ((offset + size - 8 * (i + 1)) ≤
              7 - q + (offset + size - 8 * (i + 1)) - (8 * (i + 1) - (offset + size)) ∧
              7 - q + (offset + size - 8 * (i + 1)) - (8 * (i + 1) - (offset + size)) <
              (offset + size - 8 * (i + 1)) +
              (8 - (offset - 8 * i) - (8 * (i + 1) - (offset + size)))) := by omega
          rw [decide_eq_false c3]; simp
        · rw [decide_eq_false (fun hh => c2 hh.1)]; simp
    · have hm' : (sopBE offset size i).valueMask = 0xFF := by simpa using hm
      simp only [hm', ne_eq, not_true_eq_false, if_false]
      -- valueMask = 0xFF forces the aligned last byte
      have t0 := congrArg (fun z => z.testBit 0) hm'
      have t7 := congrArg (fun z => z.testBit 7) hm'
      simp only [sopBE, testBit_maskShift, show Nat.testBit 255 0 = true by decide,
        show Nat.testBit 255 7 = true by decide, decide_eq_true_eq] at t0 t7
      have c : offset ≤ 8 * i + q ∧ 8 * i + q < offset + size := by omega
      have e : 7 - q + (offset + size - 8 * (i + 1)) - (8 * (i + 1) - (offset + size)) =
          offset + size - 1 - (8 * i + q) := by omega
      rw [e, decide_eq_true c, decide_eq_true (by omega)]
  unfold SetOperation.eval
  simp only [hy, ok_bind]
  by_cases hs : (sopBE offset size i).saveMask ≠ 0
  · rw [if_pos hs]
    refine ⟨_, rfl, Nat.mod_lt _ (by decide), fun q hq => ?_⟩
    rw [show (256 : Nat) = 2 ^ 8 by rfl, Nat.testBit_mod_two_pow]
    simp only [show 7 - q < 8 by omega, decide_true, Bool.true_and, Nat.testBit_or, Nat.testBit_and]
    rw [show (2 : Nat) ^ 8 = 256 by rfl, key q hq]
    have hsm : (sopBE offset size i).saveMask.testBit (7 - q) =
        !(decide (offset ≤ 8 * i + q ∧ 8 * i + q < offset + size)) := by
      have : (sopBE offset size i).saveMask = 255 - (opBE offset size i).mask := rfl
      rw [this, testBit_255_sub hmle (by omega)]
      simp only [opBE, testBit_maskShift]
      congr 1
      apply decide_eq_decide.mpr
      omega
    rw [hsm]
    by_cases c : offset ≤ 8 * i + q ∧ 8 * i + q < offset + size
    · simp [c]
    · simp [c]
  · rw [if_neg hs]
    refine ⟨_, rfl, Nat.mod_lt _ (by decide), fun q hq => ?_⟩
    rw [key q hq]
    have hs' : 255 - (opBE offset size i).mask = 0 := Decidable.not_not.mp hs
    have hm255 : (opBE offset size i).mask = 255 := by omega
    have t0 := congrArg (fun z => z.testBit 0) hm255
    have t7 := congrArg (fun z => z.testBit 7) hm255
    simp only [opBE, testBit_maskShift, show Nat.testBit 255 0 = true by decide,
        show Nat.testBit 255 7 = true by decide, decide_eq_true_eq] at t0 t7
    have c : offset ≤ 8 * i + q ∧ 8 * i + q < offset + size := by omega
    simp [c]

theorem setIndex_ok {buf : Buf} {i : Nat} (h : i < buf.length) (b : UInt8) :
    setIndex buf i b = .ok (buf.set i b) := by simp [setIndex, h]

theorem bitAt_set {buf : Buf} {i : Nat} (h : i < buf.length) (b : UInt8) (n : Nat) :
    bitAt (buf.set i b) n = if n / 8 = i then b.toNat.testBit (7 - n % 8) else bitAt buf n := by
  unfold bitAt
  by_cases e : n / 8 = i
  · simp [e, h]
  · have : ¬ i = n / 8 := fun h => e h.symm
    simp [e, List.getElem?_set_ne this]

theorem setOpsFrom_spec {offset size : Nat} (h : fits offset size) (co v n idx : Nat) (buf : Buf)
    (hn : idx + n ≤ numBytes offset size) (hb : co + idx + n ≤ buf.length) :
    ∃ new, setOpsFrom (storageWidth size) co v idx
        ((List.range' idx n).map (sopBE offset size)) buf = .ok new ∧ new.length = buf.length ∧
      ∀ p, bitAt new p =
        if 8 * co + offset ≤ p ∧ p < 8 * co + offset + size ∧
          8 * (co + idx) ≤ p ∧ p < 8 * (co + idx + n) then
          v.testBit (8 * co + offset + size - 1 - p) else bitAt buf p := by
  induction n generalizing idx buf with
  | zero =>
    refine ⟨buf, rfl, rfl, fun p => ?_⟩
    rw [if_neg (by omega)]
  | succ n ih =>
    obtain ⟨y, hy, hlt, hyb⟩ := sopBE_eval h (i := idx) (by omega) (buf.getD (co + idx) 0) v
    obtain ⟨new, hnew, hlen, hbits⟩ := ih (idx + 1) (buf.set (co + idx) (UInt8.ofNat y))
      (by omega) (by simp; omega)
    refine ⟨new, ?_, by simpa using hlen, fun p => ?_⟩
    · rw [List.range'_succ, List.map_cons, setOpsFrom, index_eq_ok (by omega)]
      simp only [ok_bind, hy]
      rw [setIndex_ok (by omega)]
      simpa using hnew
    · rw [hbits, bitAt_set (by omega)]
      by_cases c : p / 8 = co + idx
      · rw [if_neg (by omega), if_pos c]
        have : (UInt8.ofNat y).toNat = y := by
          rw [UInt8.toNat_ofNat']; exact Nat.mod_eq_of_lt hlt
        rw [this, hyb (p % 8) (by omega)]
        by_cases c2 : offset ≤ 8 * idx + p % 8 ∧ 8 * idx + p % 8 < offset + size
        · rw [if_pos c2, if_pos (by omega)]
          congr 1; omega
        · rw [if_neg c2, if_neg (by omega)]
          unfold bitAt; rw [c]
      · rw [if_neg c]
        by_cases c2 : 8 * co + offset ≤ p ∧ p < 8 * co + offset + size ∧
          8 * (co + (idx + 1)) ≤ p ∧ p < 8 * (co + (idx + 1) + n)
        · rw [if_pos c2, if_pos (by omega)]
        · rw [if_neg c2, if_neg (by omega)]

/-- Exact effect of the big-endian setter, bit by bit. -/
theorem setPrim_big_bits {offset size : Nat} (h : fits offset size) (buf : Buf) (co v : Nat)
    (hb : co + numBytes offset size ≤ buf.length) :
    ∃ new, setPrim ⟨size, .big⟩ offset buf co v = .ok new ∧ new.length = buf.length ∧
      ∀ p, bitAt new p =
        if 8 * co + offset ≤ p ∧ p < 8 * co + offset + size then
          v.testBit (8 * co + offset + size - 1 - p) else bitAt buf p := by
  unfold setPrim
  simp only [operations_big h]
  rw [toMutator_table offset (by have := h.1; omega) size (by have := h.2.2.1; omega) h]
  obtain ⟨new, hn, hl, hbits⟩ :=
    setOpsFrom_spec h co v (numBytes offset size) 0 buf (by omega) (by omega)
  have hbd := numBytes_bounds h
  refine ⟨new, by rw [setOps, List.range_eq_range']; exact hn, hl, fun p => ?_⟩
  rw [hbits]
  by_cases c : 8 * co + offset ≤ p ∧ p < 8 * co + offset + size
  · rw [if_pos c, if_pos (by omega)]
  · rw [if_neg c, if_neg (by omega)]

/-- Exact effect of the big-endian setter on the bit sequence. -/
theorem setPrim_big {offset size : Nat} (h : fits offset size) (buf : Buf) (co v : Nat)
    (hb : co + numBytes offset size ≤ buf.length) :
    ∃ new, setPrim ⟨size, .big⟩ offset buf co v = .ok new ∧ new.length = buf.length ∧
      bitsOf new = (bitsOf buf).take (8 * co + offset) ++ toBits size v ++
        (bitsOf buf).drop (8 * co + offset + size) := by
  obtain ⟨new, hn, hl, hbits⟩ := setPrim_big_bits h buf co v hb
  have hbd := numBytes_bounds h
  refine ⟨new, hn, hl, ?_⟩
  apply List.ext_getElem?
  intro p
  have htl : ((bitsOf buf).take (8 * co + offset)).length = 8 * co + offset := by simp; omega
  by_cases hp : p < 8 * new.length
  · rw [bitsOf_getElem? _ _ hp, hbits]
    by_cases c1 : p < 8 * co + offset
    · rw [if_neg (by omega), List.append_assoc, List.getElem?_append_left (by omega),
        List.getElem?_take_of_lt c1, bitsOf_getElem? _ _ (by omega)]
    · by_cases c2 : p < 8 * co + offset + size
      · rw [if_pos (by omega), List.append_assoc, List.getElem?_append_right (by omega),
          List.getElem?_append_left (by rw [htl, toBits_length]; omega), htl,
          toBits_getElem? _ _ _ (by omega)]
        congr 2; omega
      · rw [if_neg (by omega), List.getElem?_append_right
          (by rw [List.length_append, htl, toBits_length]; omega),
          List.length_append, htl, toBits_length, List.getElem?_drop]
        rw [show 8 * co + offset + size + (p - (8 * co + offset + size)) = p by omega,
          bitsOf_getElem? _ _ (by omega)]
  · rw [List.getElem?_eq_none (by simp; omega), List.getElem?_eq_none]
    simp only [List.length_append, htl, toBits_length, List.length_drop, bitsOf_length]
    omega

theorem setOpsFrom_panic (W : Nat) (buf : Buf) (co v idx : Nat) (ops : List SetOperation)
    (hne : ops ≠ []) (hb : buf.length < co + idx + ops.length) (new : Buf) :
    setOpsFrom W co v idx ops buf ≠ .ok new := by
  induction ops generalizing idx buf with
  | nil => exact absurd rfl hne
  | cons op ops ih =>
    rw [setOpsFrom]
    intro hc
    rw [bind_eq_ok] at hc
    obtain ⟨b, hb1, hc⟩ := hc
    rw [bind_eq_ok] at hc
    obtain ⟨y, _, hc⟩ := hc
    rw [bind_eq_ok] at hc
    obtain ⟨r, hr, hc⟩ := hc
    by_cases hl : co + idx < buf.length
    · cases ops with
      | nil => simp at hb; omega
      | cons op' ops' =>
        rw [setIndex_ok hl] at hr
        cases hr
        exact ih _ (idx + 1) (by simp)
          (by simp only [List.length_cons, List.length_set] at hb ⊢; omega) hc
    · rw [index_panic (by omega)] at hb1
      simp at hb1

end Verif
