import Verif.Spec.Bits

/-! Helper lemmas about the bit-list specification. -/

namespace Verif
open Spec

/-- Bit `n` of a buffer in network order, `false` past the end. -/
def bitAt (buf : Buf) (n : Nat) : Bool := (buf.getD (n / 8) 0).toNat.testBit (7 - n % 8)

@[simp] theorem byteBits_length (b : UInt8) : (byteBits b).length = 8 := by simp [byteBits]

@[simp] theorem bitsOf_nil : bitsOf [] = [] := rfl

@[simp] theorem bitsOf_cons (b : UInt8) (bs : Buf) : bitsOf (b :: bs) = byteBits b ++ bitsOf bs := by
  simp [bitsOf]

@[simp] theorem bitsOf_append (a b : Buf) : bitsOf (a ++ b) = bitsOf a ++ bitsOf b := by
  simp [bitsOf]

@[simp] theorem bitsOf_length (buf : Buf) : (bitsOf buf).length = 8 * buf.length := by
  induction buf with
  | nil => rfl
  | cons b bs ih => simp [ih]; omega

theorem bitsOf_getElem? (buf : Buf) (n : Nat) (h : n < 8 * buf.length) :
    (bitsOf buf)[n]? = some (bitAt buf n) := by
  induction buf generalizing n with
  | nil => simp at h
  | cons b bs ih =>
    rw [bitsOf_cons]
    by_cases hn : n < 8
    · rw [List.getElem?_append_left (by simpa using hn)]
      have h0 : n / 8 = 0 := by omega
      have h1 : n % 8 = n := by omega
      simp [byteBits, bitAt, h0, h1, hn]
    · rw [List.getElem?_append_right (by simp; omega)]
      simp only [byteBits_length]
      simp only [List.length_cons] at h
      rw [ih (n - 8) (by omega)]
      have h0 : n / 8 = (n - 8) / 8 + 1 := by omega
      have h1 : n % 8 = (n - 8) % 8 := by omega
      simp [bitAt, h0, h1]

theorem bitsOf_getElem (buf : Buf) (n : Nat) (h : n < (bitsOf buf).length) :
    (bitsOf buf)[n] = bitAt buf n := by
  have := bitsOf_getElem? buf n (by simpa using h)
  rw [List.getElem?_eq_getElem h] at this
  simpa using this

theorem byteBits_inj {a b : UInt8} (h : byteBits a = byteBits b) : a = b := by
  apply UInt8.toNat_inj.mp
  apply Nat.eq_of_testBit_eq
  intro i
  by_cases hi : i < 8
  · have := congrArg (fun l => l[7 - i]?) h
    have h7 : 7 - (7 - i) = i := by omega
    simpa [byteBits, show 7 - i < 8 by omega, h7] using this
  · rw [Nat.testBit_lt_two_pow, Nat.testBit_lt_two_pow]
    · exact Nat.lt_of_lt_of_le b.toNat_lt (Nat.pow_le_pow_right (by decide) (by omega))
    · exact Nat.lt_of_lt_of_le a.toNat_lt (Nat.pow_le_pow_right (by decide) (by omega))

theorem bitsOf_inj {a b : Buf} (h : bitsOf a = bitsOf b) : a = b := by
  have hl : a.length = b.length := by
    have := congrArg List.length h
    simp at this; omega
  induction a generalizing b with
  | nil => cases b with
    | nil => rfl
    | cons _ _ => simp at hl
  | cons x xs ih =>
    cases b with
    | nil => simp at hl
    | cons y ys =>
      simp only [bitsOf_cons] at h
      have := List.append_inj h (by simp)
      rw [byteBits_inj this.1, ih this.2 (by simpa using hl)]

theorem bitsOf_take (buf : Buf) (n : Nat) : bitsOf (buf.take n) = (bitsOf buf).take (8 * n) := by
  induction n generalizing buf with
  | zero => simp
  | succ n ih =>
    cases buf with
    | nil => simp
    | cons b bs =>
      simp only [List.take_succ_cons, bitsOf_cons, ih]
      rw [List.take_append, byteBits_length,
        List.take_of_length_le (l := byteBits b) (by rw [byteBits_length]; omega)]
      have : 8 * (n + 1) - 8 = 8 * n := by omega
      rw [this]

theorem bitsOf_drop (buf : Buf) (n : Nat) : bitsOf (buf.drop n) = (bitsOf buf).drop (8 * n) := by
  induction n generalizing buf with
  | zero => simp
  | succ n ih =>
    cases buf with
    | nil => simp
    | cons b bs =>
      simp only [List.drop_succ_cons, bitsOf_cons, ih]
      rw [List.drop_append, byteBits_length,
        List.drop_of_length_le (l := byteBits b) (by rw [byteBits_length]; omega)]
      have : 8 * (n + 1) - 8 = 8 * n := by omega
      rw [this, List.nil_append]

theorem ofBits_foldl (l : List Bool) (a : Nat) :
    l.foldl (fun a b => 2 * a + b.toNat) a = a * 2 ^ l.length + ofBits l := by
  induction l generalizing a with
  | nil => simp [ofBits]
  | cons b bs ih =>
    simp only [List.foldl_cons, ofBits, List.length_cons]
    rw [ih, ih (2 * 0 + b.toNat), Nat.pow_succ, Nat.add_mul]
    have : 2 * a * 2 ^ bs.length = a * (2 ^ bs.length * 2) := by
      rw [Nat.mul_comm 2 a, Nat.mul_assoc, Nat.mul_comm 2]
    simp only [Nat.mul_zero, Nat.zero_add]
    omega

theorem ofBits_append (a b : List Bool) : ofBits (a ++ b) = ofBits a * 2 ^ b.length + ofBits b := by
  rw [ofBits, List.foldl_append, ofBits_foldl b]; rfl

@[simp] theorem ofBits_nil : ofBits [] = 0 := rfl

theorem ofBits_singleton (b : Bool) : ofBits [b] = b.toNat := by simp [ofBits]

theorem ofBits_cons (b : Bool) (l : List Bool) : ofBits (b :: l) = b.toNat * 2 ^ l.length + ofBits l := by
  have := ofBits_append [b] l
  simpa [ofBits_singleton] using this

theorem ofBits_concat (l : List Bool) (b : Bool) : ofBits (l ++ [b]) = 2 * ofBits l + b.toNat := by
  rw [ofBits_append, ofBits_singleton]; simp; omega

theorem ofBits_lt (l : List Bool) : ofBits l < 2 ^ l.length := by
  induction l with
  | nil => simp
  | cons b l ih =>
    rw [ofBits_cons, List.length_cons, Nat.pow_succ]
    cases b <;> simp <;> omega

/-- Digit `j` (counting from the least significant) of `ofBits`. -/
theorem ofBits_testBit (l : List Bool) (j : Nat) :
    (ofBits l).testBit j = (decide (j < l.length) && l.getD (l.length - 1 - j) false) := by
  induction l generalizing j with
  | nil => simp
  | cons b l ih =>
    have hl := ofBits_lt l
    rw [ofBits_cons, Nat.mul_comm]
    rw [Nat.testBit_two_pow_mul_add _ hl]
    by_cases hj : j < l.length
    · simp only [hj, if_true, ih, decide_true, Bool.true_and, List.length_cons,
        show j < l.length + 1 by omega]
      have : l.length + 1 - 1 - j = (l.length - 1 - j) + 1 := by omega
      rw [this, List.getD_cons_succ]
    · rw [if_neg hj]
      by_cases he : j = l.length
      · subst he
        cases b <;> simp
      · have : ¬ j < (b :: l).length := by simp; omega
        simp only [this, decide_false, Bool.false_and]
        apply Nat.testBit_lt_two_pow
        have : 2 ^ 1 ≤ 2 ^ (j - l.length) := Nat.pow_le_pow_right (by decide) (by omega)
        cases b <;> simp <;> omega

@[simp] theorem toBits_length (n v : Nat) : (toBits n v).length = n := by simp [toBits]

theorem toBits_getElem? (n v i : Nat) (h : i < n) : (toBits n v)[i]? = some (v.testBit (n - 1 - i)) := by
  simp [toBits, h]

theorem ofBits_toBits (n v : Nat) : ofBits (toBits n v) = v % 2 ^ n := by
  apply Nat.eq_of_testBit_eq
  intro j
  rw [ofBits_testBit, Nat.testBit_mod_two_pow, toBits_length]
  by_cases h : j < n
  · simp only [h, decide_true, Bool.true_and, List.getD_eq_getElem?_getD]
    rw [toBits_getElem? _ _ _ (by omega)]
    have : n - 1 - (n - 1 - j) = j := by omega
    simp [this]
  · simp [h]

theorem toBits_ofBits (l : List Bool) : toBits l.length (ofBits l) = l := by
  apply List.ext_getElem?
  intro i
  by_cases h : i < l.length
  · rw [toBits_getElem? _ _ _ h, ofBits_testBit]
    have h1 : l.length - 1 - i < l.length := by omega
    have h2 : l.length - 1 - (l.length - 1 - i) = i := by omega
    simp [h1, h2, h]
  · rw [List.getElem?_eq_none (by simp; omega), List.getElem?_eq_none (by omega)]

theorem toBits_mod (n v : Nat) : toBits n (v % 2 ^ n) = toBits n v := by
  rw [← ofBits_toBits]
  have := toBits_ofBits (toBits n v)
  simpa using this

theorem byteBits_eq_toBits (b : UInt8) : byteBits b = toBits 8 b.toNat := by
  simp [byteBits, toBits]

theorem ofBits_byteBits (b : UInt8) : ofBits (byteBits b) = b.toNat := by
  rw [byteBits_eq_toBits, ofBits_toBits]
  exact Nat.mod_eq_of_lt b.toNat_lt

theorem beNat_foldl (l : Buf) (a : Nat) :
    l.foldl (fun a b => 256 * a + b.toNat) a = a * 256 ^ l.length + beNat l := by
  induction l generalizing a with
  | nil => simp [beNat]
  | cons b bs ih =>
    simp only [List.foldl_cons, beNat, List.length_cons]
    rw [ih, ih (256 * 0 + b.toNat), Nat.pow_succ, Nat.add_mul]
    have : 256 * a * 256 ^ bs.length = a * (256 ^ bs.length * 256) := by
      rw [Nat.mul_comm 256 a, Nat.mul_assoc, Nat.mul_comm 256]
    simp only [Nat.mul_zero, Nat.zero_add]
    omega

theorem beNat_cons (b : UInt8) (bs : Buf) : beNat (b :: bs) = b.toNat * 256 ^ bs.length + beNat bs := by
  rw [beNat, List.foldl_cons, beNat_foldl]; simp

theorem beNat_append (a b : Buf) : beNat (a ++ b) = beNat a * 256 ^ b.length + beNat b := by
  rw [beNat, List.foldl_append, beNat_foldl b]; rfl

@[simp] theorem beNat_nil : beNat [] = 0 := rfl

theorem beNat_eq_ofBits (bytes : Buf) : beNat bytes = ofBits (bitsOf bytes) := by
  induction bytes with
  | nil => rfl
  | cons b bs ih =>
    rw [beNat_cons, bitsOf_cons, ofBits_append, ih, ofBits_byteBits, bitsOf_length, Nat.pow_mul]

theorem beNat_lt (bytes : Buf) : beNat bytes < 256 ^ bytes.length := by
  rw [beNat_eq_ofBits]
  have := ofBits_lt (bitsOf bytes)
  rwa [bitsOf_length, Nat.pow_mul] at this

/-- Two buffers with the same length and the same bits are equal. -/
theorem buf_ext_bits {a b : Buf} (hl : a.length = b.length)
    (h : ∀ n < 8 * a.length, bitAt a n = bitAt b n) : a = b := by
  apply bitsOf_inj
  apply List.ext_getElem (by simp [hl])
  intro n h1 h2
  rw [bitsOf_getElem, bitsOf_getElem, h n (by simpa using h1)]

end Verif
