import Verif.Proofs.Ops

/-! Evaluation of arbitrary operation tables, used for little-endian fields. -/

namespace Verif
open Spec

/-- An operation that copies `p` adjacent bits of a byte. -/
def GoodOp (W : Nat) (op : GetOperation) (p : Nat) : Prop :=
  op.mask = (2 ^ p - 1) <<< op.shiftr ∧ op.shiftr + p ≤ 8 ∧ op.shiftr < 8 ∧ W ≤ 64 ∧
    op.shiftl < W ∧ op.toMutator.valueMask = ((2 ^ p - 1) <<< op.shiftl) % 2 ^ 64

instance (W : Nat) (op : GetOperation) (p : Nat) : Decidable (GoodOp W op p) := by
  unfold GoodOp; infer_instance

/-- Bit `j` of a `W`-bit value is handled by `op`. -/
def covers (W : Nat) (op : GetOperation) (j : Nat) : Bool :=
  decide ((op.shiftl ≤ j ∧ j < op.shiftl + numBitsSet op.mask) ∧ j < W)

theorem GoodOp.get {W : Nat} {op : GetOperation} {p : Nat} (h : GoodOp W op p) (hW : 8 ≤ W)
    (b : UInt8) :
    ∃ y, op.eval W b.toNat = .ok y ∧ ∀ j, y.testBit j =
      (decide ((op.shiftl ≤ j ∧ j < op.shiftl + p) ∧ j < W) && b.toNat.testBit (j + op.shiftr - op.shiftl)) := by
  obtain ⟨h1, h2, h3, h4, h5, _⟩ := h
  have hx : (if op.mask ≠ 0xFF then b.toNat &&& op.mask else b.toNat) = b.toNat &&& op.mask := by
    split
    · rfl
    · rename_i hm
      have hm : op.mask = 2 ^ 8 - 1 := by simpa using hm
      rw [hm, Nat.and_two_pow_sub_one_eq_mod]
      exact (Nat.mod_eq_of_lt b.toNat_lt).symm
  unfold GetOperation.eval
  rw [hx]
  obtain ⟨y, hy, hbits⟩ := applyShift_ok (W := W) (x := b.toNat &&& op.mask)
    (left := op.shiftl) (right := op.shiftr) (by omega) (by omega)
  refine ⟨y, hy, fun j => ?_⟩
  rw [hbits, Nat.testBit_and, h1, testBit_maskShift]
  by_cases c : (op.shiftl ≤ j ∧ j < op.shiftl + p) ∧ j < W
  · rw [decide_eq_true c, decide_eq_true (by omega), decide_eq_true (by omega)]; simp
  · rw [decide_eq_false c]
    by_cases c2 : op.shiftl ≤ j + op.shiftr ∧ (op.shiftr < op.shiftl → j < W)
    · rw [decide_eq_false (p := op.shiftr ≤ j + op.shiftr - op.shiftl ∧ _) (by omega)]; simp
    · rw [decide_eq_false c2]; simp

theorem GoodOp.set {W : Nat} {op : GetOperation} {p : Nat} (h : GoodOp W op p) (hW : 8 ≤ W)
    (old : UInt8) (v : Nat) :
    ∃ y, op.toMutator.eval W old.toNat v = .ok y ∧ y < 256 ∧ ∀ k, k < 8 → y.testBit k =
      if op.shiftr ≤ k ∧ k < op.shiftr + p then
        decide (k + op.shiftl - op.shiftr < 64) && v.testBit (k + op.shiftl - op.shiftr)
      else old.toNat.testBit k := by
  obtain ⟨h1, h2, h3, h4, h5, h6⟩ := h
  have hmle : op.mask ≤ 255 := by
    have hlt : op.mask < 2 ^ 8 := by
      apply Nat.lt_pow_two_of_testBit
      intro k hk
      rw [h1, testBit_maskShift, decide_eq_false_iff_not]
      omega
    omega
  obtain ⟨y, hy, hbits⟩ := applyShift_ok (W := W)
    (x := if op.toMutator.valueMask ≠ 0xFF then v &&& op.toMutator.valueMask else v)
    (left := op.shiftr) (right := op.shiftl) (by omega) (by omega)
  replace hy : applyShift W _ op.toMutator.shiftl op.toMutator.shiftr = .ok y := hy
  have key : ∀ k, k < 8 → (y % 256).testBit k =
      (decide (op.shiftr ≤ k ∧ k < op.shiftr + p) &&
        (decide (k + op.shiftl - op.shiftr < 64) && v.testBit (k + op.shiftl - op.shiftr))) := by
    intro k hk
    rw [show (256 : Nat) = 2 ^ 8 by rfl, Nat.testBit_mod_two_pow, hbits]
    simp only [hk, decide_true, Bool.true_and]
    by_cases hm : op.toMutator.valueMask ≠ 0xFF
    · simp only [hm, ne_eq, not_false_eq_true, if_true, Nat.testBit_and]
      rw [h6, Nat.testBit_mod_two_pow, testBit_maskShift]
      by_cases c : op.shiftr ≤ k ∧ k < op.shiftr + p
      · rw [decide_eq_true c, decide_eq_true (p := op.shiftr ≤ k + op.shiftl ∧ _) (by omega),
          decide_eq_true (p := op.shiftl ≤ k + op.shiftl - op.shiftr ∧ _) (by omega)]
        simp [Bool.and_comm]
      · rw [decide_eq_false c]
        by_cases c2 : op.shiftr ≤ k + op.shiftl
        · rw [decide_eq_false (p := op.shiftl ≤ k + op.shiftl - op.shiftr ∧ _) (by omega)]; simp
        · rw [decide_eq_false (fun hh => c2 hh.1)]; simp
    · have hm' : op.toMutator.valueMask = 0xFF := by simpa using hm
      simp only [hm', ne_eq, not_true_eq_false, if_false]
      have t0 := congrArg (fun z => z.testBit 0) hm'
      have t7 := congrArg (fun z => z.testBit 7) hm'
      simp only [h6, Nat.testBit_mod_two_pow, testBit_maskShift, Bool.and_eq_true,
        show Nat.testBit 255 0 = true by decide,
        show Nat.testBit 255 7 = true by decide, decide_eq_true_eq] at t0 t7
      rw [decide_eq_true (p := op.shiftr ≤ k + op.shiftl ∧ _) (by omega),
        decide_eq_true (p := op.shiftr ≤ k ∧ _) (by omega), decide_eq_true (by omega)]
      simp
  unfold SetOperation.eval
  simp only [hy, ok_bind]
  by_cases hs : op.toMutator.saveMask ≠ 0
  · rw [if_pos hs]
    refine ⟨_, rfl, Nat.mod_lt _ (by decide), fun k hk => ?_⟩
    rw [show (256 : Nat) = 2 ^ 8 by rfl, Nat.testBit_mod_two_pow]
    simp only [hk, decide_true, Bool.true_and, Nat.testBit_or, Nat.testBit_and]
    rw [show (2 : Nat) ^ 8 = 256 by rfl, key k hk]
    have hsm : op.toMutator.saveMask.testBit k = !(decide (op.shiftr ≤ k ∧ k < op.shiftr + p)) := by
      have : op.toMutator.saveMask = 255 - op.mask := rfl
      rw [this, testBit_255_sub hmle hk, h1, testBit_maskShift]
    rw [hsm]
    by_cases c : op.shiftr ≤ k ∧ k < op.shiftr + p <;> simp [c]
  · rw [if_neg hs]
    refine ⟨_, rfl, Nat.mod_lt _ (by decide), fun k hk => ?_⟩
    rw [key k hk]
    have hs' : 255 - op.mask = 0 := Decidable.not_not.mp hs
    have hm255 : op.mask = 255 := by omega
    have t0 := congrArg (fun z => z.testBit 0) hm255
    have t7 := congrArg (fun z => z.testBit 7) hm255
    simp only [h1, testBit_maskShift, show Nat.testBit 255 0 = true by decide,
        show Nat.testBit 255 7 = true by decide, decide_eq_true_eq] at t0 t7
    have c : op.shiftr ≤ k ∧ k < op.shiftr + p := by omega
    simp [c]

/-- Every operation of the list copies as many bits as its mask has. -/
def GoodOps (W : Nat) (ops : List GetOperation) : Prop :=
  ∀ op ∈ ops, GoodOp W op (numBitsSet op.mask)

theorem setget_ops {W : Nat} (hW : 8 ≤ W) (co v : Nat) (ops : List GetOperation)
    (h : GoodOps W ops) (idx : Nat) (buf : Buf) (hb : co + idx + ops.length ≤ buf.length) :
    ∃ new w, setOpsFrom W co v idx (toMutator ops) buf = .ok new ∧ new.length = buf.length ∧
      (∀ n, ¬ (co + idx ≤ n ∧ n < co + idx + ops.length) → new.getD n 0 = buf.getD n 0) ∧
      getOpsFrom W new co idx ops = .ok w ∧
      ∀ j, w.testBit j = (v.testBit j && ops.any (covers W · j)) := by
  induction ops generalizing idx buf with
  | nil => exact ⟨buf, 0, rfl, rfl, fun _ _ => rfl, rfl, fun j => by simp⟩
  | cons op ops ih =>
    have hop := h op (by simp)
    obtain ⟨y, hy, hlt, hyb⟩ := hop.set hW (buf.getD (co + idx) 0) v
    simp only [List.length_cons] at hb
    obtain ⟨new, w, hs, hl, hf, hg, hw⟩ := ih (fun o ho => h o (by simp [ho])) (idx + 1)
      (buf.set (co + idx) (UInt8.ofNat y)) (by simp; omega)
    have hnb : new.getD (co + idx) 0 = UInt8.ofNat y := by
      rw [hf _ (by omega)]
      have : co + idx < buf.length := by omega
      simp [this]
    obtain ⟨z, hz, hzb⟩ := hop.get hW (UInt8.ofNat y)
    have hyn : (UInt8.ofNat y).toNat = y := by
      rw [UInt8.toNat_ofNat']; exact Nat.mod_eq_of_lt hlt
    refine ⟨new, z ||| w, ?_, by simpa using hl, fun n hn => ?_, ?_, fun j => ?_⟩
    · rw [toMutator, List.map_cons, setOpsFrom, index_eq_ok (by omega)]
      simp only [ok_bind, hy]
      rw [setIndex_ok (by omega)]
      simpa [toMutator] using hs
    · simp only [List.length_cons] at hn
      rw [hf n (by omega)]
      have : co + idx ≠ n := by omega
      simp [this]
    · rw [getOpsFrom, index_eq_ok (by simp at hl; omega), hnb]
      simp only [ok_bind, hz, hg]
    · rw [Nat.testBit_or, hw, hzb, hyn, List.any_cons]
      have hb2 := hop.2.1
      by_cases c : (op.shiftl ≤ j ∧ j < op.shiftl + numBitsSet op.mask) ∧ j < W
      · rw [hyb _ (by omega), if_pos (by omega)]
        have e : j + op.shiftr - op.shiftl + op.shiftl - op.shiftr = j := by omega
        have h64 : j < 64 := by have := hop.2.2.2.1; omega
        simp [covers, c, e, h64]
        cases v.testBit j <;> simp
      · simp [covers, c]

theorem get_ops {W : Nat} (hW : 8 ≤ W) (co : Nat) (ops : List GetOperation)
    (h : GoodOps W ops) (idx : Nat) (buf : Buf) (hb : co + idx + ops.length ≤ buf.length) :
    ∃ w, getOpsFrom W buf co idx ops = .ok w := by
  induction ops generalizing idx with
  | nil => exact ⟨0, rfl⟩
  | cons op ops ih =>
    simp only [List.length_cons] at hb
    obtain ⟨w, hw⟩ := ih (fun o ho => h o (by simp [ho])) (idx + 1) (by omega)
    obtain ⟨z, hz, _⟩ := (h op (by simp)).get hW (buf.getD (co + idx) 0)
    exact ⟨z ||| w, by rw [getOpsFrom, index_eq_ok (by omega)]; simp only [ok_bind, hz, hw]⟩

/-- The little-endian operation table. -/
def leOps (offset size : Nat) : List GetOperation :=
  toLittleEndian ((List.range (numBytes offset size)).map (opBE offset size))

instance (W : Nat) (ops : List GetOperation) : Decidable (GoodOps W ops) := by
  unfold GoodOps; infer_instance

set_option maxRecDepth 10000 in
theorem leOps_good_table : ∀ offset < 8, ∀ size < 65, fits offset size →
    GoodOps (storageWidth size) (leOps offset size) ∧
      (leOps offset size).length = numBytes offset size := by
  decide +kernel

/-- The (start bit, width) pairs for which little-endian access is faithful: one-byte fields, and
fields that leave as many bits unused in their first byte as in their last. -/
def leFaithful (offset size : Nat) : Prop :=
  numBytes offset size = 1 ∨ size + 2 * offset = 8 * numBytes offset size

instance (offset size : Nat) : Decidable (leFaithful offset size) := by
  unfold leFaithful; infer_instance

/-- All of the lowest `n` bits are handled by the little-endian table. -/
def leCoversAll (offset size n : Nat) : Bool :=
  (List.range n).all fun j =>
    (leOps offset size).any (covers (storageWidth size) · j) == decide (j < size)

set_option maxRecDepth 10000 in
theorem leOps_cover_table : ∀ offset < 8, ∀ size < 65, fits offset size →
    leCoversAll offset size 64 = decide (leFaithful offset size) ∧
    leCoversAll offset size size = decide (leFaithful offset size) := by
  decide +kernel

theorem operations_little {offset size : Nat} (h : fits offset size) (e : Endianness)
    (he : e = .little ∨ e = .host) :
    operations offset size e = some (leOps offset size) := by
  have hb := operations_big h
  unfold operations at hb ⊢
  split at hb
  · simp at hb
  · rename_i hc
    rw [if_neg hc]
    dsimp only at hb ⊢
    cases hl : opsLoop offset size (numBytes offset size) (numBytes offset size) 0 offset size with
    | none => rw [hl] at hb; simp at hb
    | some ops =>
      rw [hl] at hb
      simp at hb
      subst hb
      simp only [he, if_true]
      rfl

/-- Little-endian set then get, for every accepted field: the bits that survive are the covered
ones. -/
theorem le_setget {offset size : Nat} (h : fits offset size) (e : Endianness)
    (he : e = .little ∨ e = .host) (buf : Buf) (co v : Nat)
    (hb : co + numBytes offset size ≤ buf.length) :
    ∃ new w, setPrim ⟨size, e⟩ offset buf co v = .ok new ∧ new.length = buf.length ∧
      (∀ n, ¬ (co ≤ n ∧ n < co + numBytes offset size) → new.getD n 0 = buf.getD n 0) ∧
      getPrim ⟨size, e⟩ offset new co = .ok w ∧
      ∀ j, w.testBit j = (v.testBit j && (leOps offset size).any (covers (storageWidth size) · j)) := by
  obtain ⟨hg, hlen⟩ := leOps_good_table offset (by have := h.1; omega) size
    (by have := h.2.2.1; omega) h
  obtain ⟨new, w, h1, h2, h3, h4, h5⟩ := setget_ops (storageWidth_ge8 size) co v
    (leOps offset size) hg 0 buf (by omega)
  refine ⟨new, w, ?_, h2, ?_, ?_, h5⟩
  · simp only [setPrim, operations_little h e he]; exact h1
  · rw [hlen] at h3; exact h3
  · simp only [getPrim, operations_little h e he]; exact h4

/-! ### Whole-byte little-endian fields -/

set_option maxRecDepth 10000 in
theorem leOps_whole : ∀ n < 9, leOps 0 (8 * n) =
    (List.range' 0 n).map (fun i => ({ mask := 255, shiftl := 8 * i, shiftr := 0 } : GetOperation)) := by
  decide +kernel

theorem leNat_cons (b : UInt8) (bs : Buf) : leNat (b :: bs) = b.toNat + 256 * leNat bs := by
  unfold leNat
  rw [List.reverse_cons, beNat_append]
  simp [beNat]; omega

theorem getOpsFrom_whole {W : Nat} (buf : Buf) (co n idx : Nat) (_hW : 8 ≤ W)
    (hn : 8 * (idx + n) ≤ W) (hb : co + idx + n ≤ buf.length) :
    getOpsFrom W buf co idx ((List.range' idx n).map
        (fun i => ({ mask := 255, shiftl := 8 * i, shiftr := 0 } : GetOperation))) =
      .ok (leNat ((buf.drop (co + idx)).take n) * 2 ^ (8 * idx)) := by
  induction n generalizing idx with
  | zero => simp [getOpsFrom, leNat]
  | succ n ih =>
    rw [List.range'_succ, List.map_cons, getOpsFrom, index_eq_ok (by omega),
      ih (idx + 1) (by omega) (by omega)]
    have hd : buf.drop (co + idx) = buf.getD (co + idx) 0 :: buf.drop (co + (idx + 1)) := by
      have : co + idx < buf.length := by omega
      rw [List.drop_eq_getElem_cons this]
      simp [this, Nat.add_assoc]
    generalize buf.getD (co + idx) 0 = b at hd
    rw [hd, List.take_succ_cons, leNat_cons]
    generalize leNat ((buf.drop (co + (idx + 1))).take n) = r
    have hb8 := b.toNat_lt
    have hbs : b.toNat * 2 ^ (8 * idx) < 2 ^ (8 * idx + 8) := by
      rw [Nat.pow_add, Nat.mul_comm (2 ^ (8 * idx))]
      exact Nat.mul_lt_mul_of_pos_right hb8 (Nat.two_pow_pos _)
    have hW' : 2 ^ (8 * idx + 8) ≤ 2 ^ W := Nat.pow_le_pow_right (by decide) (by omega)
    have hev : GetOperation.eval W { mask := 255, shiftl := 8 * idx, shiftr := 0 } b.toNat =
        .ok (b.toNat * 2 ^ (8 * idx)) := by
      unfold GetOperation.eval applyShift
      simp only [ne_eq, not_true_eq_false, if_false]
      by_cases h0 : 0 = 8 * idx
      · rw [if_pos h0, ← h0]; simp
      · rw [if_neg h0, if_pos (by omega), shl, if_pos (by omega), Nat.shiftLeft_eq, Nat.sub_zero,
          Nat.mod_eq_of_lt (by omega)]
    simp only [ok_bind, hev]
    congr 1
    rw [Nat.or_comm, show 8 * (idx + 1) = 8 * idx + 8 by omega, Nat.mul_comm r,
      ← Nat.two_pow_add_eq_or_of_lt hbs, Nat.add_mul, Nat.pow_add]
    have : 2 ^ (8 * idx) * 2 ^ 8 * r = 256 * r * 2 ^ (8 * idx) := by
      rw [show (2 : Nat) ^ 8 = 256 by rfl, Nat.mul_assoc, Nat.mul_comm]
    omega

theorem fits_whole {n : Nat} (h0 : 0 < n) (h8 : n ≤ 8) : fits 0 (8 * n) ∧ numBytes 0 (8 * n) = n := by
  unfold fits numBytes
  have : 8 * n % 8 = 0 := by omega
  simp [this]; omega

/-- A little-endian field of whole bytes reads the little-endian number. -/
theorem getPrim_le_whole {n : Nat} (h0 : 0 < n) (h8 : n ≤ 8) (e : Endianness)
    (he : e = .little ∨ e = .host) (buf : Buf) (co : Nat) (hb : co + n ≤ buf.length) :
    getPrim ⟨8 * n, e⟩ 0 buf co = .ok (leNat ((buf.drop co).take n)) := by
  obtain ⟨hf, hnb⟩ := fits_whole h0 h8
  simp only [getPrim, operations_little hf e he]
  rw [leOps_whole n (by omega), getOps,
    getOpsFrom_whole buf co n 0 (storageWidth_ge8 _)
      (by have := storageWidth_ge (size := 8 * n) (by omega); omega) (by omega)]
  simp

end Verif
