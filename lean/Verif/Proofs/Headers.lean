import Verif.Proofs.Options
import Verif.Props.Layouts

/-! # Helper lemmas for the IPv6, NDP and GRE header properties -/

namespace Verif
open Spec

/-! ## Bit masks -/

theorem and_fffc {x : Nat} (h : x < 2 ^ 16) : x &&& 0xFFFC = x - x % 4 := by
  have key : x - x % 4 = 2 ^ 2 * (x / 2 ^ 2) := by omega
  rw [key]
  apply Nat.eq_of_testBit_eq
  intro i
  rw [Nat.testBit_and, Nat.testBit_two_pow_mul, Nat.testBit_div_two_pow]
  by_cases hi : i < 16
  · have hm : ∀ i < 16, Nat.testBit 0xFFFC i = decide (2 ≤ i) := by decide
    rw [hm i hi, Bool.and_comm]
    by_cases h2 : 2 ≤ i
    · rw [show i - 2 + 2 = i by omega]
    · simp [h2]
  · have h1 : x.testBit i = false :=
      Nat.testBit_lt_two_pow (Nat.lt_of_lt_of_le h (Nat.pow_le_pow_right (by decide) (by omega)))
    rw [h1, show i - 2 + 2 = i by omega, h1]
    simp

theorem and_fffe {x : Nat} (h : x < 2 ^ 16) : x &&& 0xFFFE = x - x % 2 := by
  have key : x - x % 2 = 2 ^ 1 * (x / 2 ^ 1) := by omega
  rw [key]
  apply Nat.eq_of_testBit_eq
  intro i
  rw [Nat.testBit_and, Nat.testBit_two_pow_mul, Nat.testBit_div_two_pow]
  by_cases hi : i < 16
  · have hm : ∀ i < 16, Nat.testBit 0xFFFE i = decide (1 ≤ i) := by decide
    rw [hm i hi, Bool.and_comm]
    by_cases h2 : 1 ≤ i
    · rw [show i - 1 + 1 = i by omega]
    · simp [h2]
  · have h1 : x.testBit i = false :=
      Nat.testBit_lt_two_pow (Nat.lt_of_lt_of_le h (Nat.pow_le_pow_right (by decide) (by omega)))
    rw [h1, show i - 1 + 1 = i by omega, h1]
    simp

theorem and_three (x : Nat) : x &&& 3 = x % 4 := Nat.and_two_pow_sub_one_eq_mod x 2

theorem and_one (x : Nat) : x &&& 1 = x % 2 := Nat.and_two_pow_sub_one_eq_mod x 1

theorem or_one (x : Nat) : x ||| 1 = x - x % 2 + 1 := by
  have key : x - x % 2 + 1 = 2 ^ 1 * (x / 2 ^ 1) + 1 := by omega
  rw [key, Nat.two_pow_add_eq_or_of_lt (by decide)]
  apply Nat.eq_of_testBit_eq
  intro i
  rw [Nat.testBit_or, Nat.testBit_or, Nat.testBit_two_pow_mul, Nat.testBit_div_two_pow]
  cases i with
  | zero => simp
  | succ i => simp

theorem or_low {a b : Nat} (ha : a % 4 = 0) (hb : b < 4) : a ||| b = a + b := by
  have key : a = 2 ^ 2 * (a / 4) := by omega
  rw [key, Nat.two_pow_add_eq_or_of_lt (by omega)]

/-- Splitting a bit field. -/
theorem bitsAt_split (buf : Buf) (s n k : Nat) (h : s + n + k ≤ 8 * buf.length) :
    bitsAt buf s (n + k) = bitsAt buf s n * 2 ^ k + bitsAt buf (s + n) k := by
  unfold bitsAt bitSlice
  rw [List.take_add, ofBits_append, List.drop_drop]
  congr 3
  rw [List.length_take, List.length_drop, bitsOf_length]
  omega

/-! ## Fragment header -/

theorem fragment_raw (m : Mode) (buf : Buf) (h : 8 ≤ buf.length) :
    fragmentRaw m buf = .ok (bitsAt buf 16 16) := by
  have : fragment.get m buf 2 = .ok (.num (bitsAt buf 16 16)) :=
    layoutOk_get (L := fragmentLayout) (by decide +kernel) (k := 2) rfl m buf h
  rw [fragmentRaw, this]; rfl

theorem fragment_set (m : Mode) (buf : Buf) (hsl : SliceLen buf.length) (h : 8 ≤ buf.length) (v : Nat)
    (hv : v < 2 ^ 16) :
    ∃ new, fragment.set m buf 2 (.num v) = .ok new ∧ new.length = buf.length ∧
      bitsAt new 16 16 = v ∧ new.take 2 = buf.take 2 ∧ new.drop 4 = buf.drop 4 := by
  obtain ⟨new, h1, h2, h3⟩ := Props.C55_setters_write_rfc_positions fragment fragmentLayout
    (by simp [Props.layouts]) 2 _ rfl 16 rfl m buf hsl (by simp [Decl.newPacket]; exact h) v
  dsimp only at h3
  have hp : ((bitsOf buf).take 16).length = 16 := by
    rw [List.length_take, bitsOf_length]; omega
  refine ⟨new, h1, h2, ?_, ?_, ?_⟩
  · rw [bitsAt, bitSlice_of_append h3 hp (toBits_length _ _), ofBits_toBits, Nat.mod_eq_of_lt hv]
  · apply bitsOf_inj
    rw [bitsOf_take, bitsOf_take, h3, List.append_assoc, List.take_append_of_le_length (by omega),
      List.take_of_length_le (by omega)]
  · apply bitsOf_inj
    rw [bitsOf_drop, bitsOf_drop, h3,
      List.drop_append_of_le_length (by rw [List.length_append, hp, toBits_length]; omega),
      List.drop_eq_nil_of_le (by rw [List.length_append, hp, toBits_length]; omega), List.nil_append]

/-! ## Units in GRE -/

theorem collect_single {c : Codec} {m : Mode} {raw : Buf} {v : Val} (h0 : 0 < raw.length)
    (hmin : c.minSize ≤ raw.length) (hsize : c.packetSize m raw = .ok raw.length)
    (hdec : c.fromPacket m raw = .ok v) :
    c.collect m raw.length raw = .ok [v] := by
  obtain ⟨n, hn⟩ : ∃ n, raw.length = n + 1 := ⟨raw.length - 1, by omega⟩
  have hnext : c.next m raw = .ok (some (raw, [])) := by
    rw [next_eq, if_pos ⟨h0, hmin⟩, hsize, ok_map, List.drop_length]
  have hempty : ∀ fuel, c.collect m fuel [] = .ok [] := by
    intro fuel
    cases fuel with
    | zero => rfl
    | succ f =>
      have : c.next m [] = .ok none := by rw [next_eq, if_neg (by simp)]
      simp only [Codec.collect, this, ok_bind]
  rw [hn]
  simp only [Codec.collect, hnext, ok_bind, hdec, hempty]
  rw [if_pos (by simpa using h0)]

theorem u16BE_collect (m : Mode) (raw : Buf) (h : raw.length = 2) :
    u16BE.codec.collect m raw.length raw = .ok [.list [.num (bitsAt raw 0 16), .nums []]] := by
  have hmin : u16BE.minSize = 2 := by decide
  have h0 : u16BE.get m raw 0 = .ok (.num (bitsAt raw 0 16)) :=
    layoutOk_get (d := u16BE) (L := [⟨"number", 0, .int 16⟩]) (by decide +kernel) (k := 0) rfl m raw
      (by omega)
  have hraw : u16BE.getRaw m raw 1 = .ok [] := by
    rw [getRaw_fixed (d := u16BE) (k := 1) (len := 0) rfl rfl rfl (by omega) (by decide)]
    simp
  have h1 : u16BE.get m raw 1 = .ok (.nums []) := by
    rw [bytes_get (d := u16BE) (k := 1) rfl rfl, hraw]; rfl
  refine collect_single (by omega) (by rw [show u16BE.codec.minSize = 2 from hmin]; omega) ?_ ?_
  · rw [h]
    exact packetSize_eq (d := u16BE) (sizes := [0]) rfl (by decide)
  · show u16BE.fromPacket m raw = _
    rw [fromPacket_mapM]
    simp only [show List.range u16BE.fields.length = [0, 1] from rfl, List.map_cons, List.map_nil, h0, h1]
    rfl

theorem u32BE_collect (m : Mode) (raw : Buf) (h : raw.length = 4) :
    u32BE.codec.collect m raw.length raw = .ok [.list [.num (bitsAt raw 0 32), .nums []]] := by
  have hmin : u32BE.minSize = 4 := by decide
  have h0 : u32BE.get m raw 0 = .ok (.num (bitsAt raw 0 32)) :=
    layoutOk_get (d := u32BE) (L := [⟨"number", 0, .int 32⟩]) (by decide +kernel) (k := 0) rfl m raw
      (by omega)
  have hraw : u32BE.getRaw m raw 1 = .ok [] := by
    rw [getRaw_fixed (d := u32BE) (k := 1) (len := 0) rfl rfl rfl (by omega) (by decide)]
    simp
  have h1 : u32BE.get m raw 1 = .ok (.nums []) := by
    rw [bytes_get (d := u32BE) (k := 1) rfl rfl, hraw]; rfl
  refine collect_single (by omega) (by rw [show u32BE.codec.minSize = 4 from hmin]; omega) ?_ ?_
  · rw [h]
    exact packetSize_eq (d := u32BE) (sizes := [0]) rfl (by decide)
  · show u32BE.fromPacket m raw = _
    rw [fromPacket_mapM]
    simp only [show List.range u32BE.fields.length = [0, 1] from rfl, List.map_cons, List.map_nil, h0, h1]
    rfl

/-- A field of whole bytes inside a slice of whole bytes. -/
theorem bitsAt_slice (buf : Buf) (o n : Nat) :
    bitsAt ((buf.drop o).take n) 0 (8 * n) = bitsAt buf (8 * o) (8 * n) := by
  have h1 := Props.C55_whole_bytes ((buf.drop o).take n) 0 n
  have h2 := Props.C55_whole_bytes buf o n
  rw [h2]
  rw [Nat.mul_zero] at h1
  rw [h1, List.drop_zero, List.take_take, Nat.min_self]

/-! ## GRE -/

theorem gre_layout : layoutOk gre greLayout = true := by decide +kernel

/-- The four optional lengths of a GRE packet without routing. -/
theorem gre_lens (m : Mode) (buf : Buf) (h : 4 ≤ buf.length) (hr : bitsAt buf 1 1 = 0) :
    (gre.before m buf 9).lens = [] ∧
    (gre.before m buf 10).lens = [2 * bitsAt buf 0 1].map .ok ∧
    (gre.before m buf 11).lens = [2 * bitsAt buf 0 1, 2 * bitsAt buf 0 1].map .ok ∧
    (gre.before m buf 12).lens =
      [2 * bitsAt buf 0 1, 2 * bitsAt buf 0 1, 4 * bitsAt buf 2 1].map .ok ∧
    (gre.before m buf 13).lens =
      [2 * bitsAt buf 0 1, 2 * bitsAt buf 0 1, 4 * bitsAt buf 2 1, 4 * bitsAt buf 3 1].map .ok ∧
    (gre.before m buf 14).lens =
      [2 * bitsAt buf 0 1, 2 * bitsAt buf 0 1, 4 * bitsAt buf 2 1, 4 * bitsAt buf 3 1, 0].map .ok ∧
    (gre.before m buf 15).lens =
      [2 * bitsAt buf 0 1, 2 * bitsAt buf 0 1, 4 * bitsAt buf 2 1, 4 * bitsAt buf 3 1, 0].map .ok ∧
    lenExpr m buf (gre.before m buf 9) greOptLen = .ok (2 * bitsAt buf 0 1) ∧
    lenExpr m buf (gre.before m buf 10) greOptLen = .ok (2 * bitsAt buf 0 1) ∧
    lenExpr m buf (gre.before m buf 11) (lenNum 2 (· * 4)) = .ok (4 * bitsAt buf 2 1) ∧
    lenExpr m buf (gre.before m buf 12) (lenNum 3 (· * 4)) = .ok (4 * bitsAt buf 3 1) ∧
    lenExpr m buf (gre.before m buf 13) (fun _ get _ => do
      let r ← get 1
      if (← r.asNum) = 0 then .ok 0 else panic) = .ok 0 := by
  have g0 : gre.get m buf 0 = .ok (.num (bitsAt buf 0 1)) :=
    layoutOk_get gre_layout (k := 0) rfl m buf h
  have g1 : gre.get m buf 1 = .ok (.num 0) := by
    rw [← hr]; exact layoutOk_get gre_layout (k := 1) rfl m buf h
  have g2 : gre.get m buf 2 = .ok (.num (bitsAt buf 2 1)) :=
    layoutOk_get gre_layout (k := 2) rfl m buf h
  have g3 : gre.get m buf 3 = .ok (.num (bitsAt buf 3 1)) :=
    layoutOk_get gre_layout (k := 3) rfl m buf h
  have opt : ∀ k, 2 ≤ k → k ≤ 15 →
      lenExpr m buf (gre.before m buf k) greOptLen = .ok (2 * bitsAt buf 0 1) := by
    intro k h2 h15
    rw [lenExpr, greOptLen, before_get (by omega) h15, before_get (by omega) h15, g0, g1]
    simp only [ok_bind, Val.asNum, Nat.or_zero, Nat.mul_comm]
  have l9 : (gre.before m buf 9).lens = [] := (before_fixed (d := gre) (k := 9) (by decide) m buf).2
  have l10 : (gre.before m buf 10).lens = [2 * bitsAt buf 0 1].map .ok := by
    rw [before_lens_succ (d := gre) (k := 9) rfl rfl, l9, opt 9 (by omega) (by omega)]; rfl
  have l11 : (gre.before m buf 11).lens = [2 * bitsAt buf 0 1, 2 * bitsAt buf 0 1].map .ok := by
    rw [before_lens_succ (d := gre) (k := 10) rfl rfl, l10, opt 10 (by omega) (by omega)]; rfl
  have e11 : lenExpr m buf (gre.before m buf 11) (lenNum 2 (· * 4)) = .ok (4 * bitsAt buf 2 1) := by
    rw [lenNum_eq (by omega) (by decide) g2, Nat.mul_comm]
  have l12 : (gre.before m buf 12).lens =
      [2 * bitsAt buf 0 1, 2 * bitsAt buf 0 1, 4 * bitsAt buf 2 1].map .ok := by
    rw [before_lens_succ (d := gre) (k := 11) rfl rfl, l11, e11]; rfl
  have e12 : lenExpr m buf (gre.before m buf 12) (lenNum 3 (· * 4)) = .ok (4 * bitsAt buf 3 1) := by
    rw [lenNum_eq (by omega) (by decide) g3, Nat.mul_comm]
  have l13 : (gre.before m buf 13).lens =
      [2 * bitsAt buf 0 1, 2 * bitsAt buf 0 1, 4 * bitsAt buf 2 1, 4 * bitsAt buf 3 1].map .ok := by
    rw [before_lens_succ (d := gre) (k := 12) rfl rfl, l12, e12]; rfl
  have e13 : lenExpr m buf (gre.before m buf 13) (fun _ get _ => do
      let r ← get 1
      if (← r.asNum) = 0 then .ok 0 else panic) = .ok 0 := by
    rw [lenExpr, before_get (by omega) (by decide), g1]; rfl
  have l14 : (gre.before m buf 14).lens = [2 * bitsAt buf 0 1, 2 * bitsAt buf 0 1,
      4 * bitsAt buf 2 1, 4 * bitsAt buf 3 1, 0].map .ok := by
    rw [before_lens_succ (d := gre) (k := 13) rfl rfl, l13, e13]; rfl
  refine ⟨l9, l10, l11, l12, l13, l14, ?_, opt 9 (by omega) (by omega), opt 10 (by omega) (by omega),
    e11, e12, e13⟩
  rw [before_lens_succ_none (d := gre) (k := 14) rfl rfl, l14]

theorem curOff_panic (m : Mode) (bit : Nat) (sizes : List Nat) (more : List (Res Nat)) :
    curOff m bit (sizes.map .ok ++ panic :: more) = panic := by
  unfold curOff
  generalize bit / 8 = a
  induction sizes generalizing a with
  | nil => rfl
  | cons n ns ih =>
    simp only [List.map_cons, List.cons_append, List.foldlM_cons, ok_bind]
    unfold uadd
    split
    · rw [ok_bind]; exact ih _
    · cases m
      · rfl
      · rw [ok_bind]; exact ih _

/-- The lengths of a GRE packet with routing: the fifth panics. -/
theorem gre_routing_lens (m : Mode) (buf : Buf) (h : 4 ≤ buf.length) (hr : bitsAt buf 1 1 = 1) :
    (gre.before m buf 13).lens = [2, 2, 4 * bitsAt buf 2 1, 4 * bitsAt buf 3 1].map .ok ∧
    (gre.before m buf 14).lens = [2, 2, 4 * bitsAt buf 2 1, 4 * bitsAt buf 3 1].map .ok ++ [panic] ∧
    lenExpr m buf (gre.before m buf 13) (fun _ get _ => do
      let r ← get 1
      if (← r.asNum) = 0 then .ok 0 else panic) = panic := by
  have g0 : gre.get m buf 0 = .ok (.num (bitsAt buf 0 1)) :=
    layoutOk_get gre_layout (k := 0) rfl m buf h
  have g1 : gre.get m buf 1 = .ok (.num 1) :=
    (layoutOk_get gre_layout (k := 1) rfl m buf h).trans (congrArg (fun x => Except.ok (Val.num x)) hr)
  have g2 : gre.get m buf 2 = .ok (.num (bitsAt buf 2 1)) :=
    layoutOk_get gre_layout (k := 2) rfl m buf h
  have g3 : gre.get m buf 3 = .ok (.num (bitsAt buf 3 1)) :=
    layoutOk_get gre_layout (k := 3) rfl m buf h
  have hc : bitsAt buf 0 1 < 2 := bitsAt_lt buf 0 1
  have opt : ∀ k, 2 ≤ k → k ≤ 15 → lenExpr m buf (gre.before m buf k) greOptLen = .ok 2 := by
    intro k h2 h15
    rw [lenExpr, greOptLen, before_get (by omega) h15, before_get (by omega) h15, g0, g1]
    simp only [ok_bind, Val.asNum]
    rcases (show bitsAt buf 0 1 = 0 ∨ bitsAt buf 0 1 = 1 by omega) with h0 | h0 <;> rw [h0] <;> rfl
  have l9 : (gre.before m buf 9).lens = [] := (before_fixed (d := gre) (k := 9) (by decide) m buf).2
  have l13 : (gre.before m buf 13).lens = [2, 2, 4 * bitsAt buf 2 1, 4 * bitsAt buf 3 1].map .ok := by
    rw [before_lens_succ (d := gre) (k := 12) rfl rfl, before_lens_succ (d := gre) (k := 11) rfl rfl,
      before_lens_succ (d := gre) (k := 10) rfl rfl, before_lens_succ (d := gre) (k := 9) rfl rfl, l9,
      opt 9 (by omega) (by omega), opt 10 (by omega) (by omega), lenNum_eq (by omega) (by decide) g2,
      lenNum_eq (by omega) (by decide) g3, Nat.mul_comm _ 4, Nat.mul_comm _ 4]
    rfl
  have e13 : lenExpr m buf (gre.before m buf 13) (fun _ get _ => do
      let r ← get 1
      if (← r.asNum) = 0 then .ok 0 else panic) = panic := by
    rw [lenExpr, before_get (by omega) (by decide), g1]; rfl
  refine ⟨l13, ?_, e13⟩
  rw [before_lens_succ (d := gre) (k := 13) rfl rfl, l13, e13]

/-! ## `from_packet` -/

theorem mapM_id_ok_iff {α : Type} (l : List (Res α)) :
    (∃ v, l.mapM id = .ok v) ↔ ∀ x ∈ l, ∃ v, x = .ok v := by
  induction l with
  | nil => simp [pure_eq_ok]
  | cons x xs ih =>
    simp only [List.mapM_cons, List.mem_cons, forall_eq_or_imp, ← ih]
    cases x with
    | error e => simp
    | ok a =>
      simp only [id_eq, ok_bind]
      cases xs.mapM id with
      | error e => simp
      | ok as => simp [pure_eq_ok]

/-- `from_packet` returns if and only if all getters do. -/
theorem fromPacket_ok_iff (d : Decl) (m : Mode) (buf : Buf) :
    (∃ v, d.fromPacket m buf = .ok v) ↔ ∀ k < d.fields.length, ∃ v, d.get m buf k = .ok v := by
  rw [fromPacket_mapM]
  have h := mapM_id_ok_iff ((List.range d.fields.length).map (d.get m buf))
  simp only [List.mem_map, List.mem_range, forall_exists_index, and_imp, forall_apply_eq_imp_iff₂] at h
  rw [← h]
  cases ((List.range d.fields.length).map (d.get m buf)).mapM id with
  | error e => simp
  | ok vs => simp

theorem ndp_len (m : Mode) (buf : Buf) (h : 2 ≤ buf.length) {e : LenExpr}
    (he : (ndpOption.fields[2]?).bind (·.len) = some e) :
    lenExpr m buf (ndpOption.before m buf 2) e = ndpOptionDataLength m (bitsAt buf 8 8) := by
  have hg : ndpOption.get m buf 1 = .ok (.num (bitsAt buf 8 8)) :=
    layoutOk_get (L := ndpOptionLayout) (by decide +kernel) (k := 1) rfl m buf h
  cases he
  rw [lenExpr, before_get (by decide) (by decide), hg]; rfl

/-- `from_packet` returns when a fixed header is followed by one byte vector whose length
expression returns. -/
theorem fromPacket_one_vector {d : Decl} (hacc : d.accepted = true) {k : Nat} {f : Field}
    (hlast : d.fields.length = k + 1) (hf : d.fields[k]? = some f) {e : Endianness}
    (hty : f.ty = .vecPrim ⟨8, e⟩) (hfix : (d.fields.take k).all Field.fixed = true) {m : Mode}
    {buf : Buf} (hsl : SliceLen buf.length) (hnew : (d.newPacket buf).isSome = true) {len : Nat}
    (hlen : fieldLen m buf (d.before m buf k) f = .ok len)
    (hov : bitsSum (d.fields.take k) / 8 + len < 2 ^ 64) : ∃ v, d.fromPacket m buf = .ok v := by
  rw [fromPacket_ok_iff]
  intro j hj
  by_cases hjk : j = k
  · subst hjk
    exact ⟨_, by rw [bytes_get hf hty, getRaw_fixed hf hfix hlen (new_len hnew) hov]; rfl⟩
  · have hjk' : j < k := by omega
    have htk : (d.fields.take (j + 1)).all Props.isFixed = true := by
      have : d.fields.take (j + 1) = (d.fields.take k).take (j + 1) := by
        rw [List.take_take, Nat.min_eq_left (by omega)]
      rw [this, List.all_eq_true]
      intro x hx
      exact List.all_eq_true.mp hfix x (List.mem_of_mem_take hx)
    exact Props.C07_fixed_getters_total d hacc j hj htk m buf hsl hnew

end Verif
