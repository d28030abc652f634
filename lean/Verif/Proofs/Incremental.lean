import Verif.Proofs.Corruption

/-! # Incremental update of checksums -/

namespace Verif
open Spec

theorem rfc1624_eq {S T m m' : Nat} (hm : m < 65536) (hm' : m' < 65536) (h : T + m = S + m') :
    rfc1624 (65535 - ocNorm S) m m' = 65535 - ocNorm (T + 65535) := by
  unfold rfc1624
  have h1 := ocNorm_le S
  rw [show 65535 - (65535 - ocNorm S) = ocNorm S by omega, ocAdd_norm _ _ (by omega), ocAdd_norm _ _ hm']
  congr 2
  omega

theorem ocNorm_add {T : Nat} : (ocNorm (T + 65535) = ocNorm T) ↔ T ≠ 0 := by
  unfold ocNorm
  split <;> split <;> omega

/-- The update is right unless the new message is zero. -/
theorem rfc1624_iff {S T m m' : Nat} (hm : m < 65536) (hm' : m' < 65536) (h : T + m = S + m') :
    65535 - ocNorm T = rfc1624 (65535 - ocNorm S) m m' ↔ T ≠ 0 := by
  rw [rfc1624_eq hm hm' h, ← ocNorm_add]
  have h1 := ocNorm_le T
  have h2 := ocNorm_le (T + 65535)
  omega

theorem rfc1624All_eq : ∀ (old new : List Nat) (R : Nat), old.length = new.length → R ≠ 0 →
    (∀ w ∈ old, w < 65536) → (∀ w ∈ new, w < 65536) →
    rfc1624All (65535 - ocNorm (R + old.sum)) (old.zip new) = 65535 - ocNorm (R + new.sum)
  | [], [], R, _, _, _, _ => rfl
  | o :: old, n :: new, R, hl, hR, ho, hn => by
    have step := (rfc1624_iff (S := R + (o :: old).sum) (T := R + n + old.sum) (m := o) (m' := n)
      (ho o (List.mem_cons_self ..)) (hn n (List.mem_cons_self ..))
      (by rw [List.sum_cons]; omega)).2 (by omega)
    have ih := rfc1624All_eq old new (R + n) (by simpa using hl) (by omega)
      (fun w hw => ho w (List.mem_cons_of_mem _ hw)) (fun w hw => hn w (List.mem_cons_of_mem _ hw))
    rw [List.sum_cons (a := n), ← Nat.add_assoc, ← ih]
    show rfc1624All (rfc1624 (65535 - ocNorm (R + (o :: old).sum)) o n) (old.zip new) = _
    rw [← step]
  | [], _ :: _, _, hl, _, _, _ => by simp at hl
  | _ :: _, [], _, hl, _, _, _ => by simp at hl

theorem storeWord_length (j c : Nat) (data : Buf) : (storeWord j c data).length = data.length := by
  simp [storeWord, putWord]

theorem zeroWord_storeWord {j k : Nat} (hjk : j ≠ k) (c : Nat) (data : Buf) :
    zeroWord k (storeWord j c data) = storeWord j c (zeroWord k data) := by
  unfold zeroWord storeWord putWord
  rw [List.set_comm (i := 2 * j + 1) (j := 2 * k) _ _ (by omega),
    List.set_comm (i := 2 * j) (j := 2 * k) _ _ (by omega),
    List.set_comm (i := 2 * j + 1) (j := 2 * k + 1) _ _ (by omega),
    List.set_comm (i := 2 * j) (j := 2 * k + 1) _ _ (by omega)]

/-- Changing a word changes the sum by the difference. -/
theorem sum_change {j k w w' : Nat} {data : Buf} (hjk : j ≠ k) (hlen : 2 * j + 2 ≤ data.length)
    (hw : w < 65536) (hw' : w' < 65536) (hold : storeWord j w data = data) :
    (words16 (zeroWord k (storeWord j w' data))).sum + w = (words16 (zeroWord k data)).sum + w' := by
  have hl : 2 * j + 2 ≤ (zeroWord k data).length := by rw [zeroWord_length]; exact hlen
  have h1 := sum_storeWord (k := j) (c := w') hl hw'
  have h2 := sum_storeWord (k := j) (c := w) hl hw
  rw [← zeroWord_storeWord hjk, hold] at h2
  rw [zeroWord_storeWord hjk]
  omega

theorem storeWord_old {j : Nat} {data : Buf} (hlen : 2 * j + 2 ≤ data.length) :
    storeWord j (256 * (data.getD (2 * j) 0).toNat + (data.getD (2 * j + 1) 0).toNat) data = data := by
  have h1 : (data.getD (2 * j + 1) 0).toNat < 256 := UInt8.toNat_lt _
  have e1 : UInt8.ofNat ((256 * (data.getD (2 * j) 0).toNat + (data.getD (2 * j + 1) 0).toNat) / 256) =
      data.getD (2 * j) 0 := by
    rw [show (256 * (data.getD (2 * j) 0).toNat + (data.getD (2 * j + 1) 0).toNat) / 256 =
      (data.getD (2 * j) 0).toNat by omega]
    simp
  have e2 : UInt8.ofNat (256 * (data.getD (2 * j) 0).toNat + (data.getD (2 * j + 1) 0).toNat) =
      data.getD (2 * j + 1) 0 := by
    apply UInt8.toNat_inj.1
    rw [UInt8.toNat_ofNat']
    omega
  unfold storeWord putWord
  rw [e1, e2]
  apply List.ext_getElem?
  intro i
  rw [List.getElem?_set, List.getElem?_set, List.length_set]
  by_cases h2 : 2 * j + 1 = i
  · subst h2; simp [List.getD_eq_getElem?_getD, show 2 * j + 1 < data.length by omega]
  · by_cases h3 : 2 * j = i
    · subst h3; simp [List.getD_eq_getElem?_getD, show 2 * j < data.length by omega]
    · simp [h2, h3]

theorem get_word_lt {d : Decl} (hacc : d.accepted = true) {k : Nat} {f : Field}
    (hf : d.fields[k]? = some f) (hty : f.ty = .prim ⟨16, .big⟩)
    (hfix : (d.fields.take (k + 1)).all Props.isFixed = true) {m : Mode} {buf : Buf} {c : Nat}
    (hnew : (d.newPacket buf).isSome = true) (hget : d.get m buf k = .ok (.num c)) : c < 65536 := by
  rw [Props.C07_fixed_getter_value d hacc k f hf hfix (by rw [hty]; rfl) m buf hnew, hty] at hget
  injection hget with hget
  injection hget with hget
  rw [← hget]
  refine Nat.lt_of_lt_of_le (ofBits_lt _) (Nat.pow_le_pow_right (j := 16) (n := 2) (by decide) ?_)
  unfold bitSlice
  rw [List.length_take]
  exact Nat.min_le_left ..

theorem words16_pseudo6_small (src dst : Ipv6Addr) (p : UInt8) {len : Nat} (h : len < 65536) (rest : Buf) :
    (words16 (pseudo6 src.octets.toList dst.octets.toList p len ++ rest)).sum =
      (words16 src.octets.toList).sum + (words16 dst.octets.toList).sum + p.toNat + len +
        (words16 rest).sum := by
  unfold pseudo6
  rw [List.append_assoc, List.append_assoc, words16_append _ _ (by simp), words16_append _ _ (by simp)]
  simp only [List.cons_append, List.nil_append, words16, List.sum_append, List.sum_cons, UInt8.toNat_ofNat',
    UInt8.toNat_zero]
  omega

theorem bitsOf_one (v : Nat) : bitsOf [UInt8.ofNat v] = toBits 8 v := by
  have h1 : beNat [UInt8.ofNat v] = v % 2 ^ 8 := by
    simp only [beNat, List.foldl_cons, List.foldl_nil, UInt8.toNat_ofNat']
    omega
  have h2 := toBits_ofBits (bitsOf [UInt8.ofNat v])
  rw [← beNat_eq_ofBits, h1, bitsOf_length] at h2
  rw [← h2]
  exact toBits_mod 8 v

/-- Setting an aligned 8-bit field stores the byte. -/
theorem set_byte {d : Decl} (hacc : d.accepted = true) {k j : Nat} {f : Field}
    (hf : d.fields[k]? = some f) (hty : f.ty = .prim ⟨8, .big⟩)
    (hfix : (d.fields.take (k + 1)).all Props.isFixed = true)
    (hpos : fixedBits (d.fields.take k) = 8 * j) (m : Mode) (buf : Buf) (hsl : SliceLen buf.length)
    (hnew : (d.newPacket buf).isSome = true) (v : Nat) :
    d.set m buf k (.num v) = .ok (buf.set j (UInt8.ofNat v)) := by
  have hlen : j < buf.length := by
    have h1 := (Props.C06_new_iff d buf).1.mp hnew
    have h2 := bitsSum_field_le hf
    rw [fixedBits_eq] at h1 hpos
    rw [hpos, hty] at h2
    simp only [Ty.bits] at h2
    omega
  obtain ⟨new, h1, h2, h3⟩ := Props.C03_declared_setter d hacc k f hf hfix (by rw [hty]; rfl) m
    (Props.noInner 0) (.num v) (by rw [hty]; trivial) buf hsl hnew
  rw [h1]
  congr 1
  apply bitsOf_inj
  rw [h3, hty, hpos, List.set_eq_take_append_cons_drop, if_pos hlen,
    show UInt8.ofNat v :: buf.drop (j + 1) = [UInt8.ofNat v] ++ buf.drop (j + 1) from rfl,
    ← List.append_assoc, bitsOf_append, bitsOf_append, bitsOf_take, bitsOf_drop, bitsOf_one]
  simp only [encField, intWidths, List.sum_cons, List.sum_nil]
  congr 2

/-- Address translation of a packet whose ports are words 0 and 1. -/
theorem nat_update {buf : Buf} {k sp sp' dp dp' P : Nat} {s s' d d' : Buf} (hk : 2 ≤ k)
    (hlen : 4 ≤ buf.length) (hP : P ≠ 0)
    (hs : s.length = s'.length) (hd : d.length = d'.length)
    (hsp : sp < 65536) (hsp' : sp' < 65536) (hdp : dp < 65536) (hdp' : dp' < 65536)
    (h0 : storeWord 0 sp buf = buf) (h1 : storeWord 1 dp buf = buf) :
    65535 - ocNorm ((words16 s').sum + (words16 d').sum + P +
        (words16 (zeroWord k (storeWord 1 dp' (storeWord 0 sp' buf)))).sum) =
      rfc1624All (65535 - ocNorm ((words16 s).sum + (words16 d).sum + P + (words16 (zeroWord k buf)).sum))
        (natChanges s s' d d' sp sp' dp dp') := by
  have c0 := sum_change (j := 0) (k := k) (w := sp) (w' := sp') (by omega) (by omega) hsp hsp' h0
  have h1' : storeWord 1 dp (storeWord 0 sp' buf) = storeWord 0 sp' buf := by
    have : storeWord 1 dp (storeWord 0 sp' buf) = storeWord 0 sp' (storeWord 1 dp buf) := by
      unfold storeWord putWord
      rw [List.set_comm (i := 2 * 0 + 1) (j := 2 * 1) _ _ (by omega),
        List.set_comm (i := 2 * 0) (j := 2 * 1) _ _ (by omega),
        List.set_comm (i := 2 * 0 + 1) (j := 2 * 1 + 1) _ _ (by omega),
        List.set_comm (i := 2 * 0) (j := 2 * 1 + 1) _ _ (by omega)]
    rw [this, h1]
  have c1 := sum_change (j := 1) (k := k) (w := dp) (w' := dp') (data := storeWord 0 sp' buf) (by omega)
    (by rw [storeWord_length]; omega) hdp hdp' h1'
  -- the words that do not change
  have e0 := sum_storeWord (k := 0) (c := sp) (data := zeroWord k buf) (by rw [zeroWord_length]; omega) hsp
  rw [← zeroWord_storeWord (by omega), h0] at e0
  have hbig : sp + dp ≤ (words16 (zeroWord k buf)).sum := by
    have e1 := sum_storeWord (k := 1) (c := dp) (data := zeroWord 0 (zeroWord k buf))
      (by rw [zeroWord_length, zeroWord_length]; omega) hdp
    have : storeWord 1 dp (zeroWord 0 (zeroWord k buf)) = zeroWord 0 (zeroWord k buf) := by
      rw [← zeroWord_storeWord (by omega), ← zeroWord_storeWord (by omega), h1]
    rw [this] at e1
    omega
  have key := rfc1624All_eq (words16 s ++ words16 d ++ [sp, dp]) (words16 s' ++ words16 d' ++ [sp', dp'])
    (P + ((words16 (zeroWord k buf)).sum - sp - dp))
    (by simp [words16_length, hs, hd]) (by omega)
    (by intro w hw
        simp only [List.mem_append, List.mem_cons, List.not_mem_nil, or_false] at hw
        rcases hw with (h | h) | h | h
        · exact words16_lt _ w h
        · exact words16_lt _ w h
        · omega
        · omega)
    (by intro w hw
        simp only [List.mem_append, List.mem_cons, List.not_mem_nil, or_false] at hw
        rcases hw with (h | h) | h | h
        · exact words16_lt _ w h
        · exact words16_lt _ w h
        · omega
        · omega)
  rw [List.zip_append (by simp [words16_length, hs, hd]), List.zip_append (by simp [words16_length, hs])] at key
  simp only [List.sum_append, List.sum_cons, List.sum_nil] at key
  unfold natChanges
  have a1 : P + ((words16 (zeroWord k buf)).sum - sp - dp) +
      ((words16 s).sum + (words16 d).sum + (sp + (dp + 0))) =
      (words16 s).sum + (words16 d).sum + P + (words16 (zeroWord k buf)).sum := by omega
  have a2 : P + ((words16 (zeroWord k buf)).sum - sp - dp) +
      ((words16 s').sum + (words16 d').sum + (sp' + (dp' + 0))) =
      (words16 s').sum + (words16 d').sum + P +
        (words16 (zeroWord k (storeWord 1 dp' (storeWord 0 sp' buf)))).sum := by omega
  rw [a1, a2] at key
  exact key.symm

end Verif
