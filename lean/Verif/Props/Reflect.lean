import Verif.Spec.Reflect
import Verif.Props.Translate

/-!
# C137: packets sent back

The program is in `Spec/Reflect`.
-/

set_option autoImplicit false

namespace Verif.Props
open Verif Verif.Spec

theorem patch_mid {a : Nat} {x old new y : Buf} (ha : x.length = a) (hl : new.length = old.length) :
    patch a new (x ++ old ++ y) = x ++ new ++ y := by
  subst ha
  unfold patch
  rw [hl, ← List.drop_drop, List.append_assoc x old y, List.take_left, List.drop_left, List.drop_left]

theorem checksum_sum {a b : Buf} (h : (words16 a).sum = (words16 b).sum) :
    internetChecksum (words16 a) = internetChecksum (words16 b) := by
  unfold internetChecksum
  rw [ocSum_eq _ (words16_lt _), ocSum_eq _ (words16_lt _), h]

theorem sum_append {a b : Buf} (h : a.length % 2 = 0) : (words16 (a ++ b)).sum = (words16 a).sum + (words16 b).sum := by
  rw [words16_append _ _ h, List.sum_append_nat]

/-- Words that change places in the segment. -/
theorem swap_words {p q : Nat} {seg : Buf} (h : 4 ≤ seg.length) (hp : storeWord 0 p seg = seg) (hq : storeWord 1 q seg = seg) :
    ∃ a b c d rest, seg = [a, b, c, d] ++ rest ∧ storeWord 1 p (storeWord 0 q seg) = [c, d, a, b] ++ rest := by
  match seg, h with
  | a :: b :: c :: d :: rest, _ =>
    simp only [storeWord, putWord, List.set_cons_zero, List.set_cons_succ, Nat.mul_zero, Nat.zero_add, Nat.mul_one,
      List.cons.injEq, and_true, true_and] at hp hq
    refine ⟨a, b, c, d, rest, rfl, ?_⟩
    simp only [storeWord, putWord, List.set_cons_zero, List.set_cons_succ, Nat.mul_zero, Nat.zero_add, Nat.mul_one,
      hp.1, hp.2, hq.1, hq.2, List.cons_append, List.nil_append]

theorem zeroWord_ports {j : Nat} (a b c d : UInt8) (rest : Buf) :
    zeroWord (j + 2) ([a, b, c, d] ++ rest) = [a, b, c, d] ++ zeroWord j rest := by
  unfold zeroWord
  simp only [List.cons_append, List.nil_append]
  rw [show j + 2 = j + 1 + 1 by omega, putWord_succ, putWord_succ]

/-- The second port. -/
theorem ported4_second {t : Transport Ipv4Addr} (ht : t ∈ ported4) :
    (∃ f, t.d.fields[1]? = some f ∧ f.ty = .prim ⟨16, .big⟩ ∧ isFixed f = true) ∧
    (t.d.fields.take 1).all isFixed = true ∧ (t.d.fields.take 2).all isFixed = true ∧
    fixedBits (t.d.fields.take 1) = 16 ∧ t.proto ≠ 1 ∧ 4 ≤ sumAt t := by
  simp only [ported4, transports4, List.filter] at ht
  simp only [ne_eq, decide_not] at ht
  simp at ht
  rcases ht with rfl | rfl
  · exact ⟨⟨_, rfl, rfl, rfl⟩, by decide, by decide, by decide, by decide, by decide⟩
  · exact ⟨⟨_, rfl, rfl, rfl⟩, by decide, by decide, by decide, by decide, by decide⟩

/-- The checksum of a segment with exchanged ports between exchanged addresses. -/
theorem swap_check {m : Mode} {t : Transport Ipv4Addr} (ht : t ∈ ported4) {s d : Ipv4Addr} {a b c e : UInt8} {rest : Buf}
    (hl : ([a, b, c, e] ++ rest).length ≤ 65535) (hc : t.check m ([a, b, c, e] ++ rest) s d = .ok true) :
    t.check m ([c, e, a, b] ++ rest) d s = .ok true := by
  obtain ⟨tok, ej, e2, hm, -, -⟩ := ported4_ok ht
  obtain ⟨-, -, -, -, hpr, h4⟩ := ported4_second ht
  have hn : (t.d.newPacket ([a, b, c, e] ++ rest)).isSome = true := by
    cases hp : t.d.newPacket ([a, b, c, e] ++ rest) with
    | none => unfold Transport.check at hc; rw [hp] at hc; cases hc
    | some x => rfl
  have hn' : (t.d.newPacket ([c, e, a, b] ++ rest)).isSome = true := by
    rw [(C06_new_iff _ _).1]
    have := (C06_new_iff t.d ([a, b, c, e] ++ rest)).1.mp hn
    simpa using this
  obtain ⟨v, g1, g2, g3⟩ := check_value tok (m := m) (s := s) (d := d) hn hl
  obtain ⟨w, k1, k2, k3⟩ := check_value tok (m := m) (s := d) (d := s) hn' (by simpa using hl)
  have hroom := seg_room tok hn
  obtain ⟨i, hi⟩ : ∃ i, sumAt t / 2 = i + 2 := ⟨sumAt t / 2 - 2, by omega⟩
  obtain ⟨f, hf, hty⟩ := tok.field
  have hvl := get_word_lt tok.acc hf hty tok.fixed hn g1
  have hwl := get_word_lt tok.acc hf hty tok.fixed hn' k1
  rw [hi] at g2 k2 g3 k3 hroom
  -- the stored checksum is the same
  have hst : ∀ (v : Nat) (a b c e : UInt8), storeWord (i + 2) v ([a, b, c, e] ++ rest) = [a, b, c, e] ++ storeWord i v rest := by
    intro v a b c e
    unfold storeWord
    simp only [List.cons_append, List.nil_append]
    rw [show i + 2 = i + 1 + 1 by omega, putWord_succ, putWord_succ]
  rw [hst] at g2 k2
  have g2 : storeWord i v rest = rest := List.append_cancel_left g2
  have k2 : storeWord i w rest = rest := List.append_cancel_left k2
  have hvw : v = w := by
    have hr : 2 * i + 2 ≤ rest.length := by
      simp only [List.length_append, List.length_cons, List.length_nil] at hroom
      omega
    have h1 := sum_storeWord (k := i) hr hvl
    have h2 := sum_storeWord (k := i) hr hwl
    rw [g2] at h1
    rw [k2] at h2
    omega
  rw [k3, ← hvw]
  rw [hc] at g3
  have g3 : v = internetChecksum (words16 (pre4 t s d ([a, b, c, e] ++ rest).length ++ zeroWord (i + 2) ([a, b, c, e] ++ rest))) := by
    simpa using (Except.ok.inj g3).symm
  rw [g3]
  congr 1
  rw [beq_iff_eq]
  apply checksum_sum
  rw [zeroWord_ports, zeroWord_ports, sum_append (tok.even ..), sum_append (tok.even ..), 
    sum_append (by simp : [a, b, c, e].length % 2 = 0), sum_append (by simp : [c, e, a, b].length % 2 = 0)]
  unfold pre4
  rw [if_neg hpr, if_neg hpr]
  unfold pseudo4
  rw [sum_append (by simp), sum_append (by simp), sum_append (by simp), sum_append (by simp)]
  simp [words16]
  omega

/-- The header checksum with exchanged addresses. -/
theorem swap_sum4 {A O R R' : Buf} {s d : Ipv4Addr} (hA : A.length = 12) (hl : R'.length = R.length)
    (hh : head4 (A ++ s.octets.toList ++ d.octets.toList ++ O ++ R) = 20 + O.length) :
    sum4 (A ++ d.octets.toList ++ s.octets.toList ++ O ++ R') = sum4 (A ++ s.octets.toList ++ d.octets.toList ++ O ++ R) := by
  have hs : s.octets.toList.length = 4 := by simp
  have hd : d.octets.toList.length = 4 := by simp
  have hh' : head4 (A ++ d.octets.toList ++ s.octets.toList ++ O ++ R') = 20 + O.length := by
    rw [← hh]
    unfold head4
    congr 1
    · simp only [List.length_append, hl, hs, hd]
    · match A, hA with
      | a :: A, _ => rfl
  have ht : ∀ (s d : Ipv4Addr) (R : Buf), (A ++ s.octets.toList ++ d.octets.toList ++ O ++ R).take (20 + O.length) =
      A ++ (s.octets.toList ++ (d.octets.toList ++ O)) := by
    intro s d R
    rw [List.take_left' (by simp only [List.length_append, hA]; simp)]
    simp only [List.append_assoc]
  unfold sum4
  rw [hh, hh', ht, ht, zeroWord_append (by omega), zeroWord_append (by omega)]
  apply checksum_sum
  have h1 : (zeroWord 5 A).length % 2 = 0 := by rw [zeroWord_length, hA]
  rw [sum_append h1, sum_append h1, sum_append (by simp), sum_append (by simp), sum_append (by simp), sum_append (by simp)]
  omega

/-- An answer to an accepted packet in pieces: another segment of the same length, and exchanged addresses. -/
theorem answer4 {m : Mode} {t : Transport Ipv4Addr} (hm : t ∈ transports4) {A O seg seg' T : Buf} {s d : Ipv4Addr}
    (hA : A.length = 12) (hsl : SliceLen (A ++ s.octets.toList ++ d.octets.toList ++ O ++ (seg ++ T)).length)
    (hO : 20 + O.length = max 20 (4 * bitsAt (A ++ s.octets.toList ++ d.octets.toList ++ O ++ (seg ++ T)) 4 4))
    (h : accept4 m t (A ++ s.octets.toList ++ d.octets.toList ++ O ++ (seg ++ T)) = .ok (some (s, d, seg)))
    (hl2 : seg'.length = seg.length) (hne : seg' ≠ []) (hck : t.check m seg' d s = .ok true) :
    (do
      let ip ← ipv4.payloadMutCopy m (A ++ s.octets.toList ++ d.octets.toList ++ O ++ (seg ++ T)) seg'
      let ip ← ipv4.setAs Ipv4Addr.toPrimitive m ip 11 d
      ipv4.setAs Ipv4Addr.toPrimitive m ip 12 s) =
      .ok (A ++ d.octets.toList ++ s.octets.toList ++ O ++ (seg' ++ T)) ∧
    accept4 m t (A ++ d.octets.toList ++ s.octets.toList ++ O ++ (seg' ++ T)) = .ok (some (d, s, seg')) := by
  have hs4 : s.octets.toList.length = 4 := by simp
  have hd4 : d.octets.toList.length = 4 := by simp
  obtain ⟨h20, b1, b2, b3, b4, b5, b6, b7⟩ := (accepted4 hm hsl).mp h
  obtain ⟨p1, p2⟩ := payloadMut4 m (new := seg') h20 (by rw [hl2, ← b3]) hne
  rw [← hO, ← List.append_assoc, patch_mid (by simp only [List.length_append, hA, hs4, hd4]) hl2] at p2
  have haddr : ∀ (n : Nat) (nm : String) (x y : Buf) (old v : Ipv4Addr), (⟨ipv4, n, nm, x.length⟩ : AddrField) ∈ v4Fields →
      SliceLen (x ++ old.octets.toList ++ y).length → 20 ≤ (x ++ old.octets.toList ++ y).length →
      ipv4.setAs Ipv4Addr.toPrimitive m (x ++ old.octets.toList ++ y) n v = .ok (x ++ v.octets.toList ++ y) := by
    intro n nm x y old v hmem hsl h20
    obtain ⟨-, -, ha⟩ := C72_ipv4 _ hmem m _ hsl (new4 h20)
    obtain ⟨new, n1, n2, -⟩ := ha v
    refine n1.trans ?_
    rw [n2]
    have := patch_mid (a := x.length) (x := x) (old := old.octets.toList) (new := v.octets.toList) (y := y) rfl (by simp)
    unfold patch at this
    rw [show v.octets.toList.length = 4 by simp] at this
    rw [this]
  have hlen : ∀ (u v : Ipv4Addr), (A ++ (u.octets.toList ++ (v.octets.toList ++ (O ++ (seg' ++ T))))).length =
      (A ++ s.octets.toList ++ d.octets.toList ++ O ++ (seg ++ T)).length := by
    intro u v
    simp only [List.length_append, hl2]
    simp
    omega
  have s1 := haddr 11 "source" A (d.octets.toList ++ (O ++ (seg' ++ T))) s d (by rw [hA]; simp [v4Fields])
    (by rw [List.append_assoc, hlen]; exact hsl) (by rw [List.append_assoc, hlen]; exact h20)
  have s2 := haddr 12 "destination" (A ++ d.octets.toList) (O ++ (seg' ++ T)) d s
    (by rw [List.length_append, hA, hd4]; simp [v4Fields])
    (by simp only [List.append_assoc]; rw [hlen]; exact hsl) (by simp only [List.append_assoc]; rw [hlen]; exact h20)
  simp only [List.append_assoc] at p2 s1 s2
  refine ⟨?_, ?_⟩
  · simp only [List.append_assoc]
    simp only [p2, s1, s2, ok_bind]
  · have htk : (A ++ d.octets.toList ++ s.octets.toList ++ O ++ (seg' ++ T)).take 12 =
        (A ++ s.octets.toList ++ d.octets.toList ++ O ++ (seg ++ T)).take 12 := by
      simp only [List.append_assoc]
      rw [← hA, List.take_left, List.take_left]
    have f1 := bitsAt_congr (s := 4) (n := 4) htk (by decide)
    have f2 := bitsAt_congr (s := 16) (n := 16) htk (by decide)
    have f3 := bitsAt_congr (s := 72) (n := 8) htk (by decide)
    have f4 := bitsAt_congr (s := 80) (n := 16) htk (by decide)
    have hll : (A ++ d.octets.toList ++ s.octets.toList ++ O ++ (seg' ++ T)).length =
        (A ++ s.octets.toList ++ d.octets.toList ++ O ++ (seg ++ T)).length := by
      have := hlen d s
      simpa only [List.append_assoc] using this
    refine (accepted4 hm (by rw [hll]; exact hsl)).mpr ⟨by rw [hll]; exact h20, ?_, ?_, ?_, ?_, ?_, by omega, ?_⟩
    · simp only [List.append_assoc]
      rw [List.drop_left' hA, List.take_left' hd4]
    · rw [List.append_assoc, List.append_assoc, List.drop_left' (by rw [List.length_append, hA, hd4]), List.take_left' hs4]
    · rw [f1, f2, ← hO, List.drop_left' (by simp only [List.length_append, hA, hs4, hd4])]
      rw [← hO, List.drop_left' (by simp only [List.length_append, hA, hs4, hd4])] at b3
      generalize bitsAt (A ++ s.octets.toList ++ d.octets.toList ++ O ++ (seg ++ T)) 16 16 - _ = n at b3 ⊢
      by_cases hT : T = []
      · subst hT
        rw [List.append_nil] at b3 ⊢
        rw [List.take_of_length_le]
        have := congrArg List.length b3
        rw [List.length_take] at this
        omega
      · have := congrArg List.length b3
        have hTl := List.length_pos_iff.mpr hT
        rw [List.length_take, List.length_append] at this
        rw [List.take_left' (by omega)]
    · rw [f4, b4]
      refine (swap_sum4 hA (by simp [hl2]) ?_).symm
      have := segmentAt_eq h20
      unfold segmentAt at this
      unfold head4
      rw [← this, ← hO]
      rw [← hO] at p1
      omega
    · rw [f3]; exact b5
    · exact hck

/-- An accepted packet in pieces, and what is sent back. -/
theorem reflect4_value {m : Mode} {t : Transport Ipv4Addr} (ht : t ∈ ported4) {A O seg T : Buf} {s d : Ipv4Addr}
    (hA : A.length = 12) (hsl : SliceLen (A ++ s.octets.toList ++ d.octets.toList ++ O ++ (seg ++ T)).length)
    (hO : 20 + O.length = max 20 (4 * bitsAt (A ++ s.octets.toList ++ d.octets.toList ++ O ++ (seg ++ T)) 4 4))
    (h : accept4 m t (A ++ s.octets.toList ++ d.octets.toList ++ O ++ (seg ++ T)) = .ok (some (s, d, seg))) :
    ∃ a b c e rest, seg = [a, b, c, e] ++ rest ∧
      reflect4 m t (A ++ s.octets.toList ++ d.octets.toList ++ O ++ (seg ++ T)) =
        .ok (some (A ++ d.octets.toList ++ s.octets.toList ++ O ++ (([c, e, a, b] ++ rest) ++ T))) ∧
      accept4 m t (A ++ d.octets.toList ++ s.octets.toList ++ O ++ (([c, e, a, b] ++ rest) ++ T)) =
        .ok (some (d, s, [c, e, a, b] ++ rest)) ∧
      t.d.get m ([c, e, a, b] ++ rest) 0 = t.d.get m seg 1 ∧ t.d.get m ([c, e, a, b] ++ rest) 1 = t.d.get m seg 0 := by
  obtain ⟨tok, ej, e2, hm, ⟨f, hf, hty, hfix⟩, hcr⟩ := ported4_ok ht
  obtain ⟨⟨f', hf', hty', hfix'⟩, hx1, hx2, hpos, hpr, h4⟩ := ported4_second ht
  obtain ⟨h20, b1, b2, b3, b4, b5, b6, b7⟩ := (accepted4 hm hsl).mp h
  have hn : (t.d.newPacket seg).isSome = true := by
    cases hp : t.d.newPacket seg with
    | none => unfold Transport.check at b7; rw [hp] at b7; cases b7
    | some x => rfl
  have hroom := seg_room tok hn
  have hsls : SliceLen seg.length := by unfold SliceLen; omega
  have g0 := C07_fixed_getter_value t.d tok.acc 0 f hf hx1 (by rw [hty]; rfl) m seg hn
  have g1 := C07_fixed_getter_value t.d tok.acc 1 f' hf' hx2 (by rw [hty']; rfl) m seg hn
  rw [hty] at g0
  rw [hty'] at g1
  simp only [decodeFixed] at g0 g1
  generalize hp : (ofBits _ : Nat) = p at g0
  generalize hq : (ofBits _ : Nat) = q at g1
  have hpl := get_word_lt tok.acc hf hty hx1 hn g0
  have hql := get_word_lt tok.acc hf' hty' hx2 hn g1
  have hsp := (get_word tok.acc hf hty hx1 (j := 0) rfl hn g0).2
  have hsq := (get_word tok.acc hf' hty' hx2 (j := 1) hpos hn g1).2
  have w0 := (set_word tok.acc hf hty hx1 (j := 0) rfl m seg hsls hn q).2
  have hn1 : (t.d.newPacket (storeWord 0 q seg)).isSome = true := by
    rw [(C06_new_iff _ _).1, storeWord_length]; exact (C06_new_iff _ _).1.mp hn
  have w1 := (set_word tok.acc hf' hty' hx2 (j := 1) hpos m (storeWord 0 q seg) (by rw [storeWord_length]; exact hsls) hn1 p).2
  obtain ⟨a, b, c, e, rest, e1, e2⟩ := swap_words (by omega) hsp hsq
  rw [e2] at w1
  obtain ⟨-, hr⟩ := C93_registers t.d hcr m (noInner 0) [.set 0 (.num q), .set 1 (.num p)] seg _ hsls hn
    (by simp only [runWrites, Write.run, w0, w1, ok_bind]; rfl)
  have r0 := (hr 0 f hf hfix).1 (.num q) rfl
  have r1 := (hr 1 f' hf' hfix').1 (.num p) rfl
  rw [hty] at r0
  rw [hty'] at r1
  simp only [normField] at r0 r1
  rw [Nat.mod_eq_of_lt (by simpa using hql)] at r0
  rw [Nat.mod_eq_of_lt (by simpa using hpl)] at r1
  have hl2 : ([c, e, a, b] ++ rest).length = seg.length := by rw [e1]; simp
  generalize hseg' : [c, e, a, b] ++ rest = seg' at *
  refine ⟨a, b, c, e, rest, e1, ?_⟩
  rw [hseg']
  have hne : seg' ≠ [] := by rw [← hseg']; simp
  obtain ⟨o1, o2⟩ := answer4 hm hA hsl hO h hl2 hne (by
    rw [← hseg']
    rw [e1] at b6 b7
    exact swap_check ht b6 b7)
  refine ⟨?_, o2, ?_, ?_⟩
  · simp only [reflect4, h, ok_bind, g0, g1, Val.asNum, w0, w1]
    obtain ⟨x1, y1, o1⟩ := bind_eq_ok.mp o1
    obtain ⟨x2, y2, o1⟩ := bind_eq_ok.mp o1
    simp only [y1, y2, o1, ok_bind]
    rfl
  · rw [r0, g1]
  · rw [r1, g0]

theorem mid_get {x old new y : Buf} (hl : new.length = old.length) {i : Nat}
    (hi : i < x.length ∨ x.length + old.length ≤ i) : (x ++ new ++ y)[i]? = (x ++ old ++ y)[i]? := by
  rw [List.append_assoc, List.append_assoc]
  rcases hi with hi | hi
  · rw [List.getElem?_append_left hi, List.getElem?_append_left hi]
  · rw [List.getElem?_append_right (by omega), List.getElem?_append_right (by omega),
      List.getElem?_append_right (by omega), List.getElem?_append_right (by omega), hl]

/-- An accepted packet has such pieces. -/
theorem pieces4 {m : Mode} {t : Transport Ipv4Addr} (hm : t ∈ transports4) {ip seg : Buf} {s d : Ipv4Addr}
    (hsl : SliceLen ip.length) (ha : accept4 m t ip = .ok (some (s, d, seg))) :
    ∃ A O T, A.length = 12 ∧ 20 + O.length = segmentAt ip ∧ segmentAt ip = max 20 (4 * bitsAt ip 4 4) ∧
      ip = A ++ s.octets.toList ++ d.octets.toList ++ O ++ (seg ++ T) ∧ seg.length ≤ 65535 ∧ t.check m seg s d = .ok true := by
  obtain ⟨h20, b1, b2, b3, b4, b5, b6, b7⟩ := (accepted4 hm hsl).mp ha
  have hat := segmentAt_eq h20
  have hne : seg ≠ [] := by
    intro e
    obtain ⟨j, tok⟩ := transports4_ok t hm
    cases hp : t.d.newPacket seg with
    | none => unfold Transport.check at b7; rw [hp] at b7; cases b7
    | some x =>
      have := seg_room tok (seg := seg) (by rw [hp]; rfl)
      rw [e] at this
      simp at this
  obtain ⟨p1, -⟩ := payloadMut4 m (new := seg) h20 (by rw [← b3]) hne
  generalize hn : bitsAt ip 16 16 - 4 * bitsAt ip 4 4 = n at b3
  refine ⟨ip.take 12, (ip.drop 20).take (segmentAt ip - 20), (ip.drop (segmentAt ip)).drop n, by rw [List.length_take]; omega,
    by rw [List.length_take, List.length_drop]; omega, hat.symm, ?_, b6, b7⟩
  rw [b3, hat, List.take_append_drop, b1, b2]
  have e1 : ip.drop (segmentAt ip) = (ip.drop 20).drop (segmentAt ip - 20) := by
    rw [List.drop_drop]
    congr 1
    omega
  rw [e1, List.append_assoc, List.take_append_drop, show ip.drop 20 = (ip.drop 16).drop 4 by rw [List.drop_drop],
    List.append_assoc, List.take_append_drop, show ip.drop 16 = (ip.drop 12).drop 4 by rw [List.drop_drop],
    List.append_assoc, List.take_append_drop, List.take_append_drop]

/-- **C137** A program that sends UDP and TCP packets back by exchanging ports and addresses need not compute the checksums
anew: it never panics, drops exactly the packets that are not accepted, and what it sends is accepted, from the old destination
to the old source, with the ports exchanged. All other bytes are the same, and sent back twice a packet is the packet that
came. -/
theorem C137_reflect (m : Mode) (t : Transport Ipv4Addr) (ht : t ∈ ported4) (ip : Buf) (hsl : SliceLen ip.length) :
    (accept4 m t ip = .ok none ∧ reflect4 m t ip = .ok none) ∨
    ∃ s d seg out seg', accept4 m t ip = .ok (some (s, d, seg)) ∧ reflect4 m t ip = .ok (some out) ∧
      accept4 m t out = .ok (some (d, s, seg')) ∧
      t.d.get m seg' 0 = t.d.get m seg 1 ∧ t.d.get m seg' 1 = t.d.get m seg 0 ∧
      SameExcept [12, 13, 14, 15, 16, 17, 18, 19, segmentAt ip, segmentAt ip + 1, segmentAt ip + 2, segmentAt ip + 3] out ip ∧
      reflect4 m t out = .ok (some ip) := by
  have hm := (List.mem_filter.mp ht).1
  rcases C136_translate m t ht ⟨#v[0, 0, 0, 0]⟩ 0 (by decide) ip hsl with ⟨ha, -⟩ | ⟨s, d, seg, -, -, ha, -⟩
  · exact .inl ⟨ha, by simp only [reflect4, ha, ok_bind]; rfl⟩
  · right
    obtain ⟨A, O, T, hA, hOl, hat, hip, -, -⟩ := pieces4 hm hsl ha
    have hs4 : s.octets.toList.length = 4 := by simp
    have hd4 : d.octets.toList.length = 4 := by simp
    have hO : 20 + O.length = max 20 (4 * bitsAt ip 4 4) := by omega
    have hsl0 := hsl
    have hO0 := hO
    have ha0 := ha
    rw [hip] at hsl0 hO0 ha0
    obtain ⟨a, b, c, e, rest, e1, r1, r2, r3, r4⟩ := reflect4_value ht hA hsl0 hO0 ha0
    have hl : (A ++ d.octets.toList ++ s.octets.toList ++ O ++ ([c, e, a, b] ++ rest ++ T)).length = ip.length := by
      conv => rhs; rw [hip, e1]
      simp
    have htk : (A ++ d.octets.toList ++ s.octets.toList ++ O ++ ([c, e, a, b] ++ rest ++ T)).take 12 = ip.take 12 := by
      conv => rhs; rw [hip]
      simp only [List.append_assoc]
      rw [← hA, List.take_left, List.take_left]
    have hO1 := hO
    rw [← bitsAt_congr (s := 4) (n := 4) htk (by decide)] at hO1
    obtain ⟨a', b', c', e', rest', e1', r1', -⟩ := reflect4_value ht hA (by rw [hl]; exact hsl) hO1 r2
    simp only [List.cons_append, List.nil_append, List.cons.injEq] at e1'
    obtain ⟨rfl, rfl, rfl, rfl, rfl⟩ := e1'
    rw [← e1, ← hip] at r1'
    rw [← hip] at r1
    refine ⟨s, d, seg, _, _, ha, r1, r2, r3, r4, ⟨hl, ?_⟩, r1'⟩
    intro i hi
    simp only [List.mem_cons, List.not_mem_nil, or_false, not_or] at hi
    have h1 : (A ++ d.octets.toList ++ s.octets.toList ++ O ++ ([c, e, a, b] ++ rest ++ T))[i]? =
        (A ++ d.octets.toList ++ s.octets.toList ++ O ++ ([a, b, c, e] ++ rest ++ T))[i]? := by
      have := mid_get (x := A ++ d.octets.toList ++ s.octets.toList ++ O) (new := [c, e, a, b]) (old := [a, b, c, e])
        (y := rest ++ T) rfl (i := i) (by simp only [List.length_append, hA, hs4, hd4, List.length_cons, List.length_nil]; omega)
      simpa only [List.append_assoc] using this
    have h2 : (A ++ d.octets.toList ++ s.octets.toList ++ O ++ (seg ++ T))[i]? =
        (A ++ s.octets.toList ++ d.octets.toList ++ O ++ (seg ++ T))[i]? := by
      have := mid_get (x := A) (new := d.octets.toList ++ s.octets.toList) (old := s.octets.toList ++ d.octets.toList)
        (y := O ++ (seg ++ T)) (by simp) (i := i) (by simp only [List.length_append, hA, hs4, hd4]; omega)
      simpa only [List.append_assoc] using this
    rw [h1, ← e1, h2, ← hip]

example := C137_reflect .debug ⟨udp, 17, 3, udpIpv4Checksum⟩ (by simp [ported4, transports4]) datagram4 (by unfold SliceLen; decide)

/-- The datagram of C113, sent back: the checksums are those of the datagram that came. -/
example : reflect4 .debug ⟨udp, 17, 3, udpIpv4Checksum⟩ datagram4 =
    .ok (some ([69, 252, 0, 32, 0, 7, 0, 0, 64, 17, 101, 200, 10, 0, 0, 2, 10, 0, 0, 1] ++
      [0, 0, 255, 251, 0, 12, 18, 52, 1, 2, 216, 161])) := by decide +kernel

end Verif.Props
