import Verif.Spec.Fragments
import Verif.Props.ArpAnswer

/-!
# C141: IPv4 fragments

The programs are in `Spec/Fragments`.
-/

set_option autoImplicit false

namespace Verif.Props
open Verif Verif.Spec

/-- The setters of total length, flags and offset leave everything after the fixed header alone. -/
theorem set_head4 (m : Mode) {k : Nat} (hk : k = 4 ∨ k = 6 ∨ k = 7) (v : Nat) {b : Buf} (h : 20 ≤ b.length)
    (hsl : SliceLen b.length) :
    ∃ new, ipv4.set m b k (.num v) = .ok new ∧ new.length = b.length ∧ new.drop 20 = b.drop 20 := by
  have key : ∀ (f : Field) (s n : Nat), ipv4.fields[k]? = some f → (ipv4.fields.take (k + 1)).all isFixed = true →
      plainTy f.ty = true → typed (noInner 0) f.ty (.num v) → fixedBits (ipv4.fields.take k) = s → (intWidths f.ty).sum = n →
      (encField (noInner 0) f.ty (.num v)).length = n → s + n ≤ 160 →
      ∃ new, ipv4.set m b k (.num v) = .ok new ∧ new.length = b.length ∧ new.drop 20 = b.drop 20 := by
    intro f s n hf hfix hp ht hs hn he hle
    obtain ⟨new, h1, h2, h3⟩ := C03_declared_setter ipv4 (by decide) k f hf hfix hp m (noInner 0) (.num v) ht b hsl (new4 h)
    refine ⟨new, h1, h2, ?_⟩
    apply bitsOf_inj
    rw [bitsOf_drop, bitsOf_drop, h3, hs, hn]
    have hl : ((bitsOf b).take s ++ encField (noInner 0) f.ty (.num v)).length = s + n := by
      rw [List.length_append, he, List.length_take, bitsOf_length]; omega
    rw [show 8 * 20 = (s + n) + (160 - (s + n)) by omega, ← List.drop_drop, List.drop_left' hl, List.drop_drop]
  rcases hk with rfl | rfl | rfl
  · exact key _ 16 16 rfl (by decide) rfl trivial (by decide) (by decide) (toBits_length _ _) (by omega)
  · exact key _ 48 3 rfl (by decide) rfl trivial (by decide) (by decide) (toBits_length _ _) (by omega)
  · exact key _ 51 13 rfl (by decide) rfl trivial (by decide) (by decide) (toBits_length _ _) (by omega)

theorem get4 (m : Mode) {b : Buf} (h : 20 ≤ b.length) {k : Nat} {s : Slot} (hs : ipv4Layout[k]? = some s) :
    ipv4.get m b k = .ok (s.read b) :=
  layoutOk_get (d := ipv4) (L := ipv4Layout) (by decide +kernel) hs m b h

theorem bitsAt_take {a b : Buf} {n : Nat} (h : a.take n = b.take n) {s k : Nat} (hs : s + k ≤ 8 * n) :
    bitsAt a s k = bitsAt b s k := by
  unfold bitsAt
  rw [← bitSlice_take (bitsOf a) hs, ← bitSlice_take (bitsOf b) hs, ← bitsOf_take, ← bitsOf_take, h]

theorem kept_read (m : Mode) {a b : Buf} (ha : 20 ≤ a.length) (hb : 20 ≤ b.length) (h : a.take 20 = b.take 20) :
    ∀ j ∈ keptFields, ipv4.get m a j = ipv4.get m b j := by
  have e := fun (s k : Nat) (hs : s + k ≤ 8 * 20) => bitsAt_take h hs
  intro j hj
  simp only [keptFields, List.mem_cons, List.not_mem_nil, or_false] at hj
  rcases hj with rfl | rfl | rfl | rfl | rfl | rfl | rfl | rfl | rfl <;>
  · rw [get4 m ha rfl, get4 m hb rfl]
    simp only [Slot.read, intsAt]
    repeat rw [e _ _ (by omega)]

theorem oneFragment_ok (m : Mode) {head data : Buf} {hl off : Nat} (more : Bool) (hh : head.length = 4 * hl) (h5 : 5 ≤ hl)
    (hb : bitsAt head 4 4 = hl) (hd : 4 * hl + data.length ≤ 65535) (ho : off < 8192) :
    ∃ f, oneFragment m head more off data = .ok f ∧ readPiece m f = .ok (some ⟨8 * off, more, data⟩) ∧
      f.length = 4 * hl + data.length ∧ (∀ j ∈ keptFields, ipv4.get m f j = ipv4.get m head j) ∧
      ipv4.get m f 4 = .ok (.num (4 * hl + data.length)) ∧ f.drop 20 = head.drop 20 ++ data := by
  have hl0 : (head ++ data).length = 4 * hl + data.length := by rw [List.length_append, hh]
  have hsl : SliceLen (head ++ data).length := by unfold SliceLen; omega
  obtain ⟨a, a1, a2, a3⟩ := set_head4 m (.inl rfl) (head.length + data.length) (b := head ++ data) (by omega) hsl
  obtain ⟨b, b1, b2, b3⟩ := set_head4 m (.inr (.inl rfl)) (if more then 1 else 0) (b := a) (by omega) (by rw [a2]; exact hsl)
  obtain ⟨c, c1, c2, c3⟩ := set_head4 m (.inr (.inr rfl)) off (b := b) (by omega) (by rw [b2, a2]; exact hsl)
  have hc20 : 20 ≤ c.length := by omega
  have hcs : SliceLen c.length := by rw [c2, b2, a2]; exact hsl
  obtain ⟨d1, d2, d3⟩ := stored4 hc20 hcs
  have hdl : (storeWord 5 (sum4 c) c).length = c.length := storeWord_length ..
  have hdd : (storeWord 5 (sum4 c) c).drop 20 = c.drop 20 := by
    apply List.ext_getElem?
    intro i
    rw [List.getElem?_drop, List.getElem?_drop, storeWord_get _ _ _ (by omega)]
  have d1 := d1 m
  generalize storeWord 5 (sum4 c) c = f at *
  have hf20 : 20 ≤ f.length := by omega
  obtain ⟨-, hr⟩ := C93_registers ipv4 (by simp [crateDecls]) m (noInner 0)
    [.set 4 (.num (head.length + data.length)), .set 6 (.num (if more then 1 else 0)), .set 7 (.num off),
      .set 10 (.num (sum4 c))] (head ++ data) f hsl (new4 (by omega)) (by
      simp only [runWrites, Write.run, a1, b1, c1, d1, ok_bind])
  have r4 : ipv4.get m f 4 = .ok (.num (4 * hl + data.length)) := by
    rw [(hr 4 _ rfl rfl).1 _ rfl, hh]
    change Except.ok (Val.num (_ % 65536)) = _
    rw [Nat.mod_eq_of_lt (by omega)]
  have r6 : ipv4.get m f 6 = .ok (.num (if more then 1 else 0)) := by
    rw [(hr 6 _ rfl rfl).1 _ rfl]
    cases more <;> rfl
  have r7 : ipv4.get m f 7 = .ok (.num off) := by
    rw [(hr 7 _ rfl rfl).1 _ rfl]
    change Except.ok (Val.num (off % 8192)) = _
    rw [Nat.mod_eq_of_lt ho]
  have hk : ∀ j ∈ keptFields, ipv4.get m f j = ipv4.get m head j := by
    intro j hj
    refine Eq.trans ?_ (kept_read m (a := head ++ data) (b := head) (by omega) (by omega)
      (by rw [List.take_append_of_le_length (by omega)]) j hj)
    simp only [keptFields, List.mem_cons, List.not_mem_nil, or_false] at hj
    rcases hj with rfl | rfl | rfl | rfl | rfl | rfl | rfl | rfl | rfl
    · exact (hr 0 _ rfl rfl).2 rfl
    · exact (hr 1 _ rfl rfl).2 rfl
    · exact (hr 2 _ rfl rfl).2 rfl
    · exact (hr 3 _ rfl rfl).2 rfl
    · exact (hr 5 _ rfl rfl).2 rfl
    · exact (hr 8 _ rfl rfl).2 rfl
    · exact (hr 9 _ rfl rfl).2 rfl
    · exact (hr 11 _ rfl rfl).2 rfl
    · exact (hr 12 _ rfl rfl).2 rfl
  have hdrop : f.drop 20 = head.drop 20 ++ data := by
    rw [hdd, c3, b3, a3, List.drop_append_of_le_length (by omega)]
  have e1 : bitsAt f 4 4 = hl := by
    have := hk 1 (by simp)
    rw [get4 m hf20 rfl, get4 m (by omega) rfl] at this
    have this : bitsAt f 4 4 = bitsAt head 4 4 := Val.num.inj (Except.ok.inj this)
    rw [this, hb]
  have e4 : bitsAt f 16 16 = 4 * hl + data.length := by
    rw [get4 m hf20 rfl] at r4
    exact Val.num.inj (Except.ok.inj r4)
  have hpay : ipv4.payload m f = .ok data := by
    rw [C09_ipv4 m f hf20, e1, e4, Nat.max_eq_right (by omega), show 4 * hl = 20 + (4 * hl - 20) by omega, ← List.drop_drop, hdrop,
      List.drop_left' (by rw [List.length_drop]; omega), List.take_of_length_le (by omega)]
  refine ⟨f, ?_, ?_, by omega, hk, r4, hdrop⟩
  · simp only [oneFragment, a1, b1, c1, ok_bind, sum4_eq m hc20, d1]
  · obtain ⟨x, hx⟩ := Option.isSome_iff_exists.mp (new4 hf20)
    have r10 : ipv4.get m f 10 = .ok (.num (bitsAt f 80 16)) := get4 m hf20 (k := 10) rfl
    simp only [readPiece, hx, r10, ok_bind, Val.asNum, sum4_eq m hf20, d2, d3, ne_eq, not_true_eq_false, if_false, r6, r7, hpay]
    cases more <;> rfl

theorem fragmentsFrom_ok (m : Mode) {head data : Buf} {hl w : Nat} (hh : head.length = 4 * hl) (h5 : 5 ≤ hl)
    (hb : bitsAt head 4 4 = hl) (hd : 4 * hl + data.length ≤ 65535) (n k : Nat)
    (hn : ∀ i, i < n → 8 * (w * (k + i)) ≤ data.length) :
    ∃ fs, fragmentsFrom m head data w n k = .ok fs ∧ fs.length = n ∧ ∀ i f, fs[i]? = some f →
      readPiece m f = .ok (some ⟨8 * (w * (k + i)), i + 1 ≠ n, (data.drop (8 * w * (k + i))).take (8 * w)⟩) ∧
      f.length = 4 * hl + min (8 * w) (data.length - 8 * w * (k + i)) ∧ (∀ j ∈ keptFields, ipv4.get m f j = ipv4.get m head j) ∧
      ipv4.get m f 4 = .ok (.num f.length) ∧ (f.drop 20).take (4 * hl - 20) = head.drop 20 := by
  induction n generalizing k with
  | zero => exact ⟨[], rfl, rfl, by simp⟩
  | succ n ih =>
    have h0 := hn 0 (by omega)
    obtain ⟨f, f1, f2, f3, f4, f5, f6⟩ := oneFragment_ok m (data := (data.drop (8 * w * k)).take (8 * w)) (off := w * k)
      (decide (n ≠ 0)) hh h5 hb (by rw [List.length_take, List.length_drop]; omega) (by rw [Nat.add_zero] at h0; omega)
    obtain ⟨fs, g1, g2, g3⟩ := ih (k + 1) (fun i hi => by
      have := hn (i + 1) (by omega)
      rw [show k + 1 + i = k + (i + 1) by omega]
      exact this)
    refine ⟨f :: fs, ?_, by rw [List.length_cons, g2], ?_⟩
    · simp only [fragmentsFrom, f1, g1, ok_bind]
      rfl
    · intro i x hx
      cases i with
      | zero =>
        simp only [List.getElem?_cons_zero, Option.some.injEq] at hx
        subst hx
        rw [Nat.add_zero]
        refine ⟨?_, ?_, f4, by rw [f5, f3], ?_⟩
        · rw [f2]
          simp only [ne_eq, Nat.zero_add, Nat.right_eq_add]
        · rw [f3, List.length_take, List.length_drop]
        · rw [f6, List.take_left' (by rw [List.length_drop]; omega)]
      | succ i =>
        rw [List.getElem?_cons_succ] at hx
        obtain ⟨e1, e2⟩ := g3 i x hx
        rw [show k + 1 + i = k + (i + 1) by omega] at e1 e2
        refine ⟨?_, e2⟩
        rw [e1]
        simp only [ne_eq, Nat.add_right_cancel_iff]

/-- The piece is part of the data, and ends it if no more follow. -/
structure PieceOf (data : Buf) (p : Piece) : Prop where
  inside : p.pos + p.data.length ≤ data.length
  same : ∀ i, i < p.data.length → p.data[i]? = data[p.pos + i]?
  last : p.more = false → p.pos + p.data.length = data.length

theorem place_ok {data : Buf} (ps : List Piece) (buf : Buf) (hl : buf.length = data.length) (h : ∀ p ∈ ps, PieceOf data p) :
    (place buf ps).length = data.length ∧
    ∀ i, (∃ p ∈ ps, p.pos ≤ i ∧ i < p.pos + p.data.length) ∨ buf[i]? = data[i]? → (place buf ps)[i]? = data[i]? := by
  induction ps generalizing buf with
  | nil => exact ⟨hl, fun i hi => by simpa [place] using hi⟩
  | cons p ps ih =>
    have hp := h p (List.mem_cons_self ..)
    have hin : p.pos + p.data.length ≤ buf.length := by rw [hl]; exact hp.inside
    obtain ⟨g1, g2⟩ := ih (patch p.pos p.data buf) (by rw [patch_length hin, hl]) (fun q hq => h q (List.mem_cons_of_mem _ hq))
    refine ⟨g1, fun i hi => g2 i ?_⟩
    rw [patch_get hin]
    by_cases hc : p.pos ≤ i ∧ i < p.pos + p.data.length
    · rw [if_pos hc, hp.same _ (by omega), show p.pos + (i - p.pos) = i by omega]
      exact .inr rfl
    · rw [if_neg hc]
      rcases hi with ⟨q, hq, hqi⟩ | hi
      · rcases List.mem_cons.mp hq with rfl | hq
        · exact absurd hqi hc
        · exact .inl ⟨q, hq, hqi⟩
      · exact .inr hi

theorem readPieces_ok (m : Mode) {data : Buf} (got : List Buf)
    (h : ∀ f ∈ got, ∃ p, readPiece m f = .ok (some p) ∧ PieceOf data p) :
    ∃ ps, readPieces m got = .ok ps ∧ (∀ p ∈ ps, PieceOf data p) ∧
      ∀ f ∈ got, ∀ p, readPiece m f = .ok (some p) → p ∈ ps := by
  induction got with
  | nil => exact ⟨[], rfl, by simp, by simp⟩
  | cons f fs ih =>
    obtain ⟨ps, h1, h2, h3⟩ := ih (fun g hg => h g (List.mem_cons_of_mem _ hg))
    obtain ⟨p, hp, hq⟩ := h f (List.mem_cons_self ..)
    refine ⟨p :: ps, ?_, ?_, ?_⟩
    · simp only [readPieces, hp, h1, ok_bind]
      rfl
    · intro q hq'
      rcases List.mem_cons.mp hq' with rfl | hq'
      · exact hq
      · exact h2 q hq'
    · intro g hg q hgq
      rcases List.mem_cons.mp hg with rfl | hg
      · rw [hp] at hgq
        rw [Option.some.inj (Except.ok.inj hgq)]
        exact List.mem_cons_self ..
      · exact List.mem_cons_of_mem _ (h3 g hg q hgq)

theorem assemble_ok (m : Mode) {data : Buf} (got : List Buf)
    (h : ∀ f ∈ got, ∃ p, readPiece m f = .ok (some p) ∧ PieceOf data p) :
    (assemble m got = .ok none ∨ assemble m got = .ok (some data)) ∧
    ((∃ f ∈ got, ∃ p, readPiece m f = .ok (some p) ∧ p.more = false) →
      (∀ i, i < data.length → ∃ f ∈ got, ∃ p, readPiece m f = .ok (some p) ∧ p.pos ≤ i ∧ i < p.pos + p.data.length) →
      assemble m got = .ok (some data)) := by
  obtain ⟨ps, h1, h2, h3⟩ := readPieces_ok m got h
  have main : ∀ last, ps.find? (fun p => !p.more) = some last →
      assemble m got = .ok (if (List.range data.length).all
        (fun i => ps.any fun p => p.pos ≤ i && i < p.pos + p.data.length) then some data else none) := by
    intro last hl
    have hlast := h2 last (List.mem_of_find?_eq_some hl)
    have hm : last.more = false := by simpa using List.find?_some hl
    have ht := hlast.last hm
    have hall : ps.all (fun p => p.pos + p.data.length ≤ data.length) = true := by
      rw [List.all_eq_true]
      intro p hp
      exact decide_eq_true (h2 p hp).inside
    simp only [assemble, h1, ok_bind, hl, ht, hall, Bool.true_and]
    split
    · next hc =>
      obtain ⟨g1, g2⟩ := place_ok ps (List.replicate data.length 0) (by simp) h2
      have : place (List.replicate data.length 0) ps = data := by
        apply List.ext_getElem?
        intro i
        by_cases hi : i < data.length
        · apply g2
          rw [List.all_eq_true] at hc
          have := hc i (List.mem_range.mpr hi)
          rw [List.any_eq_true] at this
          obtain ⟨p, hp, hpi⟩ := this
          simp only [Bool.and_eq_true, decide_eq_true_eq] at hpi
          exact .inl ⟨p, hp, hpi⟩
        · rw [List.getElem?_eq_none (by omega), List.getElem?_eq_none (by omega)]
      rw [this]
      rfl
    · rfl
  constructor
  · cases hl : ps.find? (fun p => !p.more) with
    | none =>
      left
      simp only [assemble, h1, ok_bind, hl]
      rfl
    | some last =>
      rw [main last hl]
      split
      · exact .inr rfl
      · exact .inl rfl
  · rintro ⟨f, hf, p, hp, hmore⟩ hcov
    have hfind : (ps.find? (fun p => !p.more)).isSome = true := by
      rw [List.find?_isSome]
      exact ⟨p, h3 f hf p hp, by rw [hmore]; rfl⟩
    obtain ⟨last, hl⟩ := Option.isSome_iff_exists.mp hfind
    rw [main last hl, if_pos]
    rw [List.all_eq_true]
    intro i hi
    obtain ⟨g, hg, q, hq, hqi⟩ := hcov i (List.mem_range.mp hi)
    rw [List.any_eq_true]
    exact ⟨q, h3 g hg q hq, by simpa using hqi⟩

/-- A packet that can be cut: complete header with the right checksum, no flags, offset 0. -/
def Cuttable (m : Mode) (ip : Buf) : Prop :=
  20 ≤ ip.length ∧ Holds (ipv4.get m ip 10) (ipv4HeaderChecksum m ip) ∧ 5 ≤ bitsAt ip 4 4 ∧ 4 * bitsAt ip 4 4 ≤ ip.length ∧
    bitsAt ip 48 3 = 0 ∧ bitsAt ip 51 13 = 0

theorem count_le {w len i : Nat} (hw : 0 < w) (h : i < fragmentCount w len) : 8 * (w * (0 + i)) ≤ len := by
  unfold fragmentCount at h
  rw [Nat.zero_add]
  by_cases hi : i = 0
  · subst hi; simp
  · have h2 : i + 1 ≤ (len + (8 * w - 1)) / (8 * w) := by omega
    rw [Nat.le_div_iff_mul_le (by omega), Nat.add_mul, Nat.one_mul, Nat.mul_comm i, Nat.mul_assoc] at h2
    omega

theorem count_ge {w len : Nat} (hw : 0 < w) : len ≤ 8 * w * fragmentCount w len := by
  have h : (len + (8 * w - 1)) / (8 * w) ≤ fragmentCount w len := Nat.le_max_right ..
  have h2 := Nat.mul_le_mul_left (8 * w) h
  have h3 := Nat.lt_mul_div_succ (len + (8 * w - 1)) (show 0 < 8 * w by omega)
  rw [Nat.mul_succ] at h3
  omega

/-- **C141.** Which packets are cut, and what each fragment is. -/
theorem C141_fragment (m : Mode) (w : Nat) (hw : 0 < w) (ip : Buf) :
    (¬ Cuttable m ip → fragment4 m w ip = .ok none) ∧
    (Cuttable m ip → ∃ data fs, ipv4.payload m ip = .ok data ∧ fragment4 m w ip = .ok (some fs) ∧
      fs.length = fragmentCount w data.length ∧ ∀ i f, fs[i]? = some f →
        readPiece m f = .ok (some ⟨8 * w * i, i + 1 ≠ fs.length, (data.drop (8 * w * i)).take (8 * w)⟩) ∧
        f.length ≤ 4 * bitsAt ip 4 4 + 8 * w ∧ ipv4.get m f 4 = .ok (.num f.length) ∧
        (∀ j ∈ keptFields, ipv4.get m f j = ipv4.get m ip j) ∧
        (f.drop 20).take (4 * bitsAt ip 4 4 - 20) = (ip.drop 20).take (4 * bitsAt ip 4 4 - 20)) := by
  by_cases h20 : 20 ≤ ip.length
  · obtain ⟨x, hx⟩ := Option.isSome_iff_exists.mp (new4 h20)
    have r1 : ipv4.get m ip 1 = .ok (.num (bitsAt ip 4 4)) := get4 m h20 (k := 1) rfl
    have r6 : ipv4.get m ip 6 = .ok (.num (bitsAt ip 48 3)) := get4 m h20 (k := 6) rfl
    have r7 : ipv4.get m ip 7 = .ok (.num (bitsAt ip 51 13)) := get4 m h20 (k := 7) rfl
    have r10 : ipv4.get m ip 10 = .ok (.num (bitsAt ip 80 16)) := get4 m h20 (k := 10) rfl
    have hholds : Holds (ipv4.get m ip 10) (ipv4HeaderChecksum m ip) ↔ bitsAt ip 80 16 = sum4 ip := by
      rw [r10, sum4_eq m h20]
      constructor
      · rintro ⟨c, h1, h2⟩
        rw [Val.num.inj (Except.ok.inj h1), ← Except.ok.inj h2]
      · intro h
        exact ⟨sum4 ip, by rw [h], rfl⟩
    have hp := C09_ipv4 m ip h20
    constructor
    · intro hn
      unfold fragment4
      by_cases hc : bitsAt ip 80 16 = sum4 ip
      · have hbad : bitsAt ip 4 4 < 5 ∨ ip.length < 4 * bitsAt ip 4 4 ∨ bitsAt ip 48 3 ≠ 0 ∨ bitsAt ip 51 13 ≠ 0 := by
          apply Classical.byContradiction
          intro hno
          exact hn ⟨h20, hholds.mpr hc, by omega, by omega, by omega, by omega⟩
        simp only [hx, r10, r1, r6, r7, sum4_eq m h20, ok_bind, Val.asNum, hc, ne_eq, not_true_eq_false, if_false]
        simp only [ne_eq] at hbad
        rw [if_pos hbad]
        rfl
      · simp only [hx, r10, sum4_eq m h20, ok_bind, Val.asNum, ne_eq, hc, not_false_eq_true, if_true]
        rfl
    · rintro ⟨-, hc, h5, hle, hfl, hoff⟩
      have hc := hholds.mp hc
      rw [Nat.max_eq_right (by omega)] at hp
      generalize hdata : (ip.drop (4 * bitsAt ip 4 4)).take (bitsAt ip 16 16 - 4 * bitsAt ip 4 4) = data at hp
      have hdl : 4 * bitsAt ip 4 4 + data.length ≤ 65535 := by
        have h1 := bitsAt_lt ip 16 16
        have h2 := bitsAt_lt ip 4 4
        rw [← hdata, List.length_take]
        omega
      have hs : slice ip 0 (4 * bitsAt ip 4 4) = .ok (ip.take (4 * bitsAt ip 4 4)) := by
        simp only [slice, Nat.zero_le, hle, and_self, if_true, List.drop_zero]
      have hhl : (ip.take (4 * bitsAt ip 4 4)).length = 4 * bitsAt ip 4 4 := by rw [List.length_take]; omega
      have ht20 : (ip.take (4 * bitsAt ip 4 4)).take 20 = ip.take 20 := by rw [List.take_take, Nat.min_eq_left (by omega)]
      obtain ⟨fs, g1, g2, g3⟩ := fragmentsFrom_ok m (w := w) hhl h5 (bitsAt_take ht20 (by omega)) hdl
        (fragmentCount w data.length) 0 (fun i hi => count_le hw hi)
      refine ⟨data, fs, hp, ?_, g2, ?_⟩
      · unfold fragment4
        simp only [hx, r10, r1, r6, r7, sum4_eq m h20, ok_bind, Val.asNum, hc, ne_eq, not_true_eq_false, if_false, hfl, hoff, or_false]
        rw [if_neg (by omega)]
        simp only [hs, hp, ok_bind, g1]
        rfl
      · intro i f hf
        obtain ⟨e1, e2, e3, e4, e5⟩ := g3 i f hf
        rw [Nat.zero_add] at e1 e2
        rw [← Nat.mul_assoc] at e1
        refine ⟨by rw [g2]; exact e1, by omega, e4, ?_, ?_⟩
        · intro j hj
          rw [e3 j hj]
          exact kept_read m (by omega) h20 ht20 j hj
        · rw [e5, List.drop_take]
  · have hx : ipv4.newPacket ip = none := by
      unfold Decl.newPacket
      rw [if_neg (by rw [show ipv4.minSize = 20 by decide]; omega)]
    exact ⟨fun _ => by simp only [fragment4, hx], fun h => absurd h.1 h20⟩

/-- **C141.** Fragments of one packet put together, whatever their order, with any of them missing or repeated: either nothing
or the payload of the packet. It is the payload if all of them are there. -/
theorem C141_assemble (m : Mode) (w : Nat) (hw : 0 < w) (ip : Buf) (fs got : List Buf)
    (h : fragment4 m w ip = .ok (some fs)) (hgot : ∀ f ∈ got, f ∈ fs) :
    ∃ data, ipv4.payload m ip = .ok data ∧
      (assemble m got = .ok none ∨ assemble m got = .ok (some data)) ∧
      ((∀ f ∈ fs, f ∈ got) → assemble m got = .ok (some data)) := by
  obtain ⟨h1, h2⟩ := C141_fragment m w hw ip
  by_cases hc : Cuttable m ip
  · obtain ⟨data, fs', hp, h3, h4, h5⟩ := h2 hc
    rw [h] at h3
    have h3 : fs = fs' := Option.some.inj (Except.ok.inj h3)
    subst h3
    have hge := count_ge (len := data.length) hw
    rw [← h4] at hge
    have hpos : 0 < fs.length := by rw [h4]; unfold fragmentCount; omega
    have hlen : ∀ i, ((data.drop (8 * w * i)).take (8 * w)).length = min (8 * w) (data.length - 8 * w * i) := fun i => by
      rw [List.length_take, List.length_drop]
    have hpiece : ∀ i f, fs[i]? = some f →
        PieceOf data ⟨8 * w * i, decide (i + 1 ≠ fs.length), (data.drop (8 * w * i)).take (8 * w)⟩ := by
      intro i f hf
      have hi := (List.getElem?_eq_some_iff.mp hf).1
      have hile := count_le (len := data.length) hw (by rw [← h4]; exact hi)
      rw [Nat.zero_add, ← Nat.mul_assoc] at hile
      refine ⟨?_, ?_, ?_⟩
      · simp only [hlen]; omega
      · intro j hj
        simp only [hlen] at hj
        simp only
        rw [List.getElem?_take, if_pos (by omega), List.getElem?_drop]
      · intro hm
        simp only [ne_eq, decide_not, Bool.not_eq_false', decide_eq_true_eq] at hm
        rw [← hm, Nat.mul_succ] at hge
        simp only [hlen]
        omega
    have hread : ∀ f ∈ got, ∃ p, readPiece m f = .ok (some p) ∧ PieceOf data p := by
      intro f hf
      obtain ⟨i, hi⟩ := List.getElem?_of_mem (hgot f hf)
      exact ⟨_, (h5 i f hi).1, hpiece i f hi⟩
    obtain ⟨a1, a2⟩ := assemble_ok m got hread
    refine ⟨data, hp, a1, fun hall => a2 ?_ ?_⟩
    · have hl : fs[fs.length - 1]? = some fs[fs.length - 1] := List.getElem?_eq_getElem _
      refine ⟨_, hall _ (List.mem_of_getElem? hl), _, (h5 _ _ hl).1, ?_⟩
      simp only [ne_eq, decide_not, Bool.not_eq_false', decide_eq_true_eq]
      omega
    · intro i hi
      have h8 : 0 < 8 * w := by omega
      have hq : i / (8 * w) < fs.length := by
        rw [Nat.div_lt_iff_lt_mul h8, Nat.mul_comm]
        omega
      have hl : fs[i / (8 * w)]? = some fs[i / (8 * w)] := List.getElem?_eq_getElem _
      refine ⟨_, hall _ (List.mem_of_getElem? hl), _, (h5 _ _ hl).1, ?_⟩
      have m1 := Nat.mul_div_le i (8 * w)
      have m2 := Nat.lt_mul_div_succ i h8
      rw [Nat.mul_succ] at m2
      simp only [hlen]
      omega
  · rw [h1 hc] at h
    cases h

/-- A packet with options and twenty bytes of data, and a byte behind it. -/
def longPacket : Buf := [70, 0, 0, 44, 0, 9, 0, 0, 64, 17, 99, 181, 10, 0, 0, 1, 10, 0, 0, 2, 1, 1, 1, 0, 1, 2, 3, 4, 5, 6, 7, 8, 9, 10, 11, 12, 13, 14, 15, 16, 17, 18, 19, 20, 99]

/-- Its fragments with eight bytes of data. -/
def longFragments : List Buf := [
  [70, 0, 0, 32, 0, 9, 32, 0, 64, 17, 67, 193, 10, 0, 0, 1, 10, 0, 0, 2, 1, 1, 1, 0, 1, 2, 3, 4, 5, 6, 7, 8],
  [70, 0, 0, 32, 0, 9, 32, 1, 64, 17, 67, 192, 10, 0, 0, 1, 10, 0, 0, 2, 1, 1, 1, 0, 9, 10, 11, 12, 13, 14, 15, 16],
  [70, 0, 0, 28, 0, 9, 0, 2, 64, 17, 99, 195, 10, 0, 0, 1, 10, 0, 0, 2, 1, 1, 1, 0, 17, 18, 19, 20]]

theorem longPacket_fragments : fragment4 .debug 1 longPacket = .ok (some longFragments) := by decide +kernel

theorem longPacket_cuttable : Cuttable .debug longPacket :=
  ⟨by decide, ⟨_, by decide +kernel, (by decide +kernel : ipv4HeaderChecksum .debug longPacket = .ok 25525)⟩, by decide +kernel,
    by decide +kernel, by decide +kernel, by decide +kernel⟩

example := (C141_fragment .debug 1 (by decide) longPacket).2 longPacket_cuttable

example := (C141_fragment .debug 1 (by decide) [69]).1 (by unfold Cuttable; simp)

/-- The last one first, one repeated. -/
example := C141_assemble .debug 1 (by decide) longPacket longFragments
  [longFragments[2], longFragments[0], longFragments[2], longFragments[1]] longPacket_fragments (by decide)

example : assemble .debug [longFragments[2], longFragments[0], longFragments[2], longFragments[1]] =
    .ok (some [1, 2, 3, 4, 5, 6, 7, 8, 9, 10, 11, 12, 13, 14, 15, 16, 17, 18, 19, 20]) := by decide +kernel

/-- One is missing. -/
example : assemble .debug [longFragments[2], longFragments[0]] = .ok none := by decide +kernel

end Verif.Props
