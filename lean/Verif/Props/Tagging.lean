import Verif.Spec.Tagging
import Verif.Props.ArpAnswer
import Verif.Props.Stack

/-!
# C140: VLAN tags

The program is in `Spec/Tagging`.
-/

set_option autoImplicit false

namespace Verif.Props
open Verif Verif.Spec

theorem toBits_bitsAt {b : Buf} {s n : Nat} (h : s + n ≤ 8 * b.length) :
    toBits n (bitsAt b s n) = bitSlice (bitsOf b) s n := by
  have hl : (bitSlice (bitsOf b) s n).length = n := by
    rw [bitSlice, List.length_take, List.length_drop, bitsOf_length]; omega
  have := toBits_ofBits (bitSlice (bitsOf b) s n)
  rw [hl] at this
  exact this

theorem slice_join (l r : List Bool) (s a b : Nat) :
    bitSlice l s a ++ (bitSlice l (s + a) b ++ r) = bitSlice l s (a + b) ++ r := by
  unfold bitSlice
  rw [← List.append_assoc, List.take_add, List.drop_drop]

theorem slice_tail (b : Buf) (s : Nat) : bitSlice (bitsOf b) 0 (8 * s) = bitsOf (b.take s) := by
  rw [bitsOf_take]; rfl

theorem bitsAt_drop (b : Buf) (a s n : Nat) : bitsAt (b.drop a) s n = bitsAt b (8 * a + s) n := by
  unfold bitsAt bitSlice
  rw [bitsOf_drop, List.drop_drop]

/-- `populate` on zeroes of the right size. -/
theorem populate_bytes {m : Mode} {d : Decl} (hreg : regular d = true) (hl : ∀ f ∈ d.fields, ∀ c, f.ty ≠ .vecPkt c)
    {vs : List Val} (ht : typedFields noInner 0 d.fields vs) (hlen : lensAgree m noInner 0 [] d.fields vs) {b : Buf}
    (hsl : SliceLen b.length) (he : encFields noInner 0 d.fields vs = bitsOf b) :
    d.populate m (List.replicate b.length 0) (.list vs) = .ok b := by
  obtain ⟨new, h1, h2, h3⟩ := populate_enc hreg (lawful_none hl) ht hlen (List.replicate b.length 0)
    (by simpa using hsl) (by rw [he, bitsOf_length]; simp)
  rw [h1]
  congr 1
  apply bitsOf_inj
  rw [h3, he, List.drop_eq_nil_of_le, List.append_nil]
  simp

theorem populate_ethernet (m : Mode) {a b ty : List Nat} {rest out : Buf} (ha : a.length = 6) (hb : b.length = 6)
    (hty : ty.length = 1) (hsl : SliceLen out.length)
    (he : bitsOf out = a.flatMap (toBits 8) ++ (b.flatMap (toBits 8) ++ (ty.flatMap (toBits 16) ++ bitsOf rest))) :
    ethernet.populate m (List.replicate (14 + rest.length) 0) (.list [.nums a, .nums b, .nums ty, Spec.bytesVal rest]) = .ok out := by
  have hl : out.length = 14 + rest.length := by
    have := congrArg List.length he
    simp only [bitsOf_length, List.length_append, flatMap_toBits_length, ha, hb, hty] at this
    omega
  rw [← hl]
  match a, b, ty with
  | [a0, a1, a2, a3, a4, a5], [b0, b1, b2, b3, b4, b5], [t] =>
    apply populate_bytes (by decide) (by unfold ethernet; simp [fmisc, fpayloadRest])
      (by simp [ethernet, fmisc, fpayloadRest, typedFields, typed, Spec.bytesVal])
      (by simp [ethernet, fmisc, fpayloadRest, lensAgree]) hsl
    rw [he]
    simp [ethernet, fmisc, fpayloadRest, encFields, encField, Spec.bytesVal, bytes_flatMap]

theorem populate_vlan (m : Mode) {pcp dei vid : Nat} {ty : List Nat} {rest out : Buf}
    (hty : ty.length = 1) (hsl : SliceLen out.length)
    (he : bitsOf out = toBits 3 pcp ++ (toBits 1 dei ++ (toBits 12 vid ++ (ty.flatMap (toBits 16) ++ bitsOf rest)))) :
    vlan.populate m (List.replicate (4 + rest.length) 0) (.list [.nums [pcp], .num dei, .num vid, .nums ty, Spec.bytesVal rest]) =
      .ok out := by
  have hl : out.length = 4 + rest.length := by
    have := congrArg List.length he
    simp only [bitsOf_length, List.length_append, flatMap_toBits_length, toBits_length, hty] at this
    omega
  rw [← hl]
  match ty with
  | [t] =>
    apply populate_bytes (by decide) (by unfold vlan; simp [fmisc, fprim, fpayloadRest])
      (by simp [vlan, fmisc, fprim, fpayloadRest, typedFields, typed, Spec.bytesVal])
      (by simp [vlan, fmisc, fprim, fpayloadRest, lensAgree]) hsl
    rw [he]
    simp [vlan, fmisc, fprim, fpayloadRest, encFields, encField, Spec.bytesVal, bytes_flatMap]

theorem newVlan {b : Buf} (h : 4 ≤ b.length) : (vlan.newPacket b).isSome = true :=
  (C06_new_iff vlan b).1.mpr (by rw [show fixedBits vlan.fields = 32 by decide]; omega)

theorem tag_bits (t : Tag) : bitsOf t.bytes = toBits 3 t.pcp ++ (toBits 1 t.dei ++ toBits 12 t.vid) := by
  have h1 : bitsOf t.bytes = toBits 16 (t.pcp % 8 * 8192 + t.dei % 2 * 4096 + t.vid % 4096) := by
    unfold Tag.bytes
    generalize t.pcp % 8 * 8192 + t.dei % 2 * 4096 + t.vid % 4096 = n
    have := flatMap_toBits8 [n / 256, n % 256]
    simp only [List.map_cons, List.map_nil] at this
    rw [← this, show (16 : Nat) = 8 + 8 from rfl, toBits_add]
    simp only [List.flatMap_cons, List.flatMap_nil, List.append_nil]
    rw [← toBits_mod 8 n]
  generalize hn : t.pcp % 8 * 8192 + t.dei % 2 * 4096 + t.vid % 4096 = n at h1
  have e1 : n / 2 ^ (1 + 12) % 2 ^ 3 = t.pcp % 2 ^ 3 := by omega
  have e2 : n / 2 ^ 12 % 2 ^ 1 = t.dei % 2 ^ 1 := by omega
  have e3 : n % 2 ^ 12 = t.vid % 2 ^ 12 := by omega
  rw [h1, show (16 : Nat) = 3 + (1 + 12) from rfl, toBits_add, toBits_add, ← toBits_mod 3 t.pcp, ← toBits_mod 1 t.dei,
    ← toBits_mod 12 t.vid, ← e1, ← e2, ← e3, toBits_mod, toBits_mod, toBits_mod]

/-- The twelve numbers of the addresses. -/
theorem addr_bits {frame : Buf} (h : 14 ≤ frame.length) (r : List Bool) :
    (intsAt frame 0 [8, 8, 8, 8, 8, 8]).flatMap (toBits 8) ++ ((intsAt frame 48 [8, 8, 8, 8, 8, 8]).flatMap (toBits 8) ++ r) =
      bitsOf (frame.take 12) ++ r := by
  simp only [intsAt, List.flatMap_cons, List.flatMap_nil, List.append_nil, List.append_assoc, Nat.reduceAdd]
  repeat rw [toBits_bitsAt (by omega)]
  rw [slice_join _ _ 0 8 8, slice_join _ _ 0 16 8, slice_join _ _ 0 24 8, slice_join _ _ 0 32 8, slice_join _ _ 0 40 8,
    slice_join _ _ 0 48 8, slice_join _ _ 0 56 8, slice_join _ _ 0 64 8, slice_join _ _ 0 72 8, slice_join _ _ 0 80 8,
    slice_join _ _ 0 88 8]
  rw [← slice_tail]

theorem tag_value (m : Mode) (t : Tag) {frame : Buf} (h : 14 ≤ frame.length) (hsl : SliceLen (frame.length + 4)) :
    tag m t frame = .ok (some (frame.take 12 ++ [0x81, 0x00] ++ t.bytes ++ frame.drop 12)) := by
  have hsl' : SliceLen frame.length := by unfold SliceLen at *; omega
  obtain ⟨x, hx⟩ := Option.isSome_iff_exists.mp (newEth h)
  have hp := C09_open_payloads ethernet 14 (by simp [openPayloads]) m frame hsl'
  have g0 : ethernet.get m frame 0 = .ok (.nums (intsAt frame 0 [8, 8, 8, 8, 8, 8])) :=
    layoutOk_get (d := ethernet) (L := ethernetLayout) (by decide +kernel) (k := 0) rfl m frame h
  have g1 : ethernet.get m frame 1 = .ok (.nums (intsAt frame 48 [8, 8, 8, 8, 8, 8])) :=
    layoutOk_get (d := ethernet) (L := ethernetLayout) (by decide +kernel) (k := 1) rfl m frame h
  have g2 : ethernet.get m frame 2 = .ok (.nums [bitsAt frame 96 16]) :=
    layoutOk_get (d := ethernet) (L := ethernetLayout) (by decide +kernel) (k := 2) rfl m frame h
  have hlb : t.bytes.length = 2 := rfl
  have hv := populate_vlan m (pcp := t.pcp) (dei := t.dei) (vid := t.vid) (ty := [bitsAt frame 96 16])
    (rest := frame.drop 14) (out := t.bytes ++ frame.drop 12) rfl
    (by unfold SliceLen at *; rw [List.length_append, List.length_drop, hlb]; omega) (by
      rw [bitsOf_append, tag_bits]
      simp only [List.flatMap_cons, List.flatMap_nil, List.append_nil, List.append_assoc]
      rw [toBits_bitsAt (by omega), bitsOf_drop, bitsOf_drop, bitSlice]
      congr 3
      rw [show 8 * 14 = 96 + 16 from rfl, ← List.drop_drop, List.take_append_drop])
  have he := populate_ethernet m (ty := [0x8100]) (rest := t.bytes ++ frame.drop 12)
    (out := frame.take 12 ++ [0x81, 0x00] ++ t.bytes ++ frame.drop 12)
    (a := intsAt frame 0 [8, 8, 8, 8, 8, 8]) (b := intsAt frame 48 [8, 8, 8, 8, 8, 8]) rfl rfl rfl
    (by
      unfold SliceLen at *
      simp only [List.length_append, List.length_take, List.length_drop, List.length_cons, List.length_nil, hlb]
      omega) (by
      rw [addr_bits h, List.append_assoc, List.append_assoc, bitsOf_append, bitsOf_append]
      congr 1)
  unfold tag
  simp only [hx, g0, g1, g2, hp, ok_bind, hv, he]
  rfl

theorem untag_value (m : Mode) {frame : Buf} (h : 18 ≤ frame.length) (hsl : SliceLen frame.length)
    (hty : bitsAt frame 96 16 = 0x8100) :
    untag m frame = .ok (some (⟨bitsAt frame 112 3, bitsAt frame 115 1, bitsAt frame 116 12⟩, frame.take 12 ++ frame.drop 16)) := by
  obtain ⟨x, hx⟩ := Option.isSome_iff_exists.mp (newEth (b := frame) (by omega))
  obtain ⟨y, hy⟩ := Option.isSome_iff_exists.mp (newVlan (b := frame.drop 14) (by rw [List.length_drop]; omega))
  have hm : ethernet.minSize ≤ frame.length := by rw [show ethernet.minSize = 14 by decide]; omega
  have hm' : vlan.minSize ≤ (frame.drop 14).length := by
    rw [show vlan.minSize = 4 by decide, List.length_drop]; omega
  have hp := C09_open_payloads ethernet 14 (by simp [openPayloads]) m frame hsl
  have hp' := C09_open_payloads vlan 4 (by simp [openPayloads]) m (frame.drop 14)
    (by unfold SliceLen at *; rw [List.length_drop]; omega)
  rw [List.drop_drop] at hp'
  have g0 : ethernet.get m frame 0 = .ok (.nums (intsAt frame 0 [8, 8, 8, 8, 8, 8])) :=
    layoutOk_get (d := ethernet) (L := ethernetLayout) (by decide +kernel) (k := 0) rfl m frame hm
  have g1 : ethernet.get m frame 1 = .ok (.nums (intsAt frame 48 [8, 8, 8, 8, 8, 8])) :=
    layoutOk_get (d := ethernet) (L := ethernetLayout) (by decide +kernel) (k := 1) rfl m frame hm
  have g2 : ethernet.get m frame 2 = .ok (.nums [bitsAt frame 96 16]) :=
    layoutOk_get (d := ethernet) (L := ethernetLayout) (by decide +kernel) (k := 2) rfl m frame hm
  have v0 : vlan.get m (frame.drop 14) 0 = .ok (.nums [bitsAt (frame.drop 14) 0 3]) :=
    layoutOk_get (d := vlan) (L := vlanLayout) (by decide +kernel) (k := 0) rfl m _ hm'
  have v1 : vlan.get m (frame.drop 14) 1 = .ok (.num (bitsAt (frame.drop 14) 3 1)) :=
    layoutOk_get (d := vlan) (L := vlanLayout) (by decide +kernel) (k := 1) rfl m _ hm'
  have v2 : vlan.get m (frame.drop 14) 2 = .ok (.num (bitsAt (frame.drop 14) 4 12)) :=
    layoutOk_get (d := vlan) (L := vlanLayout) (by decide +kernel) (k := 2) rfl m _ hm'
  have v3 : vlan.get m (frame.drop 14) 3 = .ok (.nums [bitsAt (frame.drop 14) 16 16]) :=
    layoutOk_get (d := vlan) (L := vlanLayout) (by decide +kernel) (k := 3) rfl m _ hm'
  rw [bitsAt_drop] at v0 v1 v2 v3
  have he := populate_ethernet m (ty := [bitsAt frame (8 * 14 + 16) 16]) (rest := frame.drop (14 + 4))
    (out := frame.take 12 ++ frame.drop 16)
    (a := intsAt frame 0 [8, 8, 8, 8, 8, 8]) (b := intsAt frame 48 [8, 8, 8, 8, 8, 8]) rfl rfl rfl
    (by
      unfold SliceLen at *
      simp only [List.length_append, List.length_take, List.length_drop]
      omega) (by
      rw [addr_bits (by omega), bitsOf_append]
      congr 1
      simp only [List.flatMap_cons, List.flatMap_nil, List.append_nil]
      rw [toBits_bitsAt (by omega), bitsOf_drop, bitsOf_drop, bitSlice,
        show 8 * (14 + 4) = (8 * 14 + 16) + 16 from rfl, ← List.drop_drop (i := 16) (j := 8 * 14 + 16), List.take_append_drop])
  unfold untag
  simp only [hx, g0, g1, g2, hty, ne_eq, not_true_eq_false, if_false, hp, hy, v0, v1, v2, v3, hp', ok_bind, he, Val.asNum, Val.asNums]
  rfl

theorem untag_none (m : Mode) {frame : Buf} (hsl : SliceLen frame.length)
    (h : ¬ (18 ≤ frame.length ∧ bitsAt frame 96 16 = 0x8100)) : untag m frame = .ok none := by
  unfold untag
  by_cases h14 : 14 ≤ frame.length
  · obtain ⟨x, hx⟩ := Option.isSome_iff_exists.mp (newEth (b := frame) h14)
    have hp := C09_open_payloads ethernet 14 (by simp [openPayloads]) m frame hsl
    have g2 : ethernet.get m frame 2 = .ok (.nums [bitsAt frame 96 16]) :=
      layoutOk_get (d := ethernet) (L := ethernetLayout) (by decide +kernel) (k := 2) rfl m frame h14
    by_cases hty : bitsAt frame 96 16 = 0x8100
    · have hy : vlan.newPacket (frame.drop 14) = none := by
        unfold Decl.newPacket
        rw [if_neg (by rw [show vlan.minSize = 4 by decide, List.length_drop]; omega)]
      simp only [hx, g2, hty, ok_bind, ne_eq, not_true_eq_false, if_false, hp, hy]
      rfl
    · simp only [hx, g2, ok_bind, ne_eq, Val.nums.injEq, List.cons.injEq, and_true, hty, not_false_eq_true, if_true]
      rfl
  · have hx : ethernet.newPacket frame = none := by
      unfold Decl.newPacket
      rw [if_neg (by rw [show ethernet.minSize = 14 by decide]; omega)]
    simp only [hx]

/-- **C140.** The tagged frame: the bytes 0x8100 and the tag after the addresses. -/
theorem C140_tag (m : Mode) (t : Tag) (frame : Buf) (hsl : SliceLen (frame.length + 4)) :
    tag m t frame = .ok (if frame.length < 14 then none
      else some (frame.take 12 ++ [0x81, 0x00] ++ t.bytes ++ frame.drop 12)) := by
  split
  · next h =>
    have hx : ethernet.newPacket frame = none := by
      unfold Decl.newPacket
      rw [if_neg (by rw [show ethernet.minSize = 14 by decide]; omega)]
    simp only [tag, hx]
  · exact tag_value m t (by omega) hsl

/-- **C140.** What taking off a tag does to any frame. -/
theorem C140_untag (m : Mode) (frame : Buf) (hsl : SliceLen frame.length) :
    untag m frame = .ok (if 18 ≤ frame.length ∧ bitsAt frame 96 16 = 0x8100 then
      some (⟨bitsAt frame 112 3, bitsAt frame 115 1, bitsAt frame 116 12⟩, frame.take 12 ++ frame.drop 16) else none) := by
  split
  · next h => exact untag_value m h.1 hsl h.2
  · next h => exact untag_none m hsl h

/-- **C140.** Tagging is undone by taking off the tag. -/
theorem C140_tag_untag (m : Mode) (t : Tag) (ht : t.Fits) (frame out : Buf) (hsl : SliceLen (frame.length + 4))
    (h : tag m t frame = .ok (some out)) : untag m out = .ok (some (t, frame)) := by
  rw [C140_tag m t frame hsl] at h
  split at h
  · cases h
  · next h14 =>
    have h : _ = out := Option.some.inj (Except.ok.inj h)
    have htk : (frame.take 12).length = 12 := by rw [List.length_take]; omega
    have hl : out.length = frame.length + 4 := by
      rw [← h]
      simp only [List.length_append, htk, List.length_drop, List.length_cons, List.length_nil, show t.bytes.length = 2 from rfl]
      omega
    have hb : bitsOf out = bitsOf (frame.take 12) ++ (toBits 16 0x8100 ++ (toBits 3 t.pcp ++ (toBits 1 t.dei ++
        (toBits 12 t.vid ++ bitsOf (frame.drop 12))))) := by
      rw [← h]
      simp only [bitsOf_append, List.append_assoc, tag_bits]
      congr 1
    have hat : ∀ (pre mid post : List Bool) s n, bitsOf out = pre ++ mid ++ post → pre.length = s → mid.length = n →
        bitsAt out s n = ofBits mid := fun pre mid post s n h1 h2 h3 => by rw [bitsAt, bitSlice_of_append h1 h2 h3]
    have b0 := hat (bitsOf (frame.take 12)) (toBits 16 0x8100) _ 96 16 (by rw [hb, List.append_assoc])
      (by rw [bitsOf_length, htk]) (toBits_length _ _)
    have b1 := hat (bitsOf (frame.take 12) ++ toBits 16 0x8100) (toBits 3 t.pcp) _ 112 3
      (by rw [hb]; simp only [List.append_assoc]; rfl)
      (by rw [List.length_append, bitsOf_length, htk, toBits_length]) (toBits_length _ _)
    have b2 := hat (bitsOf (frame.take 12) ++ toBits 16 0x8100 ++ toBits 3 t.pcp) (toBits 1 t.dei) _ 115 1
      (by rw [hb]; simp only [List.append_assoc]; rfl)
      (by rw [List.length_append, List.length_append, bitsOf_length, htk, toBits_length, toBits_length]) (toBits_length _ _)
    have b3 := hat (bitsOf (frame.take 12) ++ toBits 16 0x8100 ++ toBits 3 t.pcp ++ toBits 1 t.dei) (toBits 12 t.vid) _ 116 12
      (by rw [hb]; simp only [List.append_assoc]; rfl)
      (by rw [List.length_append, List.length_append, List.length_append, bitsOf_length, htk, toBits_length, toBits_length,
        toBits_length]) (toBits_length _ _)
    rw [ofBits_toBits] at b0 b1 b2 b3
    obtain ⟨f1, f2, f3⟩ := ht
    rw [Nat.mod_eq_of_lt (by omega)] at b0 b1 b2 b3
    rw [C140_untag m out (by rw [hl]; exact hsl), if_pos ⟨by omega, b0⟩, b1, b2, b3]
    congr 3
    rw [← h, List.append_assoc, List.append_assoc, List.take_left' htk, ← List.append_assoc, ← List.append_assoc,
      List.drop_left' (by simp only [List.length_append, htk, List.length_cons, List.length_nil, show t.bytes.length = 2 from rfl]),
      List.take_append_drop]

/-- **C140.** A tag taken off can be put back. -/
theorem C140_untag_tag (m : Mode) (t : Tag) (frame rest : Buf) (hsl : SliceLen frame.length)
    (h : untag m frame = .ok (some (t, rest))) : tag m t rest = .ok (some frame) := by
  rw [C140_untag m frame hsl] at h
  split at h
  · next hc =>
    obtain ⟨h18, hty⟩ := hc
    have h := Option.some.inj (Except.ok.inj h)
    have ht : _ = t := congrArg Prod.fst h
    have hr : frame.take 12 ++ frame.drop 16 = rest := congrArg Prod.snd h
    have htk : (frame.take 12).length = 12 := by rw [List.length_take]; omega
    have hl : rest.length = frame.length - 4 := by
      rw [← hr, List.length_append, htk, List.length_drop]; omega
    rw [C140_tag m t rest (by unfold SliceLen at *; omega), if_neg (by omega)]
    congr 2
    rw [← hr, List.take_left' htk, List.drop_left' htk]
    apply bitsOf_inj
    simp only [bitsOf_append, List.append_assoc, tag_bits]
    rw [show bitsOf [0x81, 0x00] = toBits 16 0x8100 by decide, ← hty, ← ht]
    dsimp only
    rw [toBits_bitsAt (by omega), toBits_bitsAt (by omega), toBits_bitsAt (by omega), toBits_bitsAt (by omega),
      ← slice_tail, slice_join _ _ 0 (8 * 12) 16, slice_join _ _ 0 112 3, slice_join _ _ 0 115 1, slice_join _ _ 0 116 12,
      bitsOf_drop]
    exact List.take_append_drop 128 (bitsOf frame)
  · cases h

/-- **C140.** Any number of tags: they come off in the opposite order, and the frame is as it was. -/
theorem C140_stack (m : Mode) (ts : List Tag) (hts : ∀ t ∈ ts, t.Fits) (frame : Buf) (h : 14 ≤ frame.length)
    (hsl : SliceLen (frame.length + 4 * ts.length)) :
    ∃ out, tagAll m ts frame = .ok (some out) ∧ out.length = frame.length + 4 * ts.length ∧
      out.take 12 = frame.take 12 ∧ untagAll m ts.length out = .ok (some (ts, frame)) := by
  induction ts with
  | nil => exact ⟨frame, rfl, by simp, rfl, rfl⟩
  | cons t ts ih =>
    simp only [List.length_cons] at hsl
    obtain ⟨f, h1, h2, h3, h4⟩ := ih (fun t ht => hts t (List.mem_cons_of_mem _ ht)) (by unfold SliceLen at *; omega)
    have hf : SliceLen (f.length + 4) := by unfold SliceLen at *; omega
    have htag := C140_tag m t f hf
    rw [if_neg (by omega)] at htag
    have hun := C140_tag_untag m t (hts t (List.mem_cons_self ..)) f _ hf htag
    have htk : (f.take 12).length = 12 := by rw [List.length_take]; omega
    refine ⟨f.take 12 ++ [0x81, 0x00] ++ t.bytes ++ f.drop 12, ?_, ?_, ?_, ?_⟩
    · rw [tagAll, h1]
      exact htag
    · simp only [List.length_append, htk, List.length_drop, List.length_cons, List.length_nil, show t.bytes.length = 2 from rfl]
      omega
    · rw [List.append_assoc, List.append_assoc, List.take_left' htk, h3]
    · simp only [List.length_cons, untagAll, hun, ok_bind, h4]
      rfl

/-- A frame of type 0x0800. -/
def plainFrame : Buf := [2, 0, 0, 0, 0, 1, 2, 0, 0, 0, 0, 2, 8, 0, 69, 1, 2]

example := C140_tag .debug ⟨5, 1, 291⟩ plainFrame (by unfold SliceLen; decide)

/-- The bytes on the wire. -/
theorem plainFrame_tagged : tag .debug ⟨5, 1, 291⟩ plainFrame =
    .ok (some [2, 0, 0, 0, 0, 1, 2, 0, 0, 0, 0, 2, 0x81, 0, 0xB1, 0x23, 8, 0, 69, 1, 2]) := by decide +kernel

example := C140_tag_untag .debug ⟨5, 1, 291⟩ (by unfold Tag.Fits; decide) plainFrame _ (by unfold SliceLen; decide) plainFrame_tagged

example := C140_untag .debug [2, 0, 0, 0, 0, 1, 2, 0, 0, 0, 0, 2, 0x81, 0, 0xB1, 0x23, 8, 0, 69, 1, 2] (by unfold SliceLen; decide)

example := C140_untag_tag .debug ⟨5, 1, 291⟩ [2, 0, 0, 0, 0, 1, 2, 0, 0, 0, 0, 2, 0x81, 0, 0xB1, 0x23, 8, 0, 69, 1, 2] plainFrame
  (by unfold SliceLen; decide)
  (C140_tag_untag .debug ⟨5, 1, 291⟩ (by unfold Tag.Fits; decide) plainFrame _ (by unfold SliceLen; decide) plainFrame_tagged)

example := C140_stack .debug [⟨5, 1, 291⟩, ⟨0, 0, 7⟩] (by unfold Tag.Fits; decide) plainFrame (by decide) (by unfold SliceLen; decide)

end Verif.Props
