import Verif.Spec.Tunnel
import Verif.Props.Headers
import Verif.Props.Tagging

/-!
# C143: GRE tunnels

The programs are in `Spec/Tunnel`.
-/

set_option autoImplicit false

namespace Verif.Props
open Verif Verif.Spec

theorem leaveGre_value (m : Mode) (buf : Buf) (h : 4 ≤ buf.length) (hr : bitsAt buf 1 1 = 0) :
    gre.packetSize m buf = .ok (4 + 4 * bitsAt buf 0 1 + 4 * bitsAt buf 2 1 + 4 * bitsAt buf 3 1) := by
  obtain ⟨-, -, -, -, -, -, l15, -⟩ := gre_lens m buf h hr
  have c2 := bitsAt_lt buf 0 1
  have k2 := bitsAt_lt buf 2 1
  have s2 := bitsAt_lt buf 3 1
  have hsum : gre.bits / 8 + [2 * bitsAt buf 0 1, 2 * bitsAt buf 0 1, 4 * bitsAt buf 2 1, 4 * bitsAt buf 3 1, 0].sum =
      4 + 4 * bitsAt buf 0 1 + 4 * bitsAt buf 2 1 + 4 * bitsAt buf 3 1 := by
    simp only [show gre.bits = 32 from rfl, List.sum_cons, List.sum_nil]; omega
  have := packetSize_eq (d := gre) (m := m) (buf := buf) l15 (by rw [hsum]; omega)
  rw [this, hsum]

theorem unitOf_greUnit (p v : Nat) : unitOf (greUnit p v) = if p = 1 then some v else none := by
  unfold greUnit
  split <;> rfl

/-- **C143** What the end of a tunnel makes of any bytes: exactly those with four bytes, no routing and the bytes that the
flags announce are taken, each number read from its place in RFC 2890 and the rest handed on. It never panics. -/
theorem C143_leave (m : Mode) (buf : Buf) (hsl : SliceLen buf.length) (c k s : Nat) (hc : bitsAt buf 0 1 = c)
    (hk : bitsAt buf 2 1 = k) (hs : bitsAt buf 3 1 = s) :
    (4 + 4 * c + 4 * k + 4 * s ≤ buf.length ∧ bitsAt buf 1 1 = 0 →
      leaveGre m buf = .ok (some (⟨if c = 1 then some (bitsAt buf 32 16, bitsAt buf 48 16) else none,
        if k = 1 then some (bitsAt buf (32 + 32 * c) 32) else none,
        if s = 1 then some (bitsAt buf (32 + 32 * c + 32 * k) 32) else none, bitsAt buf 16 16⟩,
        buf.drop (4 + 4 * c + 4 * k + 4 * s)))) ∧
    (¬ (4 + 4 * c + 4 * k + 4 * s ≤ buf.length ∧ bitsAt buf 1 1 = 0) → leaveGre m buf = .ok none) := by
  by_cases h4 : 4 ≤ buf.length
  · obtain ⟨x, hx⟩ := Option.isSome_iff_exists.mp ((C06_new_iff gre buf).1.mpr
      (by rw [show fixedBits gre.fields = 32 by decide]; omega))
    have g1 : gre.get m buf 1 = .ok (.num (bitsAt buf 1 1)) := layoutOk_get gre_layout (k := 1) rfl m buf h4
    have g8 : gre.get m buf 8 = .ok (.num (bitsAt buf 16 16)) := layoutOk_get gre_layout (k := 8) rfl m buf h4
    by_cases hr : bitsAt buf 1 1 = 0
    · have hp := leaveGre_value m buf h4 hr
      rw [hc, hk, hs] at hp
      constructor
      · rintro ⟨hl, -⟩
        obtain ⟨g9, g10, g11, g12, -, -, gp, -⟩ := C37_gre_positions m buf hsl c k s hc hr hk hs hl
        simp only [leaveGre, hx, g1, g8, ok_bind, Val.asNum, hr, hp, g9, g10, g11, g12, gp, unitOf_greUnit, ne_eq,
          not_true_eq_false, if_false, show ¬ buf.length < 4 + 4 * c + 4 * k + 4 * s by omega]
        by_cases c1 : c = 1
        · simp only [c1, if_true]; rfl
        · simp only [c1, if_false]; rfl
      · intro hn
        simp only [leaveGre, hx, g1, ok_bind, Val.asNum, hr, hp, ne_eq, not_true_eq_false, if_false,
          show buf.length < 4 + 4 * c + 4 * k + 4 * s from Nat.lt_of_not_le fun hl => hn ⟨hl, hr⟩, if_true]
        rfl
    · refine ⟨fun hn => absurd hn.2 hr, fun _ => ?_⟩
      simp only [leaveGre, hx, g1, ok_bind, Val.asNum, hr, ne_eq, not_false_eq_true, if_true]
      rfl
  · refine ⟨fun hn => by omega, fun _ => ?_⟩
    have hn : gre.newPacket buf = none := by
      unfold Decl.newPacket
      rw [if_neg (by rw [show gre.minSize = 4 by decide]; omega)]
    simp only [leaveGre, hn]

/-- The wire formats of the vectors. -/
def greElems (m : Mode) : Nat → Wire := fun i => if i < 11 then declWire m noInner u16BE else declWire m noInner u32BE

theorem gre_lawful (m : Mode) : LawfulElems m (greElems m) gre := by
  have l16 : Lawful m u16BE.codec (declWire m noInner u16BE) := lawful_codec (by decide) (by decide) (by decide) (by decide)
    (lawful_none (by unfold u16BE; simp [fprim, fpayload]))
  have l32 : Lawful m u32BE.codec (declWire m noInner u32BE) := lawful_codec (by decide) (by decide) (by decide) (by decide)
    (lawful_none (by unfold u32BE; simp [fprim, fpayload]))
  intro i f c hf hc
  match i, hf with
  | 0, hf | 1, hf | 2, hf | 3, hf | 4, hf | 5, hf | 6, hf | 7, hf | 8, hf | 13, hf | 14, hf => cases hf; cases hc
  | 9, hf | 10, hf => cases hf; cases hc; exact l16
  | 11, hf | 12, hf => cases hf; cases hc; exact l32
  | n + 15, hf => cases hf

/-- The struct given to `populate`. -/
def greVals (h : GreHead) (inner : Buf) : List Val := [.num h.sum.isSome.toNat, .num 0, .num h.key.isSome.toNat,
    .num h.seq.isSome.toNat, .num 0, .num 0, .num 0, .num 0, .num h.proto, unitVal (h.sum.map (·.1)),
    unitVal (h.sum.map (·.2)), unitVal h.key, unitVal h.seq, .nums [], Spec.bytesVal inner]

theorem unit16_valid (m : Mode) (n : Nat) : (declWire m noInner u16BE).valid (.list [.num n, .nums []]) := by
  simp [declWire, typedFields, typed, lensAgree, u16BE, fprim, fpayload, encField, lenConst]

theorem unit32_valid (m : Mode) (n : Nat) : (declWire m noInner u32BE).valid (.list [.num n, .nums []]) := by
  simp [declWire, typedFields, typed, lensAgree, u32BE, fprim, fpayload, encField, lenConst]

theorem unit16_enc (m : Mode) (n : Nat) : ((declWire m noInner u16BE).enc (.list [.num n, .nums []])).length = 2 := by
  simp [declWire, packBits_length, encFields, encField, u16BE, fprim, fpayload]

theorem unit32_enc (m : Mode) (n : Nat) : ((declWire m noInner u32BE).enc (.list [.num n, .nums []])).length = 4 := by
  simp [declWire, packBits_length, encFields, encField, u32BE, fprim, fpayload]

theorem unit16_norm (m : Mode) (n : Nat) (h : n < 65536) :
    (declWire m noInner u16BE).norm (.list [.num n, .nums []]) = .list [.num n, .nums []] := by
  simp [declWire, normFields, normField, u16BE, fprim, fpayload, Nat.mod_eq_of_lt h]

theorem unit32_norm (m : Mode) (n : Nat) (h : n < 2 ^ 32) :
    (declWire m noInner u32BE).norm (.list [.num n, .nums []]) = .list [.num n, .nums []] := by
  have : n % 4294967296 = n := Nat.mod_eq_of_lt h
  simp [declWire, normFields, normField, u32BE, fprim, fpayload, this]

theorem gre_typed (m : Mode) (h : GreHead) (inner : Buf) : typedFields (greElems m) 0 gre.fields (greVals h inner) := by
  obtain ⟨sum, key, seq, proto⟩ := h
  cases sum <;> cases key <;> cases seq <;>
    simp [greVals, gre, fprim, fbytes, fpayloadRest, typedFields, typed, unitVal, Spec.bytesVal, greElems, unit16_valid,
      unit32_valid]

theorem gre_agree (m : Mode) (h : GreHead) (inner : Buf) : lensAgree m (greElems m) 0 [] gre.fields (greVals h inner) := by
  obtain ⟨sum, key, seq, proto⟩ := h
  cases sum <;> cases key <;> cases seq <;>
    simp [greVals, gre, fprim, fbytes, fpayloadRest, lensAgree, unitVal, Spec.bytesVal, greElems, encField, normField, env,
      bitsOf_length, unit16_enc, unit32_enc, greOptLen, lenNum, Val.asNum]

theorem gre_enc_length (m : Mode) (h : GreHead) (inner : Buf) :
    (encFields (greElems m) 0 gre.fields (greVals h inner)).length = 8 * (h.size + inner.length) := by
  obtain ⟨sum, key, seq, proto⟩ := h
  cases sum <;> cases key <;> cases seq <;>
    simp [greVals, gre, fprim, fbytes, fpayloadRest, unitVal, Spec.bytesVal, greElems, encFields, encField,
      bitsOf_length, unit16_enc, unit32_enc, GreHead.size, bytes_flatMap] <;> omega

theorem bytesVal_inj {a b : Buf} (h : a.map (·.toNat) = b.map (·.toNat)) : a = b :=
  List.map_inj_right (fun _ _ => UInt8.toNat_inj.mp) |>.mp h

/-- **C143** What goes into a tunnel comes out of it, with the numbers of the header. -/
theorem C143_enter_leave (m : Mode) (h : GreHead) (hf : h.Fits) (inner : Buf) (hsl : SliceLen (h.size + inner.length)) :
    ∃ out, enterGre m h inner = .ok out ∧ out.length = h.size + inner.length ∧
      leaveGre m out = .ok (some (h, inner)) := by
  have hlen := gre_enc_length m h inner
  obtain ⟨out, p1, p2, p3⟩ := populate_enc (d := gre) (by decide) (gre_lawful m) (gre_typed m h inner) (gre_agree m h inner)
    (List.replicate (h.size + inner.length) 0) (by simpa using hsl) (by rw [hlen]; simp)
  rw [List.length_replicate] at p2
  rw [List.drop_eq_nil_of_le (by rw [bitsOf_length, hlen]; simp)] at p3
  have hosl : SliceLen out.length := by rw [p2]; exact hsl
  have hget : ∀ {k : Nat} {f : Field} {v : Val}, gre.fields[k]? = some f → (greVals h inner)[k]? = some v →
      gre.get m out k = .ok (normField (greElems m k) f.ty v) := fun {k f v} h1 h2 =>
    get_enc hosl (by decide) (gre_lawful m) (gre_typed m h inner) (lensAgree_on [] (gre_agree m h inner)) p3 (.inr rfl) h1 h2
  have h4 : 4 ≤ out.length := by rw [p2]; unfold GreHead.size; omega
  obtain ⟨x, hx⟩ := Option.isSome_iff_exists.mp ((C06_new_iff gre out).1.mpr
    (by rw [show fixedBits gre.fields = 32 by decide]; omega))
  have hbit : ∀ b : Bool, b.toNat % 2 = b.toNat := by decide
  have b0 : bitsAt out 0 1 = h.sum.isSome.toNat := by
    have g : gre.get m out 0 = .ok (.num (bitsAt out 0 1)) := layoutOk_get gre_layout (k := 0) rfl m out h4
    exact (Val.num.inj (Except.ok.inj (g.symm.trans (hget (k := 0) rfl rfl)))).trans (hbit _)
  have b1 : bitsAt out 1 1 = 0 := by
    have g : gre.get m out 1 = .ok (.num (bitsAt out 1 1)) := layoutOk_get gre_layout (k := 1) rfl m out h4
    exact Val.num.inj (Except.ok.inj (g.symm.trans (hget (k := 1) rfl rfl)))
  have b2 : bitsAt out 2 1 = h.key.isSome.toNat := by
    have g : gre.get m out 2 = .ok (.num (bitsAt out 2 1)) := layoutOk_get gre_layout (k := 2) rfl m out h4
    exact (Val.num.inj (Except.ok.inj (g.symm.trans (hget (k := 2) rfl rfl)))).trans (hbit _)
  have b3 : bitsAt out 3 1 = h.seq.isSome.toNat := by
    have g : gre.get m out 3 = .ok (.num (bitsAt out 3 1)) := layoutOk_get gre_layout (k := 3) rfl m out h4
    exact (Val.num.inj (Except.ok.inj (g.symm.trans (hget (k := 3) rfl rfl)))).trans (hbit _)
  have g1 : gre.get m out 1 = .ok (.num 0) := hget (k := 1) rfl rfl
  have g8 : gre.get m out 8 = .ok (.num (h.proto % 65536)) := hget (k := 8) rfl rfl
  rw [Nat.mod_eq_of_lt hf.2.2.2] at g8
  have hn : ∀ {k : Nat} {o : Option Nat}, (∀ n, o = some n → (greElems m k).norm (.list [.num n, .nums []]) = .list [.num n, .nums []]) →
      ∀ c, normField (greElems m k) (.vecPkt c) (unitVal o) = unitVal o := by
    intro k o ho c
    cases o with
    | none => rfl
    | some n => simp only [unitVal, normField, Option.toList, List.map_cons, List.map_nil, ho n rfl]
  have g9 : gre.get m out 9 = .ok (unitVal (h.sum.map (·.1))) := by
    rw [hget (k := 9) rfl rfl]
    exact congrArg _ (hn (k := 9) (fun n hn => by
      obtain ⟨p, hp, rfl⟩ := Option.map_eq_some_iff.mp hn
      exact unit16_norm m _ (hf.1 p hp).1) _)
  have g10 : gre.get m out 10 = .ok (unitVal (h.sum.map (·.2))) := by
    rw [hget (k := 10) rfl rfl]
    exact congrArg _ (hn (k := 10) (fun n hn => by
      obtain ⟨p, hp, rfl⟩ := Option.map_eq_some_iff.mp hn
      exact unit16_norm m _ (hf.1 p hp).2) _)
  have g11 : gre.get m out 11 = .ok (unitVal h.key) := by
    rw [hget (k := 11) rfl rfl]
    exact congrArg _ (hn (k := 11) (fun n hn => unit32_norm m _ (hf.2.1 n hn)) _)
  have g12 : gre.get m out 12 = .ok (unitVal h.seq) := by
    rw [hget (k := 12) rfl rfl]
    exact congrArg _ (hn (k := 12) (fun n hn => unit32_norm m _ (hf.2.2.1 n hn)) _)
  obtain ⟨-, -, -, -, -, c14, cp, cs, -⟩ := C37_gre_positions m out hosl _ _ _ b0 b1 b2 b3
    (by rw [p2]; unfold GreHead.size; omega)
  have hdrop : out.drop h.size = inner := by
    have g14 := hget (k := 14) rfl rfl
    have := Val.nums.inj (Except.ok.inj (c14.symm.trans g14))
    apply bytesVal_inj
    refine this.trans ?_
    rw [List.map_map]
    apply List.map_congr_left
    intro a _
    exact Nat.mod_eq_of_lt a.toNat_lt
  have hu : ∀ o : Option Nat, unitOf (unitVal o) = o := by
    intro o; cases o <;> rfl
  refine ⟨out, p1, p2, ?_⟩
  have hpay : gre.payload m out = .ok inner := by rw [cp]; exact congrArg _ hdrop
  have hps : gre.packetSize m out = .ok h.size := cs
  simp only [leaveGre, hx, g1, ok_bind, Val.asNum, hps, g8, g9, g10, g11, g12, hpay, hu, ne_eq, not_true_eq_false, if_false,
    show ¬ out.length < h.size by omega]
  obtain ⟨sum, key, seq, proto⟩ := h
  cases sum <;> rfl

theorem unit16_bits (m : Mode) (n : Nat) : bitsOf ((declWire m noInner u16BE).enc (.list [.num n, .nums []])) = toBits 16 n := by
  simp only [declWire, encFields, encField, u16BE, fprim, fpayload, List.flatMap_nil, List.append_nil]
  exact bitsOf_packBits (by rw [toBits_length])

theorem unit32_bits (m : Mode) (n : Nat) : bitsOf ((declWire m noInner u32BE).enc (.list [.num n, .nums []])) = toBits 32 n := by
  simp only [declWire, encFields, encField, u32BE, fprim, fpayload, List.flatMap_nil, List.append_nil]
  exact bitsOf_packBits (by rw [toBits_length])

/-- **C143** What came out of a tunnel, put into one with the same header, gives the same bytes, if the bits that the header
does not hold were zero. -/
theorem C143_leave_enter (m : Mode) (buf : Buf) (hsl : SliceLen buf.length) (h : GreHead) (inner : Buf)
    (hl : leaveGre m buf = .ok (some (h, inner))) (hz : bitsAt buf 4 12 = 0) : enterGre m h inner = .ok buf := by
  obtain ⟨v1, v2⟩ := C143_leave m buf hsl _ _ _ rfl rfl rfl
  by_cases hc : 4 + 4 * bitsAt buf 0 1 + 4 * bitsAt buf 2 1 + 4 * bitsAt buf 3 1 ≤ buf.length ∧ bitsAt buf 1 1 = 0
  case neg => rw [v2 hc] at hl; cases hl
  rw [v1 hc] at hl
  obtain ⟨hlen, hr⟩ := hc
  have hl := Option.some.inj (Except.ok.inj hl)
  have e1 : _ = h := congrArg Prod.fst hl
  have e2 : _ = inner := congrArg Prod.snd hl
  clear v1 v2 hl
  dsimp only at e1 e2
  have hbits : encFields (greElems m) 0 gre.fields (greVals h inner) = bitsOf buf := by
    have z1 : ∀ r, toBits 1 0 ++ (toBits 3 0 ++ (toBits 5 0 ++ (toBits 3 0 ++ r))) = bitSlice (bitsOf buf) 4 12 ++ r := by
      intro r
      rw [← toBits_bitsAt (by omega), hz, show toBits 12 0 = toBits 1 0 ++ (toBits 3 0 ++ (toBits 5 0 ++ toBits 3 0)) by decide]
      simp only [List.append_assoc]
    have z2 : toBits 1 0 = bitSlice (bitsOf buf) 1 1 := by rw [← toBits_bitsAt (by omega), hr]
    have hhead : ∀ r, toBits 1 (bitsAt buf 0 1) ++ (toBits 1 0 ++ (toBits 1 (bitsAt buf 2 1) ++ (toBits 1 (bitsAt buf 3 1) ++
        (toBits 1 0 ++ (toBits 3 0 ++ (toBits 5 0 ++ (toBits 3 0 ++ (toBits 16 (bitsAt buf 16 16) ++ r)))))))) =
        bitSlice (bitsOf buf) 0 32 ++ r := by
      intro r
      rw [z1, z2, toBits_bitsAt (by omega), toBits_bitsAt (by omega), toBits_bitsAt (by omega), toBits_bitsAt (by omega),
        slice_join _ _ 0 1 1, slice_join _ _ 0 2 1, slice_join _ _ 0 3 1, slice_join _ _ 0 4 12, slice_join _ _ 0 16 16]
    have c2 := bitsAt_lt buf 0 1
    have k2 := bitsAt_lt buf 2 1
    have s2 := bitsAt_lt buf 3 1
    rw [← e1, ← e2]
    clear e1 e2
    rcases (show bitsAt buf 0 1 = 0 ∨ bitsAt buf 0 1 = 1 by omega) with hc | hc <;>
    rcases (show bitsAt buf 2 1 = 0 ∨ bitsAt buf 2 1 = 1 by omega) with hk | hk <;>
    rcases (show bitsAt buf 3 1 = 0 ∨ bitsAt buf 3 1 = 1 by omega) with hs | hs <;>
    · simp only [hc, hk, hs] at hhead hlen ⊢
      simp only [greVals, gre, fprim, fbytes, fpayloadRest, unitVal, Spec.bytesVal, greElems, encFields, encField,
        bytes_flatMap, Option.map_some, Option.map_none, Option.toList_some, Option.toList_none, List.map_cons, List.map_nil,
        List.flatMap_cons, List.flatMap_nil, List.append_nil, List.nil_append, unit16_bits, unit32_bits, bitsOf_nil,
        Option.isSome_some, Option.isSome_none, Bool.toNat_true, Bool.toNat_false, if_true, if_false, Nat.reduceLT, Nat.reduceAdd,
        Nat.reduceMul, Nat.zero_ne_one, hhead, bitsOf_drop] at hlen ⊢
      first
      | exact List.take_append_drop _ (bitsOf buf)
      | (rw [toBits_bitsAt (by omega), slice_join _ _ 0 32 32]; exact List.take_append_drop _ (bitsOf buf))
      | (rw [toBits_bitsAt (by omega), toBits_bitsAt (by omega), slice_join _ _ 0 32 32, slice_join _ _ 0 64 32]
         exact List.take_append_drop _ (bitsOf buf))
      | (rw [toBits_bitsAt (by omega), toBits_bitsAt (by omega), slice_join _ _ 0 32 16, slice_join _ _ 0 48 16]
         exact List.take_append_drop _ (bitsOf buf))
      | (rw [toBits_bitsAt (by omega), toBits_bitsAt (by omega), toBits_bitsAt (by omega), slice_join _ _ 0 32 16,
           slice_join _ _ 0 48 16, slice_join _ _ 0 64 32]
         exact List.take_append_drop _ (bitsOf buf))
      | (rw [toBits_bitsAt (by omega), toBits_bitsAt (by omega), toBits_bitsAt (by omega), toBits_bitsAt (by omega),
           slice_join _ _ 0 32 16, slice_join _ _ 0 48 16, slice_join _ _ 0 64 32, slice_join _ _ 0 96 32]
         exact List.take_append_drop _ (bitsOf buf))
  have hb : (h.size + inner.length) = buf.length := by
    have := gre_enc_length m h inner
    rw [hbits, bitsOf_length] at this
    omega
  obtain ⟨out, p1, p2, p3⟩ := populate_enc (d := gre) (by decide) (gre_lawful m) (gre_typed m h inner) (gre_agree m h inner)
    (List.replicate (h.size + inner.length) 0) (by rw [List.length_replicate, hb]; exact hsl)
    (by rw [gre_enc_length, List.length_replicate]; exact Nat.le_refl _)
  rw [List.drop_eq_nil_of_le (by rw [bitsOf_length, gre_enc_length, List.length_replicate]; exact Nat.le_refl _),
    List.append_nil, hbits] at p3
  exact p1.trans (congrArg _ (bitsOf_inj p3))

/-- **C143** Tunnels in tunnels, any number of them. -/
theorem C143_stack (m : Mode) (hs : List GreHead) (hf : ∀ h ∈ hs, h.Fits) (inner : Buf)
    (hsl : SliceLen ((hs.map (·.size)).sum + inner.length)) :
    ∃ out, enterAll m hs inner = .ok out ∧ out.length = (hs.map (·.size)).sum + inner.length ∧
      leaveAll m hs.length out = .ok (some (hs, inner)) := by
  induction hs with
  | nil => exact ⟨inner, rfl, by simp, rfl⟩
  | cons h hs ih =>
    rw [List.map_cons, List.sum_cons] at hsl ⊢
    have hs1 : SliceLen ((hs.map (·.size)).sum + inner.length) := by
      unfold SliceLen at hsl ⊢; exact Nat.lt_of_le_of_lt (by omega) hsl
    obtain ⟨b, b1, b2, b3⟩ := ih (fun g hg => hf g (List.mem_cons_of_mem _ hg)) hs1
    have hs2 : SliceLen (h.size + b.length) := by
      rw [b2, ← Nat.add_assoc]; exact hsl
    obtain ⟨out, o1, o2, o3⟩ := C143_enter_leave m h (hf h List.mem_cons_self) b hs2
    refine ⟨out, ?_, by rw [o2, b2, Nat.add_assoc], ?_⟩
    · rw [enterAll, b1, ok_bind, o1]
    · rw [List.length_cons, leaveAll, o3]
      simp only [ok_bind, b3, pure, Except.pure]

/-- A header with everything. -/
def fullHead : GreHead := ⟨some (0x0102, 0x0304), some 0x05060708, some 0x090A0B0C, 0x0800⟩

theorem fullHead_fits : fullHead.Fits := by
  simp [GreHead.Fits, fullHead]

example : enterGre .debug fullHead [0xAA] = .ok fullGre ∧ leaveGre .debug fullGre = .ok (some (fullHead, [0xAA])) ∧
    leaveGre .debug (fullGre.take 15) = .ok none ∧ leaveGre .debug (0x40 :: fullGre) = .ok none := by decide +kernel

example := C143_enter_leave .debug fullHead fullHead_fits [0xAA] (by simp [SliceLen, GreHead.size, fullHead])

example := C143_stack .release [fullHead, ⟨none, some 7, none, 0x6558⟩]
  (by
    intro h hh
    simp only [List.mem_cons, List.not_mem_nil, or_false] at hh
    rcases hh with rfl | rfl
    · exact fullHead_fits
    · simp [GreHead.Fits]) [1, 2, 3]
  (by simp [SliceLen, GreHead.size, fullHead])

example := C143_leave_enter .debug fullGre (by unfold SliceLen; decide) fullHead [0xAA] (by decide +kernel) (by decide +kernel)

example := (C143_leave .debug fullGre (by unfold SliceLen; decide) 1 1 1 (by decide) (by decide) (by decide)).1 (by decide)

example := (C143_leave .debug [0xB0, 0, 8, 0] (by unfold SliceLen; decide) 1 1 1 (by decide) (by decide) (by decide)).2
  (by decide)

end Verif.Props
