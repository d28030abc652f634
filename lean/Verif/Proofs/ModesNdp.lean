import Verif.Proofs.Ndp
import Verif.Proofs.ModesLong

/-! Debug and release builds agree: neighbour discovery. -/

namespace Verif
open Spec

theorem ndpOption_lens (m : Mode) (t l : UInt8) (r : Buf) (k : Nat) :
    (ndpOption.before m (t :: l :: r) k).lens = if k ≤ 2 then [] else [ndpOptionDataLength m l.toNat] := by
  by_cases hk : k ≤ 2
  · rw [if_pos hk]
    refine (before_fixed (d := ndpOption) ?_ m _).2
    have : k = 0 ∨ k = 1 ∨ k = 2 := by omega
    rcases this with rfl | rfl | rfl <;> decide
  · rw [if_neg hk, ← ndp_lens m t l r]
    unfold Decl.before
    rw [List.take_of_length_le (by show 3 ≤ k; omega), List.take_of_length_le (Nat.le_refl 3)]

theorem ndpOption_fits {t l : UInt8} (r : Buf) (h : l.toNat < 32) : FitsAt ndpOption (t :: l :: r) where
  fit k := by
    have hb : (ndpOption.before .release (t :: l :: r) k).bit ≤ 16 := by
      rw [before_bit]
      exact Nat.le_trans (bitsSum_take_le _ _) (Nat.le_refl 16)
    have hl := ndpOption_lens .release t l r k
    have hr := room_le l
    rw [ndpDataLength (fun _ => h)] at hl
    unfold Fit
    rw [hl]
    split
    · exact ⟨by simp, .inr ⟨[], rfl, by simp; omega⟩⟩
    · exact ⟨by simp [NH], .inr ⟨[NdpOpt.room l], rfl, by simp; omega⟩⟩
  free k f e hf he := by
    match k, hf with
    | 0, hf => cases hf; cases he
    | 1, hf => cases hf; cases he
    | 2, hf =>
      cases hf
      simp only [fpayload, Option.some.injEq] at he
      subst he
      simp only
      have h1 : ndpOption.get .release (t :: l :: r) 1 = .ok (.num (bitsAt (t :: l :: r) 8 8)) :=
        layoutOk_get (L := ndpOptionLayout) (by decide +kernel) (k := 1) rfl .release _ (by
          rw [show ndpOption.minSize = 2 from by decide]; simp)
      rw [before_get (d := ndpOption) (i := 1) (k := 2) (by omega) (by decide), h1, bitsAt_second]
      simp only [ok_bind, Val.asNum]
      rw [ndpDataLength (m := .debug) (fun _ => h), ndpDataLength (m := .release) (fun _ => h)]
    | k + 3, hf => cases hf
  noPkt f hf c := by
    simp only [ndpOption, List.mem_cons, List.not_mem_nil, or_false] at hf
    rcases hf with rfl | rfl | rfl <;> exact fun h => nomatch h
  head k f args hf hty := by
    match k, hf with
    | 0, hf => intro g hg; simp at hg
    | 1, hf => cases hf; cases hty
    | 2, hf => cases hf; cases hty
    | k + 3, hf => cases hf

/-! ## Messages without their options -/

/-- The declaration up to field `k`. -/
def Decl.upTo (d : Decl) (k : Nat) : Decl := ⟨d.fields.take k⟩

section
variable {d : Decl} {n k : Nat}

theorem upTo_field (h : k < n) : (d.upTo n).fields[k]? = d.fields[k]? := by
  simp only [Decl.upTo]; rw [List.getElem?_take_of_lt h]

theorem upTo_before (m : Mode) (buf : Buf) (h : k ≤ n) : (d.upTo n).before m buf k = d.before m buf k := by
  simp only [Decl.upTo, Decl.before]; rw [List.take_take, Nat.min_eq_left h]

theorem upTo_get (m : Mode) (buf : Buf) (h : k < n) : (d.upTo n).get m buf k = d.get m buf k := by
  unfold Decl.get; rw [upTo_field h, upTo_before m buf (by omega)]

theorem upTo_getRaw (m : Mode) (buf : Buf) (h : k < n) : (d.upTo n).getRaw m buf k = d.getRaw m buf k := by
  unfold Decl.getRaw; rw [upTo_field h, upTo_before m buf (by omega)]

theorem upTo_set (m : Mode) (buf : Buf) (v : Val) (h : k < n) : (d.upTo n).set m buf k v = d.set m buf k v := by
  unfold Decl.set
  rw [upTo_field h]
  simp only [upTo_before m _ (show k ≤ n by omega)]

theorem upTo_payloadBounds (m : Mode) (buf : Buf) (h : k < n) (hk : d.payloadIdx = some k)
    (hk' : (d.upTo n).payloadIdx = some k) : (d.upTo n).payloadBounds m buf = d.payloadBounds m buf := by
  unfold Decl.payloadBounds
  rw [hk, hk']
  simp only [upTo_field h, upTo_before m buf (show k ≤ n by omega)]

end

/-- A long packet cut off after the packet number. -/
def QuicKind.front (k : QuicKind) : Decl := ⟨k.decl.fields.take k.head.length ++ k.longMid ++ [frest "remaining"]⟩

theorem front_fits (k : QuicKind) (hk : k.long = true) {buf : Buf} (hsl : SliceLen buf.length) :
    FitsAt k.front buf := by
  have hi := long_items k hk [] [] trivial
  rw [List.append_nil, List.append_nil] at hi
  refine fits_items rfl (long_head k hk).1 (long_head k hk).2 hi ?_ rfl rfl hsl
  cases k <;> first
    | exact absurd hk (by decide)
    | simp [tame, QuicKind.longItems, QuicKind.items, QuicKind.head, QuicKind.decl, initial, zeroRtt, handshake,
        longSlots, Item.cap, grow, Item.strict, Item.ref, Item.next]

theorem front_upTo (k : QuicKind) (hk : k.long = true) :
    k.front.upTo (k.lengthPos + 2) = k.decl.upTo (k.lengthPos + 2) := by
  cases k <;> first | rfl | exact absurd hk (by decide)

theorem long_front (k : QuicKind) (hk : k.long = true) {buf : Buf} (hs : SliceLen buf.length) {j : Nat}
    (hj : j < k.lengthPos + 2) : k.decl.get .debug buf j = k.decl.get .release buf j ∧
      k.decl.getRaw .debug buf j = k.decl.getRaw .release buf j ∧
      ∀ v, k.decl.set .debug buf j v = k.decl.set .release buf j v := by
  have h := front_fits k hk hs
  simp only [← upTo_get (d := k.decl) _ _ hj, ← upTo_getRaw (d := k.decl) _ _ hj, ← upTo_set (d := k.decl) _ _ _ hj,
    ← front_upTo k hk]
  simp only [upTo_get _ _ hj, upTo_getRaw _ _ hj, upTo_set _ _ _ hj]
  exact ⟨h.get hs j, h.getRaw hs j, h.set hs j⟩

theorem NdpMessage.fits {d : Decl} {L : List Slot} {n : Nat} (h : NdpMessage d L n) (buf : Buf) :
    FitsAt (d.upTo (L.length + 1)) buf := by
  have hfix : ∀ f ∈ d.fields.take L.length, f.fixed = true := fun f hf => List.all_eq_true.mp h.fixed f hf
  have hfields : (d.upTo (L.length + 1)).fields = d.fields.take L.length ++ [fpayload "payload" (lenConst 0)] := by
    simp only [Decl.upTo]; rw [List.take_add_one, h.payload]; rfl
  have hlen : (d.fields.take L.length).length = L.length := by rw [List.length_take, h.count]; omega
  have hn := h.small
  refine ⟨fun k => ?_, fun k f e hf he => ?_, fun f hf c => ?_, fun k f args hf hty g hg => ?_⟩
  · have hb : ((d.upTo (L.length + 1)).before .release buf k).bit ≤ 8 * n := by
      rw [before_bit]
      refine Nat.le_trans (bitsSum_take_le _ _) ?_
      rw [show (d.upTo (L.length + 1)).fields = d.fields.take (L.length + 1) from rfl, (h.st .release buf).2]
      exact Nat.le_refl _
    have hl : ((d.upTo (L.length + 1)).before .release buf k).lens = [] ∨
        ((d.upTo (L.length + 1)).before .release buf k).lens = [0].map .ok := by
      by_cases hk : k ≤ L.length
      · left
        rw [upTo_before _ _ (by omega)]
        refine (before_fixed (d := d) ?_ .release buf).2
        rw [List.all_eq_true]
        intro f hf
        refine hfix f ?_
        rw [show d.fields.take k = (d.fields.take L.length).take k by rw [List.take_take, Nat.min_eq_left hk]] at hf
        exact List.mem_of_mem_take hf
      · right
        rw [← (h.st .release buf).1]
        simp only [Decl.upTo, Decl.before]
        rw [List.take_take, Nat.min_eq_right (by omega)]
    unfold Fit
    rcases hl with hl | hl <;> rw [hl]
    · exact ⟨by simp, .inr ⟨[], rfl, by simp; omega⟩⟩
    · exact ⟨by simp [NH], .inr ⟨[0], rfl, by simp; omega⟩⟩
  · have hm := List.mem_of_getElem? hf
    rw [hfields] at hm
    rcases List.mem_append.mp hm with hm | hm
    · have := hfix f hm
      unfold Field.fixed at this
      rw [he] at this
      simp at this
    · rw [List.mem_singleton] at hm
      subst hm
      simp only [fpayload, Option.some.injEq] at he
      subst he
      rfl
  · rw [hfields] at hf
    rcases List.mem_append.mp hf with hm | hm
    · intro hc
      have := hfix f hm
      unfold Field.fixed at this
      rw [hc] at this
      simp [Ty.isVec] at this
    · rw [List.mem_singleton] at hm
      subst hm
      exact fun h => nomatch h
  · have hk : k < L.length + 1 := by
      have := (List.getElem?_eq_some_iff.mp hf).1
      rw [hfields, List.length_append, hlen] at this
      simpa using this
    have hk' : k ≠ L.length := by
      rintro rfl
      rw [upTo_field hk, h.payload] at hf
      cases hf
      cases hty
    have hg' : g ∈ d.fields.take L.length := by
      rw [hfields, List.take_append_of_le_length (by omega)] at hg
      exact List.mem_of_mem_take hg
    have := hfix g hg'
    unfold Field.fixed at this
    cases hgl : g.len with
    | none => rfl
    | some e => rw [hgl] at this; simp at this

theorem ndp_dec_panic {t l : UInt8} (r : Buf) (h : ¬ l.toNat < 32) :
    ndpOption.fromPacket .debug (t :: l :: r) = panic := by
  have h2l : 2 ≤ (t :: l :: r).length := by simp
  have hraw : ndpOption.getRaw .debug (t :: l :: r) 2 = panic := by
    rw [Decl.getRaw]
    have hlen : fieldLen .debug (t :: l :: r) (ndpOption.before .debug (t :: l :: r) 2) ndpOption.fields[2] = panic :=
      (ndp_len .debug _ h2l rfl).trans (by rw [bitsAt_second]; exact ndpDataLength_panic h)
    have hc : curOff .debug (ndpOption.before .debug (t :: l :: r) 2).bit
        (ndpOption.before .debug (t :: l :: r) 2).lens = .ok 2 := by
      rw [(before_fixed (d := ndpOption) (k := 2) (by decide) .debug _).1,
        (before_fixed (d := ndpOption) (k := 2) (by decide) .debug _).2]
      rfl
    rw [show ndpOption.fields[2]? = some ndpOption.fields[2] from rfl]
    simp only [hc, hlen]
    rfl
  have h2 : ndpOption.get .debug (t :: l :: r) 2 = panic := by
    rw [bytes_get (d := ndpOption) (k := 2) rfl rfl, hraw]; rfl
  have h0 : ndpOption.get .debug (t :: l :: r) 0 = .ok (.nums [bitsAt (t :: l :: r) 0 8]) :=
    layoutOk_get (L := ndpOptionLayout) (by decide +kernel) (k := 0) rfl _ _ h2l
  have h1 : ndpOption.get .debug (t :: l :: r) 1 = .ok (.num (bitsAt (t :: l :: r) 8 8)) :=
    layoutOk_get (L := ndpOptionLayout) (by decide +kernel) (k := 1) rfl _ _ h2l
  rw [fromPacket_mapM]
  simp only [show List.range ndpOption.fields.length = [0, 1, 2] from rfl, List.map_cons,
    List.map_nil, h0, h1, h2]
  rfl

end Verif
