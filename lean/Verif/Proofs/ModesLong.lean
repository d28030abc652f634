import Verif.Proofs.ModesFit
import Verif.Proofs.Sizes

/-! Debug and release builds agree on QUIC packets whose Length covers the packet number. -/

namespace Verif
open Spec

theorem get_bytes_raw {d : Decl} {m : Mode} {buf : Buf} {k : Nat} {f : Field} (hf : d.fields[k]? = some f)
    (hty : f.ty = .vecPrim (u 8)) :
    d.get m buf k = (fun r => Val.nums (r.map (·.toNat))) <$> d.getRaw m buf k := by
  rw [Decl.get, Decl.getRaw, hf]
  simp only [hty, getField]
  cases varSlice m buf (curOff m (d.before m buf k).bit (d.before m buf k).lens)
      (fieldLen m buf (d.before m buf k) f) with
  | error e => rfl
  | ok x =>
    rw [ok_bind, show u 8 = ⟨8, .big⟩ from rfl, getElems_u8 _ _ _ (by omega)]
    simp only [List.drop_zero]
    rfl

/-- The items up to the packet number. -/
def QuicKind.longItems (k : QuicKind) : List Item := k.items ++ [.vi, .pn 4]

/-- The fields up to the packet number. -/
def QuicKind.longMid (k : QuicKind) : List Field :=
  k.mid ++ [fbytes "length" lenVarintLength, fbytes "packet_number" (lenPn 4)]

theorem long_head (k : QuicKind) (hk : k.long = true) : HeadOk (k.decl.fields.take k.head.length) ∧
    ∀ f ∈ k.decl.fields.take k.head.length, ∀ c, f.ty ≠ .vecPkt c := by
  cases k <;> first
    | (refine ⟨⟨?_, ?_, by decide +kernel⟩, ?_⟩ <;>
        (repeat' first | exact List.forall_mem_nil _ | refine List.forall_mem_cons.mpr ⟨?_, ?_⟩) <;>
        first | rfl | exact fun _ h => nomatch h)
    | cases hk

theorem long_items (k : QuicKind) (hk : k.long = true) (e : List Item) (fe : List Field) (he : ItemsAre e fe) :
    ItemsAre (k.longItems ++ e) (k.longMid ++ fe) := by
  cases k <;> first | exact absurd hk (by decide) | (repeat first | exact he | refine ⟨⟨rfl, rfl⟩, ?_⟩)

theorem long_tame (k : QuicKind) (hk : k.long = true) :
    tame (k.decl.fields.take k.head.length).length [] (k.longItems ++ [.const (2 ^ 62)]) := by
  cases k <;> first
    | exact absurd hk (by decide)
    | simp [tame, QuicKind.longItems, QuicKind.items, QuicKind.head, QuicKind.decl, initial, zeroRtt, handshake,
        longSlots, Item.cap, grow, Item.strict, Item.ref, Item.next]

theorem long_prefix (k : QuicKind) (hk : k.long = true) :
    k.decl.fields = k.decl.fields.take k.head.length ++ k.longMid ++
      [fbytes "frames" (lenFrames k.lengthPos (k.lengthPos + 1)), frest "remaining"] := by
  cases k <;> first | rfl | cases hk

theorem longPos_len (k : QuicKind) (hk : k.long = true) :
    (k.decl.fields.take k.head.length ++ k.longMid).length = k.lengthPos + 2 ∧
      (k.decl.fields.take k.head.length).length + k.longItems.length = k.lengthPos + 2 ∧
      k.decl.fields.length = k.lengthPos + 4 := by
  cases k <;> first | exact ⟨rfl, rfl, rfl⟩ | cases hk

theorem long_at (k : QuicKind) (hk : k.long = true) :
    k.decl.fields[k.lengthPos]? = some (fbytes "length" lenVarintLength) ∧
      k.decl.fields[k.lengthPos + 1]? = some (fbytes "packet_number" (lenPn 4)) ∧
      k.decl.fields[k.lengthPos + 2]? = some (fbytes "frames" (lenFrames k.lengthPos (k.lengthPos + 1))) ∧
      k.decl.fields[k.lengthPos + 3]? = some (frest "remaining") := by
  cases k <;> first | exact ⟨rfl, rfl, rfl, rfl⟩ | cases hk

/-- States up to the packet number. -/
theorem long_going (k : QuicKind) (hk : k.long = true) {m : Mode} {buf : Buf} (hsl : SliceLen buf.length) {j : Nat}
    (hj : j ≤ k.lengthPos + 2) : ∃ V, Going buf (k.decl.before m buf j)
      (grow ((k.longItems ++ [Item.const (2 ^ 62)]).drop (j - (k.decl.fields.take k.head.length).length))) V := by
  obtain ⟨V, h⟩ := prefix_going (long_head k hk).1
    (long_items k hk [.const (2 ^ 62)] [fbytes "x" (lenConst (2 ^ 62))] ⟨⟨rfl, rfl⟩, trivial⟩) (long_tame k hk)
    (m := m) hsl j
  refine ⟨V, ?_⟩
  rw [← List.append_assoc, List.take_append_of_le_length (by rw [(longPos_len k hk).1]; omega)] at h
  have hb : k.decl.before m buf j = St.run m buf .init ((k.decl.fields.take k.head.length ++ k.longMid).take j) := by
    rw [Decl.before]
    conv => lhs; rw [long_prefix k hk]
    rw [List.take_append_of_le_length (by rw [(longPos_len k hk).1]; omega)]
  rw [hb]
  exact h

theorem long_fit (k : QuicKind) (hk : k.long = true) {m : Mode} {buf : Buf} (hsl : SliceLen buf.length) {j : Nat}
    (hj : j ≤ k.lengthPos + 2) : Fit (k.decl.before m buf j) := by
  obtain ⟨V, h⟩ := long_going k hk (m := m) hsl hj
  refine h.fit hsl ?_
  have hef : endFields m k.decl.fields := fun f hf => by
    rw [long_fields k hk] at hf
    rcases List.mem_append.mp hf with hf | hf
    · rcases List.mem_append.mp hf with hf | hf
      · exact head_ends (long_head k hk).1 (long_head k hk).2 m f hf
      · exact items_endFields m (quic_mid k) f hf
    · exact long_endFields k m f hf
  exact (run_NH _ (fun f hf => hef f (List.mem_of_mem_take hf)) .init (by simp [St.init]) (by simp [St.init])).1

/-- When the packet number can be read, the Length field is complete. -/
theorem long_complete (k : QuicKind) (hk : k.long = true) {buf : Buf} (hsl : SliceLen buf.length) {l p : Buf}
    (hl : k.decl.getRaw .release buf k.lengthPos = .ok l)
    (hp : k.decl.getRaw .release buf (k.lengthPos + 1) = .ok p) : ∃ v, Quic.Varint l v := by
  obtain ⟨h0, h1, -⟩ := long_at k hk
  have hfit := long_fit k hk (m := .release) hsl (j := k.lengthPos) (by omega)
  have hfit' := long_fit k hk (m := .release) hsl (j := k.lengthPos + 1) (by omega)
  rw [Decl.getRaw, h0] at hl
  rw [Decl.getRaw, h1] at hp
  simp only at hl hp
  rw [varSlice, bind_eq_ok] at hl hp
  obtain ⟨a, ha, hl⟩ := hl
  obtain ⟨b, hb, hp⟩ := hp
  have hle : b ≤ buf.length := by
    rw [bind_eq_ok] at hp
    obtain ⟨n, -, hp⟩ := hp
    rw [bind_eq_ok] at hp
    obtain ⟨c, -, hp⟩ := hp
    unfold slice at hp
    split at hp
    · omega
    · cases hp
  rw [bind_eq_ok] at hl
  obtain ⟨n, hn, hl⟩ := hl
  change lenExpr .release buf (k.decl.before .release buf k.lengthPos) lenVarintLength = .ok n at hn
  obtain ⟨sizes, hs, rfl⟩ := hfit.sizes ha
  obtain ⟨sizes', hs', rfl⟩ := hfit'.sizes hb
  rw [before_succ h0] at hs' hle
  have hsz : sizes' = sizes ++ [n] := by
    have : ((k.decl.before .release buf k.lengthPos).step .release buf (fbytes "length" lenVarintLength)).lens =
        (sizes ++ [n]).map .ok := by
      simp [St.step, fbytes, hn, hs]
    rw [this] at hs'
    exact ((List.map_inj_right (f := (Except.ok : Nat → Res Nat)) (fun a b h => by cases h; rfl)).mp hs').symm
  subst hsz
  simp only [St.step, fbytes, Ty.bits, List.sum_append, List.sum_cons, List.sum_nil] at hle
  unfold SliceLen at hsl
  rw [uadd_ok (by unfold usizeCard; omega), ok_bind, slice, Nat.min_eq_left (by omega),
    if_pos ⟨by omega, by omega⟩] at hl
  cases hl
  rw [lenExpr, ha, ok_bind, sliceFrom, if_pos (by omega)] at hn
  simp only [lenVarintLength, ok_bind] at hn
  obtain ⟨v, hv⟩ := varint_take hn (by rw [List.length_drop]; omega)
  refine ⟨v, ?_⟩
  rw [List.drop_take]
  rwa [show (k.decl.before .release buf k.lengthPos).bit / 8 + sizes.sum + n -
    ((k.decl.before .release buf k.lengthPos).bit / 8 + sizes.sum) = n by omega]

theorem varint_small {bs : Buf} {v : Nat} (h : Quic.Varint bs v) : v < 2 ^ 62 := by
  obtain ⟨p, hp, -, hv, -⟩ := h
  have hcases : p = 0 ∨ p = 1 ∨ p = 2 ∨ p = 3 := by omega
  rcases hcases with rfl | rfl | rfl | rfl <;> simp at hv <;> omega

/-- The size of the frames. -/
theorem long_frames (k : QuicKind) (hk : k.long = true) {buf : Buf} (hsl : SliceLen buf.length)
    (hc : LengthCovers k.decl k.lengthPos buf) (r : Res Buf) :
    lenFrames k.lengthPos (k.lengthPos + 1) .debug (k.decl.before .release buf (k.lengthPos + 2)).get r =
      lenFrames k.lengthPos (k.lengthPos + 1) .release (k.decl.before .release buf (k.lengthPos + 2)).get r ∧
    ∀ n, lenFrames k.lengthPos (k.lengthPos + 1) .release (k.decl.before .release buf (k.lengthPos + 2)).get r =
      .ok n → n < 2 ^ 62 := by
  obtain ⟨h0, h1, -⟩ := long_at k hk
  have hlen := (longPos_len k hk).2.2
  unfold lenFrames
  rw [before_get (by omega) (by omega), before_get (by omega) (by omega), get_bytes_raw h0 rfl,
    get_bytes_raw h1 rfl]
  cases hl : k.decl.getRaw .release buf k.lengthPos with
  | error e => exact ⟨rfl, fun n hn => by cases hn⟩
  | ok l =>
    cases hp : k.decl.getRaw .release buf (k.lengthPos + 1) with
    | error e =>
      simp only [ok_map, ok_bind, Val.asNums]
      cases varint (l.map (·.toNat)) with
      | error e => exact ⟨rfl, fun n hn => by cases hn⟩
      | ok v => exact ⟨rfl, fun n hn => by cases hn⟩
    | ok p =>
      obtain ⟨v, hv⟩ := long_complete k hk hsl hl hp
      have hle := hc l v p hl hv hp
      simp only [ok_map, ok_bind, Val.asNums, (varint_enc hv []).2, List.length_map, usub, if_pos hle]
      refine ⟨trivial, fun n hn => ?_⟩
      cases hn
      have := varint_small hv
      omega

theorem long_fits (k : QuicKind) (hk : k.long = true) {buf : Buf} (hsl : SliceLen buf.length)
    (hc : LengthCovers k.decl k.lengthPos buf) : FitsAt k.decl buf := by
  obtain ⟨h0, h1, h2, h3⟩ := long_at k hk
  have hlen := (longPos_len k hk).2.2
  have hfr := long_frames k hk hsl hc
  have hfit3 : Fit (k.decl.before .release buf (k.lengthPos + 3)) := by
    have hf2 := long_fit k hk (m := .release) hsl (Nat.le_refl (k.lengthPos + 2))
    rw [before_succ h2]
    refine ⟨?_, ?_⟩
    · intro x hx
      simp only [St.step, fbytes, List.mem_append, List.mem_singleton] at hx
      rcases hx with hx | rfl
      · exact hf2.1 x hx
      · refine lenFrames_ends _ _ _ _ _ (fun i => ?_) ((curOff_NH hf2.1).bind fun _ _ => sliceFrom_NH _ _)
        have hnh := (run_NH (m := .release) (buf := buf) (k.decl.fields.take (k.lengthPos + 2)) (fun f hf => by
          have hf := List.mem_of_mem_take hf
          rw [long_fields k hk] at hf
          rcases List.mem_append.mp hf with hf | hf
          · rcases List.mem_append.mp hf with hf | hf
            · exact head_ends (long_head k hk).1 (long_head k hk).2 _ f hf
            · exact items_endFields _ (quic_mid k) f hf
          · exact long_endFields k _ f hf) .init (by simp [St.init]) (by simp [St.init])).2
        rw [St.get]
        cases hi : (k.decl.before .release buf (k.lengthPos + 2)).vals[i]? with
        | none => exact NH.panic
        | some x => exact hnh x (List.mem_of_getElem? hi)
    · obtain ⟨V, hg⟩ := long_going k hk (m := .release) hsl (Nat.le_refl (k.lengthPos + 2))
      rw [← (longPos_len k hk).2.1, Nat.add_sub_cancel_left, List.drop_left' rfl, (longPos_len k hk).2.1] at hg
      rcases hg with ⟨x, hx, hne⟩ | ⟨sizes, hs, hlt, -⟩
      · exact .inl ⟨x, by simp [St.step, fbytes, hx], hne⟩
      · cases hn : lenExpr .release buf (k.decl.before .release buf (k.lengthPos + 2))
            (lenFrames k.lengthPos (k.lengthPos + 1)) with
        | error e => exact .inl ⟨.error e, by simp [St.step, fbytes, hn], fun n h => by cases h⟩
        | ok n =>
          right
          refine ⟨sizes ++ [n], by simp [St.step, fbytes, hn, hs], ?_⟩
          have := (hfr _).2 n hn
          simp only [grow, Item.strict, Item.cap, Bool.false_eq_true, ite_false] at hlt
          unfold SliceLen at hsl
          simp only [St.step, fbytes, Ty.bits, List.sum_append, List.sum_cons, List.sum_nil]
          omega
  have hne : ∀ f ∈ k.decl.fields, f ∈ k.decl.fields.take k.head.length ∨ (f ∈ k.longMid) ∨
      f = fbytes "frames" (lenFrames k.lengthPos (k.lengthPos + 1)) ∨ f = frest "remaining" := by
    intro f hf
    rw [long_prefix k hk] at hf
    simp only [List.mem_append, List.mem_cons, List.not_mem_nil, or_false] at hf
    rcases hf with (h | h) | h | h
    · exact .inl h
    · exact .inr (.inl h)
    · exact .inr (.inr (.inl h))
    · exact .inr (.inr (.inr h))
  have hmid := items_free (long_items k hk [] [] trivial)
  rw [List.append_nil] at hmid
  refine ⟨fun j => ?_, fun j f e hf he => ?_, fun f hf c => ?_, fun j f args hf hty g hg => ?_⟩
  · by_cases h : j ≤ k.lengthPos + 2
    · exact long_fit k hk hsl h
    · by_cases h' : j = k.lengthPos + 3
      · rw [h']; exact hfit3
      · have : k.decl.before .release buf j = k.decl.before .release buf (k.lengthPos + 4) := by
          rw [Decl.before, Decl.before, List.take_of_length_le (by omega), List.take_of_length_le (by omega)]
        rw [this, before_succ h3]
        unfold Fit St.step at *
        simpa only [frest, Ty.bits, Nat.add_zero] using hfit3
  · rcases hne f (List.mem_of_getElem? hf) with h | h | h | h
    · rw [(long_head k hk).1.len f h] at he; cases he
    · exact (hmid f h).1 e he _ _
    · have hj : j = k.lengthPos + 2 := by
        have hinj : ∀ x ∈ (k.decl.fields.take (k.lengthPos + 2)).map (·.name), x ≠ "frames" := by
          cases k <;> first | decide +kernel | exact absurd hk (by decide)
        have hj4 : j < k.lengthPos + 4 := by rw [← hlen]; exact (List.getElem?_eq_some_iff.mp hf).1
        have h5 : ¬ j < k.lengthPos + 2 := fun hlt =>
          hinj f.name (List.mem_map.mpr ⟨f, List.mem_of_getElem? (by rw [List.getElem?_take_of_lt hlt, hf]), rfl⟩)
            (by rw [h]; rfl)
        have h6 : j ≠ k.lengthPos + 3 := fun h6 => by
          rw [h6, h3] at hf
          cases hf
          rw [show (frest "remaining").len = none from rfl] at he
          cases he
        omega
      subst hj
      rw [h] at he
      cases he
      exact (hfr _).1
    · rw [h] at he; cases he
  · rcases hne f hf with h | h | h | h
    · exact (long_head k hk).2 f h c
    · exact (hmid f h).2.1 c
    · rw [h]; exact fun h => nomatch h
    · rw [h]; exact fun h => nomatch h
  · by_cases hj : j < (k.decl.fields.take k.head.length).length
    · refine (long_head k hk).1.len g ?_
      rw [long_prefix k hk, List.append_assoc, List.take_append_of_le_length (by omega)] at hg
      exact List.mem_of_mem_take hg
    · rw [long_prefix k hk, List.append_assoc, List.getElem?_append_right (by omega)] at hf
      have hm := List.mem_of_getElem? hf
      simp only [List.mem_append, List.mem_cons, List.not_mem_nil, or_false] at hm
      rcases hm with hm | rfl | rfl
      · exact ((hmid f hm).2.2 args hty).elim
      · cases hty
      · cases hty

end Verif
