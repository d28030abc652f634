import Verif.Proofs.Scan

/-! Helper lemmas: QUIC frames. -/

namespace Verif
open Spec

theorem not_ok_panic {α : Type} {x : Res α} (h : NH x) (hn : ∀ a, x ≠ .ok a) : x = panic := by
  cases x with
  | ok a => exact (hn a rfl).elim
  | error e => cases e with
    | panic => rfl
    | hang => exact (h rfl).elim

theorem itemsAre_length {is : List Item} {fs : List Field} (h : ItemsAre is fs) :
    is.length = fs.length := by
  induction is generalizing fs with
  | nil => cases fs with
    | nil => rfl
    | cons _ _ => exact h.elim
  | cons it is ih => cases fs with
    | nil => exact h.elim
    | cons f fs => simp [ih h.2]

theorem varintLength_NH (r : Buf) : NH (varintLength r) := (index_NH _ _).bind fun _ _ => NH.ok _
theorem varint_NH (l : List Nat) : NH (varint l) := by
  cases l with
  | nil => exact NH.panic
  | cons _ _ => exact NH.ok _
theorem nVarints_NH (n : Nat) (r : Buf) : NH (nVarints n r) := by
  induction n generalizing r with
  | zero => exact NH.ok _
  | succ n ih =>
    exact (index_NH _ _).bind fun _ _ => (sliceFrom_NH _ _).bind fun _ _ => (ih _).bind fun _ _ => NH.ok _

theorem lenVarint_ends (j : Nat) : (lenVarint j).ends := fun _ _ _ hg _ =>
  (hg j).bind fun _ _ => (asNums_NH _).bind fun _ _ => varint_NH _

theorem lenVarintLength_ends : lenVarintLength.ends := fun _ _ _ _ hr =>
  hr.bind fun _ _ => varintLength_NH _

theorem item_ends (it : Item) {e : LenExpr} (h : it.len = some e) : e.ends := by
  cases it <;> simp only [Item.len, Option.some.injEq, reduceCtorEq] at h <;> subst h
  · exact lenVarintLength_ends
  · exact fun _ _ _ hg hr => (hg 0).bind fun _ _ => (asTuple1_NH _).bind fun _ _ =>
      hr.bind fun _ _ => nVarints_NH _ _
  · exact fun _ _ _ hg hr => (hg 0).bind fun _ _ => (asTuple1_NH _).bind fun _ _ =>
      hr.bind fun _ _ => nVarints_NH _ _
  · exact fun _ _ _ hg hr => (hg _).bind fun _ _ => (asNums_NH _).bind fun _ _ =>
      (varint_NH _).bind fun _ _ => hr.bind fun _ _ => nVarints_NH _ _
  · exact lenVarint_ends _
  · intro m g r hg hr
    refine (hg _).bind fun _ _ => (asNums_NH _).bind fun l _ => ?_
    by_cases hl : l.isEmpty = true
    · rw [if_pos hl]; exact hr.bind fun _ _ => NH.ok _
    · rw [if_neg hl]; exact varint_NH _
  · exact lenConst_ends _
  · exact lenNum_ends _ _
  · exact lenNum_ends _ _

theorem items_endFields (m : Mode) {is : List Item} {fs : List Field} (h : ItemsAre is fs) :
    endFields m fs := by
  induction is generalizing fs with
  | nil => cases fs with
    | nil => intro f hf; simp at hf
    | cons _ _ => exact h.elim
  | cons it is ih => cases fs with
    | nil => exact h.elim
    | cons f fs =>
      intro g hg
      rcases List.mem_cons.mp hg with rfl | hg
      · refine ⟨fun e he => item_ends it (by rw [← h.1.1, he]), fun c hc => ?_⟩
        rw [h.1.2] at hc
        split at hc <;> cases hc
      · exact ih h.2 g hg

/-- The last field (all remaining bytes) of a declaration made of a head and scanned fields. -/
theorem getRaw_scan {d : Decl} {m : Mode} {buf : Buf} {hd fs : List Field} {l : Field}
    (hfields : d.fields = hd ++ fs ++ [l]) (hl : l.len = none) {is : List Item}
    (hi : ItemsAre is fs) {vals : List Val} {rest : Buf} (hsl : SliceLen buf.length)
    (h : Alive buf (St.run m buf .init hd) vals rest) (ht : tame vals.length [] is)
    (hN : NumSmall (St.run m buf .init hd).vals) :
    d.getRaw m buf (hd.length + fs.length) =
      match scan m is vals rest with
      | some (_, r) => .ok r
      | none => panic := by
  have hget : d.fields[hd.length + fs.length]? = some l := by
    rw [hfields, List.getElem?_append_right (by simp)]; simp
  have hbef : d.before m buf (hd.length + fs.length) = St.run m buf (St.run m buf .init hd) fs := by
    rw [Decl.before, hfields, List.take_left' (by simp), run_append]
  rw [Decl.getRaw, hget]
  simp only [hbef, fieldLen, hl]
  have hsl' := hsl
  unfold SliceLen at hsl'
  cases hs : scan m is vals rest with
  | some r =>
    obtain ⟨vals', r⟩ := r
    have ha := scan_alive hsl is fs hi h hs
    obtain ⟨o, ho, hr, hol⟩ := ha.curOff hsl m
    simp only
    rw [ho, varSlice, ok_bind, ok_bind, uadd_ok (by unfold usizeCard; omega), ok_bind, slice,
      Nat.min_eq_right (by omega), if_pos ⟨by omega, by omega⟩, List.take_length, hr]
  | none =>
    simp only
    apply not_ok_panic
    · have hnh : NH (curOff m (St.run m buf (St.run m buf .init hd) fs).bit
          (St.run m buf (St.run m buf .init hd) fs).lens) := by
        apply curOff_NH
        obtain ⟨sizes, h1, -⟩ := h.lens
        refine (run_NH fs (items_endFields m hi) _ ?_ ?_).1
        · rw [h1]; intro l hl; obtain ⟨n, -, rfl⟩ := List.mem_map.mp hl; exact NH.ok _
        · rw [h.vals]; intro l hl; obtain ⟨n, -, rfl⟩ := List.mem_map.mp hl; exact NH.ok _
      exact varSlice_NH hnh (NH.ok _)
    · intro a ha
      rw [varSlice, bind_eq_ok] at ha
      obtain ⟨o, ho, ha⟩ := ha
      have hlt := scan_dead hsl is fs hi h ht (fun j hj => by simp at hj) hN hs ho
      rw [ok_bind, bind_eq_ok] at ha
      obtain ⟨b, -, ha⟩ := ha
      unfold slice at ha
      split at ha
      · omega
      · simp at ha

/-- Getters of a declaration made of a head and scanned fields. -/
theorem get_scan {d : Decl} {m : Mode} {buf : Buf} {hd fs : List Field} {ls : List Field}
    (hfields : d.fields = hd ++ fs ++ ls) {is : List Item}
    (hi : ItemsAre is fs) {vals : List Val} {rest : Buf} (hsl : SliceLen buf.length)
    (h : Alive buf (St.run m buf .init hd) vals rest) {vals' : List Val} {r : Buf}
    (hs : scan m is vals rest = some (vals', r)) {j : Nat} {v : Val} (hj : vals'[j]? = some v) :
    d.get m buf j = .ok v := by
  have ha := scan_alive hsl is fs hi h hs
  have hbef : d.before m buf (hd.length + fs.length) = St.run m buf (St.run m buf .init hd) fs := by
    rw [Decl.before, hfields, List.take_left' (by simp), run_append]
  have hv := before_vals (d := d) (m := m) (buf := buf) (hd.length + fs.length)
    (by rw [hfields]; simp)
  rw [hbef, ha.vals] at hv
  have := congrArg (·[j]?) hv
  simp only [List.getElem?_map, hj, Option.map_some] at this
  cases hr : (List.range (hd.length + fs.length))[j]? with
  | none => rw [hr] at this; simp at this
  | some i =>
    rw [hr] at this
    have hij : i = j := by
      have := List.getElem?_eq_some_iff.mp hr
      obtain ⟨_, h2⟩ := this
      simpa using h2.symm
    simp only [Option.map_some, Option.some.injEq] at this
    rw [hij] at this
    exact this.symm

/-! ## Variable-length integers -/

theorem foldl_be (bs : Buf) (a : Nat) :
    (bs.map (·.toNat)).foldl (fun a b => a * 256 + b) a = a * 256 ^ bs.length + beNat bs := by
  rw [List.foldl_map, ← beNat_foldl]
  congr 1
  funext a b
  rw [Nat.mul_comm]

theorem varint_cons_iff (b : UInt8) (t : Buf) (v : Nat) :
    Quic.Varint (b :: t) v ↔
      t.length + 1 = 2 ^ (b.toNat / 64) ∧ v = b.toNat % 64 * 256 ^ t.length + beNat t := by
  have hb := b.toNat_lt
  have hlt := beNat_lt t
  rw [Quic.Varint, beNat_cons]
  constructor
  · rintro ⟨p, hp, hl, hv, he⟩
    rw [List.length_cons] at hl
    have hcases : p = 0 ∨ p = 1 ∨ p = 2 ∨ p = 3 := by omega
    rcases hcases with rfl | rfl | rfl | rfl
    · have ht : t.length = 0 := by omega
      rw [ht] at he hlt ⊢
      have : b.toNat / 64 = 0 := by simp at he hv hlt; omega
      rw [this]; simp at he hv hlt ⊢; omega
    · have ht : t.length = 1 := by omega
      rw [ht] at he hlt ⊢
      have : b.toNat / 64 = 1 := by simp at he hv hlt; omega
      rw [this]; simp at he hv hlt ⊢; omega
    · have ht : t.length = 3 := by omega
      rw [ht] at he hlt ⊢
      have : b.toNat / 64 = 2 := by simp at he hv hlt; omega
      rw [this]; simp at he hv hlt ⊢; omega
    · have ht : t.length = 7 := by omega
      rw [ht] at he hlt ⊢
      have : b.toNat / 64 = 3 := by simp at he hv hlt; omega
      rw [this]; simp at he hv hlt ⊢; omega
  · rintro ⟨hl, hv⟩
    refine ⟨b.toNat / 64, by omega, by rw [List.length_cons, hl], ?_⟩
    have hcases : b.toNat / 64 = 0 ∨ b.toNat / 64 = 1 ∨ b.toNat / 64 = 2 ∨ b.toNat / 64 = 3 := by omega
    rcases hcases with hp | hp | hp | hp
    · rw [hp] at hl ⊢
      have ht : t.length = 0 := by omega
      rw [ht] at hv hlt ⊢
      simp at hv hlt ⊢; omega
    · rw [hp] at hl ⊢
      have ht : t.length = 1 := by omega
      rw [ht] at hv hlt ⊢
      simp at hv hlt ⊢; omega
    · rw [hp] at hl ⊢
      have ht : t.length = 3 := by omega
      rw [ht] at hv hlt ⊢
      simp at hv hlt ⊢; omega
    · rw [hp] at hl ⊢
      have ht : t.length = 7 := by omega
      rw [ht] at hv hlt ⊢
      simp at hv hlt ⊢; omega

theorem varint_ne_nil {v : Nat} : ¬ Quic.Varint [] v := by
  rintro ⟨p, -, hl, -⟩
  have := Nat.pow_pos (n := p) (show 0 < 2 by omega)
  simp only [List.length_nil] at hl
  omega

theorem varintLength_cons (b : UInt8) (t : Buf) : varintLength (b :: t) = .ok (2 ^ (b.toNat / 64)) := by
  have : varintLength (b :: t) = .ok (1 <<< (b.toNat >>> 6)) := rfl
  rw [this, Nat.one_shiftLeft, Nat.shiftRight_eq_div_pow]

/-- `varint_length` and `varint` on an encoding. -/
theorem varint_enc {bs : Buf} {v : Nat} (h : Quic.Varint bs v) (tail : Buf) :
    varintLength (bs ++ tail) = .ok bs.length ∧ varint (bs.map (·.toNat)) = .ok v := by
  cases bs with
  | nil => exact (varint_ne_nil h).elim
  | cons b t =>
    obtain ⟨h1, h2⟩ := (varint_cons_iff b t v).mp h
    have hb := b.toNat_lt
    have hle : 2 ^ (b.toNat / 64) ≤ 2 ^ 3 := Nat.pow_le_pow_right (by omega) (by omega)
    refine ⟨by rw [List.cons_append, varintLength_cons, List.length_cons, h1], ?_⟩
    simp only [List.map_cons, varint, Except.ok.injEq]
    have hand : b.toNat &&& 0x3f = b.toNat % 64 := Nat.and_two_pow_sub_one_eq_mod b.toNat 6
    rw [hand, varint_foldl_eq, foldl_be, h2]
    · rw [List.length_map]
      have : (2 : Nat) ^ 6 ≤ 2 ^ (64 - 8 * t.length) := Nat.pow_le_pow_right (by omega) (by omega)
      omega
    · rw [List.length_map]; omega
    · intro x hx
      obtain ⟨c, -, rfl⟩ := List.mem_map.mp hx
      exact c.toNat_lt

/-- A prefix of the announced size is an encoding. -/
theorem varint_take {rest : Buf} {n : Nat} (h : varintLength rest = .ok n) (hn : n ≤ rest.length) :
    ∃ v, Quic.Varint (rest.take n) v := by
  cases rest with
  | nil => simp [varintLength, index] at h
  | cons b t =>
    rw [varintLength_cons] at h
    cases h
    have hp : 0 < 2 ^ (b.toNat / 64) := Nat.pow_pos (by omega)
    obtain ⟨k, hk⟩ : ∃ k, 2 ^ (b.toNat / 64) = k + 1 := ⟨2 ^ (b.toNat / 64) - 1, by omega⟩
    rw [hk] at hn ⊢
    rw [List.take_succ_cons]
    refine ⟨_, (varint_cons_iff _ _ _).mpr ⟨?_, rfl⟩⟩
    simp only [List.length_cons] at hn
    rw [List.length_take, hk]; omega

theorem drop_eq_append {rest : Buf} {n : Nat} (h : n ≤ rest.length) :
    rest = rest.take n ++ rest.drop n ∧ (rest.take n).length = n :=
  ⟨(List.take_append_drop n rest).symm, by rw [List.length_take]; omega⟩

/-- `n_varints` accepts exactly `n` consecutive encodings. -/
theorem nVarints_iff (n : Nat) (rest : Buf) (k : Nat) : nVarints n rest = .ok k ↔
    ∃ (rs : List Buf) (t : Buf), rs.length = n ∧ (∀ r ∈ rs, ∃ v, Quic.Varint r v) ∧
      rest = rs.flatten ++ t ∧ k = rs.flatten.length := by
  induction n generalizing rest k with
  | zero =>
    rw [nVarints]
    constructor
    · intro h; cases h; exact ⟨[], rest, rfl, by simp, by simp, rfl⟩
    · rintro ⟨rs, t, h1, -, -, h4⟩
      rw [List.length_eq_zero_iff] at h1
      subst h1; rw [h4]; rfl
  | succ n ih =>
    constructor
    · intro h
      have hle := (nVarints_le h).1
      simp only [nVarints, bind_eq_ok, Except.ok.injEq] at h
      obtain ⟨b, hb, rest', hr, l, hl, rfl⟩ := h
      have hlen : varintLength rest = .ok (1 <<< (b.toNat >>> 6)) := by rw [varintLength, hb]; rfl
      have hn : 1 <<< (b.toNat >>> 6) ≤ rest.length := by omega
      rw [sliceFrom, if_pos hn] at hr
      cases hr
      obtain ⟨v, hv⟩ := varint_take hlen hn
      obtain ⟨rs, t, h1, h2, h3, h4⟩ := (ih _ _).mp hl
      refine ⟨rest.take (1 <<< (b.toNat >>> 6)) :: rs, t, by simp [h1], ?_, ?_, ?_⟩
      · intro r hr
        rcases List.mem_cons.mp hr with rfl | hr
        · exact ⟨v, hv⟩
        · exact h2 r hr
      · rw [List.flatten_cons, List.append_assoc, ← h3, List.take_append_drop]
      · rw [List.flatten_cons, List.length_append, h4, (drop_eq_append hn).2]
    · rintro ⟨rs, t, h1, h2, h3, h4⟩
      cases rs with
      | nil => simp at h1
      | cons r rs =>
        obtain ⟨v, hv⟩ := h2 r (by simp)
        obtain ⟨hl, -⟩ := varint_enc hv (rs.flatten ++ t)
        have hrest : rest = r ++ (rs.flatten ++ t) := by
          rw [h3, List.flatten_cons, List.append_assoc]
        rw [← hrest, varintLength, bind_eq_ok] at hl
        obtain ⟨b, hb, hl⟩ := hl
        simp only [Except.ok.injEq] at hl
        have hsl : sliceFrom rest r.length = .ok (rs.flatten ++ t) := by
          rw [sliceFrom, if_pos (by rw [hrest]; simp), hrest, List.drop_left]
        rw [nVarints, hb, ok_bind, hl]
        simp only
        rw [hsl, ok_bind, (ih _ _).mpr ⟨rs, t, by simpa using h1, fun r hr => h2 r (by simp [hr]), rfl, rfl⟩,
          ok_bind, h4, List.flatten_cons, List.length_append]

/-! ## Scanning the parts of a frame -/

/-- The scan succeeds and leaves `t`. -/
def Reads (m : Mode) (is : List Item) (vals : List Val) (rest t : Buf) : Prop :=
  ∃ vals', scan m is vals rest = some (vals', t)

/-- `rest` starts with the given parts, and `t` follows. -/
def Body (r : Nat) (ps : List Quic.Part) (rest t : Buf) : Prop :=
  ∃ body, Quic.PartsEnc r ps body ∧ rest = body ++ t

/-- The value of a field of type `Vec<u8>`. -/
abbrev bytesVal (bs : Buf) : Val := .nums (bs.map (·.toNat))

theorem reads_nil (m : Mode) (vals : List Val) (rest t : Buf) : Reads m [] vals rest t ↔ rest = t := by
  simp [Reads, scan]

theorem reads_some {m : Mode} {it : Item} {e : LenExpr} (he : it.len = some e) (is : List Item)
    (vals : List Val) (rest t : Buf) :
    Reads m (it :: is) vals rest t ↔ ∃ bs t', rest = bs ++ t' ∧
      e m (env vals) (.ok rest) = .ok bs.length ∧ Reads m is (vals ++ [bytesVal bs]) t' t := by
  unfold Reads
  constructor
  · rintro ⟨vals', h⟩
    unfold scan at h
    rw [he] at h
    simp only at h
    cases hn : e m (env vals) (.ok rest) with
    | error x => rw [hn] at h; simp at h
    | ok n =>
      rw [hn] at h
      simp only at h
      by_cases hle : n ≤ rest.length
      · rw [if_pos hle] at h
        exact ⟨rest.take n, rest.drop n, (drop_eq_append hle).1, by rw [(drop_eq_append hle).2], vals', h⟩
      · rw [if_neg hle] at h; simp at h
  · rintro ⟨bs, t', h1, h2, vals', h3⟩
    refine ⟨vals', ?_⟩
    unfold scan
    rw [he]
    simp only [h2]
    rw [if_pos (by rw [h1]; simp), h1, List.take_left, List.drop_left]
    exact h3

theorem reads_u8 (m : Mode) (is : List Item) (vals : List Val) (rest t : Buf) :
    Reads m (.u8 :: is) vals rest t ↔ ∃ b t', rest = b :: t' ∧
      Reads m is (vals ++ [.num b.toNat]) t' t := by
  unfold Reads
  constructor
  · rintro ⟨vals', h⟩
    unfold scan at h
    simp only [Item.len] at h
    cases rest with
    | nil => simp at h
    | cons b t' => exact ⟨b, t', rfl, vals', h⟩
  · rintro ⟨b, t', rfl, vals', h⟩
    exact ⟨vals', by unfold scan; simpa only [Item.len] using h⟩

theorem reads_vi (m : Mode) (is : List Item) (vals : List Val) (rest t : Buf) :
    Reads m (.vi :: is) vals rest t ↔ ∃ bs v t', Quic.Varint bs v ∧ rest = bs ++ t' ∧
      Reads m is (vals ++ [bytesVal bs]) t' t := by
  rw [reads_some rfl]
  constructor
  · rintro ⟨bs, t', h1, h2, h3⟩
    simp only [lenVarintLength, ok_bind] at h2
    obtain ⟨v, hv⟩ := varint_take h2 (by rw [h1]; simp)
    rw [h1, List.take_left] at hv
    exact ⟨bs, v, t', hv, h1, h3⟩
  · rintro ⟨bs, v, t', hv, h1, h3⟩
    refine ⟨bs, t', h1, ?_, h3⟩
    simp only [lenVarintLength, ok_bind]
    rw [h1]; exact (varint_enc hv t').1

theorem reads_len {m : Mode} {it : Item} {e : LenExpr} (he : it.len = some e) (is : List Item)
    {vals : List Val} {n : Nat} {rest : Buf} (hn : e m (env vals) (.ok rest) = .ok n) (t : Buf) :
    Reads m (it :: is) vals rest t ↔ ∃ bs t', bs.length = n ∧ rest = bs ++ t' ∧
      Reads m is (vals ++ [bytesVal bs]) t' t := by
  rw [reads_some he, hn]
  constructor
  · rintro ⟨bs, t', h1, h2, h3⟩; cases h2; exact ⟨bs, t', rfl, h1, h3⟩
  · rintro ⟨bs, t', h2, h1, h3⟩; exact ⟨bs, t', h1, by rw [h2], h3⟩

theorem reads_count {m : Mode} {it : Item} {e : LenExpr} (he : it.len = some e) (is : List Item)
    {vals : List Val} {n : Nat} {rest : Buf} (hn : e m (env vals) (.ok rest) = nVarints n rest) (t : Buf) :
    Reads m (it :: is) vals rest t ↔ ∃ (rs : List Buf) (t' : Buf), rs.length = n ∧
      (∀ r ∈ rs, ∃ v, Quic.Varint r v) ∧ rest = rs.flatten ++ t' ∧
      Reads m is (vals ++ [bytesVal rs.flatten]) t' t := by
  rw [reads_some he, hn]
  constructor
  · rintro ⟨bs, t', h1, h2, h3⟩
    obtain ⟨rs, t2, h4, h5, h6, h7⟩ := (nVarints_iff _ _ _).mp h2
    have := List.append_inj (h1.symm.trans h6) h7
    obtain ⟨rfl, rfl⟩ := this
    exact ⟨rs, t', h4, h5, h6, h3⟩
  · rintro ⟨rs, t', h4, h5, h6, h3⟩
    exact ⟨rs.flatten, t', h6, (nVarints_iff _ _ _).mpr ⟨rs, t', h4, h5, h6, rfl⟩, h3⟩

theorem body_nil (r : Nat) (rest t : Buf) : Body r [] rest t ↔ rest = t := by
  constructor
  · rintro ⟨_, ⟨⟩, rfl⟩; rfl
  · rintro rfl; exact ⟨[], .nil, rfl⟩

theorem body_cons (r : Nat) (p : Quic.Part) (ps : List Quic.Part) (rest t : Buf) :
    Body r (p :: ps) rest t ↔ ∃ bs t', Quic.PartEnc r p bs ∧ rest = bs ++ t' ∧ Body r ps t' t := by
  constructor
  · rintro ⟨body, h, rfl⟩
    cases h with
    | cons h1 h2 => exact ⟨_, _, h1, List.append_assoc .., _, h2, rfl⟩
  · rintro ⟨bs, t', h1, rfl, body, h2, rfl⟩
    exact ⟨_, .cons h1 h2, (List.append_assoc ..).symm⟩

theorem step_int {m : Mode} {r : Nat} {is : List Item} {vals : List Val} {rest t : Buf}
    {ps : List Quic.Part}
    (h : ∀ bs v t', Quic.Varint bs v →
      (Reads m is (vals ++ [bytesVal bs]) t' t ↔ Body r ps t' t)) :
    Reads m (.vi :: is) vals rest t ↔ Body r (.int :: ps) rest t := by
  rw [reads_vi, body_cons]
  constructor
  · rintro ⟨bs, v, t', hv, h1, h2⟩
    exact ⟨bs, t', .int hv, h1, (h bs v t' hv).mp h2⟩
  · rintro ⟨bs, t', hp, h1, h2⟩
    cases hp with
    | int hv => exact ⟨bs, _, t', hv, h1, (h bs _ t' hv).mpr h2⟩

theorem env_snoc (vals : List Val) (v : Val) : env (vals ++ [v]) vals.length = .ok v := by
  simp [env]

theorem step_blob {m : Mode} {r : Nat} {is : List Item} {vals : List Val} {rest t : Buf}
    {ps : List Quic.Part} {j : Nat} (hj : vals.length = j)
    (h : ∀ l bs t', (Reads m is (vals ++ [bytesVal l] ++ [bytesVal bs]) t' t ↔ Body r ps t' t)) :
    Reads m (.vi :: .viBytes j :: is) vals rest t ↔ Body r (.blob :: ps) rest t := by
  subst hj
  rw [reads_vi, body_cons]
  have hlen : ∀ l v (rest' : Buf), Quic.Varint l v →
      lenVarint vals.length m (env (vals ++ [bytesVal l])) (.ok rest') = .ok v := by
    intro l v rest' hv
    rw [lenVarint, env_snoc]; exact (varint_enc hv []).2
  constructor
  · rintro ⟨l, v, t', hv, h1, h2⟩
    rw [reads_len rfl is (hlen l v t' hv)] at h2
    obtain ⟨bs, t'', hb, h2, h3⟩ := h2
    subst hb
    exact ⟨l ++ bs, t'', .blob hv, by rw [h1, h2, List.append_assoc], (h l bs t'').mp h3⟩
  · rintro ⟨_, t', hp, h1, h2⟩
    cases hp with
    | @blob l bs hv =>
      refine ⟨l, _, bs ++ t', hv, by rw [h1, List.append_assoc], ?_⟩
      rw [reads_len rfl is (hlen l _ _ hv)]
      exact ⟨bs, t', rfl, rfl, (h l bs t').mpr h2⟩

theorem step_bytes {m : Mode} {r : Nat} {is : List Item} {vals : List Val} {rest t : Buf}
    {ps : List Quic.Part} {n : Nat}
    (h : ∀ bs t', (Reads m is (vals ++ [bytesVal bs]) t' t ↔ Body r ps t' t)) :
    Reads m (.const n :: is) vals rest t ↔ Body r (.bytes n :: ps) rest t := by
  rw [reads_len rfl is (n := n) rfl, body_cons]
  constructor
  · rintro ⟨bs, t', h1, h2, h3⟩
    subst h1
    exact ⟨bs, t', .bytes, h2, (h bs t').mp h3⟩
  · rintro ⟨bs, t', hp, h1, h2⟩
    cases hp with
    | bytes => exact ⟨bs, t', rfl, h1, (h bs t').mpr h2⟩

theorem step_cid {m : Mode} {r : Nat} {is : List Item} {vals : List Val} {rest t : Buf}
    {ps : List Quic.Part} {j : Nat} (hj : vals.length = j)
    (h : ∀ n bs t', (Reads m is (vals ++ [.num n] ++ [bytesVal bs]) t' t ↔ Body r ps t' t)) :
    Reads m (.u8 :: .u8Bytes j :: is) vals rest t ↔ Body r (.cid :: ps) rest t := by
  subst hj
  rw [reads_u8, body_cons]
  have hlen : ∀ n (rest' : Buf),
      lenU8 vals.length m (env (vals ++ [.num n])) (.ok rest') = .ok n := by
    intro n rest'
    rw [lenU8, lenNum, env_snoc]; rfl
  constructor
  · rintro ⟨b, t', h1, h2⟩
    rw [reads_len rfl is (hlen b.toNat t')] at h2
    obtain ⟨bs, t'', hb, h2, h3⟩ := h2
    exact ⟨b :: bs, t'', .cid hb.symm, by rw [h1, h2]; rfl, (h _ bs t'').mp h3⟩
  · rintro ⟨_, t', hp, h1, h2⟩
    cases hp with
    | @cid b bs hb =>
      refine ⟨b, bs ++ t', by rw [h1]; rfl, ?_⟩
      rw [reads_len rfl is (hlen _ _)]
      exact ⟨bs, t', hb.symm, rfl, (h _ bs t').mpr h2⟩

/-- A length expression counting the integers of a field. -/
def Counts (m : Mode) (it : Item) (vals : List Val) (n : Nat) : Prop :=
  ∃ e, it.len = some e ∧ ∀ rest, e m (env vals) (.ok rest) = nVarints n rest

theorem step_none {m : Mode} {r : Nat} {it : Item} {is : List Item} {vals : List Val} {rest t : Buf}
    {ps : List Quic.Part} (hc : Counts m it vals 0)
    (h : Reads m is (vals ++ [bytesVal []]) rest t ↔ Body r ps rest t) :
    Reads m (it :: is) vals rest t ↔ Body r ps rest t := by
  obtain ⟨e, he, hc⟩ := hc
  rw [reads_count he is (hc rest)]
  constructor
  · rintro ⟨rs, t', h1, -, h2, h3⟩
    rw [List.length_eq_zero_iff] at h1
    subst h1
    subst h2
    exact h.mp h3
  · intro hb
    exact ⟨[], rest, rfl, by simp, rfl, h.mpr hb⟩

theorem reads_one {m : Mode} {it : Item} {is : List Item} {vals : List Val} {rest t : Buf}
    (hc : Counts m it vals 1) :
    Reads m (it :: is) vals rest t ↔ Reads m (.vi :: is) vals rest t := by
  obtain ⟨e, he, hc⟩ := hc
  rw [reads_count he is (hc rest), reads_vi]
  constructor
  · rintro ⟨rs, t', h1, h2, h3, h4⟩
    obtain ⟨r, rfl⟩ := List.length_eq_one_iff.mp h1
    obtain ⟨v, hv⟩ := h2 r (by simp)
    exact ⟨r, v, t', hv, by simpa using h3, by simpa using h4⟩
  · rintro ⟨bs, v, t', hv, h1, h2⟩
    exact ⟨[bs], t', rfl, by simpa using ⟨v, hv⟩, by simpa using h1, by simpa using h2⟩

/-- Three integers in one field. -/
theorem step_three {m : Mode} {r : Nat} {it : Item} {vals : List Val} {rest t : Buf}
    (hc : Counts m it vals 3) :
    Reads m [it] vals rest t ↔ Body r [.int, .int, .int] rest t := by
  obtain ⟨e, he, hc⟩ := hc
  rw [reads_count he [] (hc rest)]
  simp only [reads_nil, body_cons, body_nil]
  constructor
  · rintro ⟨rs, t', h1, h2, h3, rfl⟩
    match rs, h1 with
    | [a, b, c], _ =>
      obtain ⟨x, hx⟩ := h2 a (by simp)
      obtain ⟨y, hy⟩ := h2 b (by simp)
      obtain ⟨z, hz⟩ := h2 c (by simp)
      exact ⟨a, b ++ (c ++ t'), .int hx, by simpa using h3, b, c ++ t', .int hy, rfl, c, t', .int hz, rfl, rfl⟩
  · rintro ⟨a, t1, ⟨hx⟩, rfl, b, t2, ⟨hy⟩, rfl, c, t3, ⟨hz⟩, rfl, rfl⟩
    refine ⟨[a, b, c], t3, rfl, ?_, by simp, rfl⟩
    intro r hr
    simp only [List.mem_cons, List.not_mem_nil, or_false] at hr
    rcases hr with rfl | rfl | rfl
    · exact ⟨_, hx⟩
    · exact ⟨_, hy⟩
    · exact ⟨_, hz⟩

/-- Range count, first range and ranges as the code reads them: one integer per range. -/
theorem step_ranges {m : Mode} {is : List Item} {vals : List Val} {rest t : Buf}
    {ps : List Quic.Part} {j : Nat} (hj : vals.length = j)
    (h : ∀ a b c t', (Reads m is (vals ++ [bytesVal a] ++ [bytesVal b] ++ [bytesVal c]) t' t ↔
      Body 1 ps t' t)) :
    Reads m (.vi :: .vi :: .nviOf j :: is) vals rest t ↔ Body 1 (.ranges :: ps) rest t := by
  subst hj
  rw [reads_vi, body_cons]
  have hlen : ∀ l b v (rest' : Buf), Quic.Varint l v →
      lenNVarintsOf vals.length m (env (vals ++ [bytesVal l] ++ [b])) (.ok rest') = nVarints v rest' := by
    intro l b v rest' hv
    have : env (vals ++ [bytesVal l] ++ [b]) vals.length = .ok (bytesVal l) := by simp [env]
    rw [lenNVarintsOf, this]
    simp only [ok_bind, Val.asNums, (varint_enc hv []).2]
  constructor
  · rintro ⟨l, n, t1, hl, h1, h2⟩
    rw [reads_vi] at h2
    obtain ⟨f, v, t2, hf, h2, h3⟩ := h2
    rw [reads_count rfl is (hlen l _ n t2 hl)] at h3
    obtain ⟨rs, t3, h4, h5, h6, h7⟩ := h3
    refine ⟨l ++ f ++ rs.flatten, t3, .ranges hl hf (by omega) h5, ?_, (h _ _ _ t3).mp h7⟩
    rw [h1, h2, h6]; simp only [List.append_assoc]
  · rintro ⟨_, t', hp, h1, h2⟩
    cases hp with
    | @ranges l f n v rs hl hf hn hrs =>
      refine ⟨l, n, f ++ (rs.flatten ++ t'), hl, by rw [h1]; simp only [List.append_assoc], ?_⟩
      rw [reads_vi]
      refine ⟨f, v, rs.flatten ++ t', hf, rfl, ?_⟩
      rw [reads_count rfl is (hlen l _ n _ hl)]
      exact ⟨rs, t', by omega, hrs, rfl, (h _ _ _ t').mpr h2⟩

/-- Stream data without a length. -/
theorem step_toEnd {m : Mode} {r : Nat} {vals : List Val} {rest t : Buf} {j : Nat}
    (hj : env vals j = .ok (bytesVal [])) :
    Reads m [.stream j] vals rest t ↔ Body r [.toEnd] rest t ∧ t = [] := by
  have hlen : lenStreamData j m (env vals) (.ok rest) = .ok rest.length := by
    rw [lenStreamData, hj]; rfl
  rw [reads_len rfl [] hlen]
  simp only [reads_nil, body_cons, body_nil]
  constructor
  · rintro ⟨bs, t', h1, h2, rfl⟩
    have ht : t' = [] := by
      have := congrArg List.length h2
      rw [List.length_append] at this
      exact List.length_eq_zero_iff.mp (by omega)
    exact ⟨⟨bs, t', .toEnd, h2, rfl⟩, ht⟩
  · rintro ⟨⟨bs, t', -, h2, h3⟩, rfl⟩
    subst h3
    exact ⟨bs, [], by rw [h2]; simp, h2, rfl⟩

/-- Stream data with a length. -/
theorem step_stream {m : Mode} {r : Nat} {it : Item} {vals : List Val} {rest t : Buf} {j : Nat}
    (hj : vals.length = j) (hc : Counts m it vals 1) :
    Reads m [it, .stream j] vals rest t ↔ Body r [.blob] rest t := by
  rw [reads_one hc]
  subst hj
  rw [reads_vi, body_cons]
  have hlen : ∀ l v (rest' : Buf), Quic.Varint l v →
      lenStreamData vals.length m (env (vals ++ [bytesVal l])) (.ok rest') = .ok v := by
    intro l v rest' hv
    rw [lenStreamData, env_snoc]
    simp only [ok_bind, Val.asNums]
    cases l with
    | nil => exact (varint_ne_nil hv).elim
    | cons b l => exact (varint_enc hv []).2
  constructor
  · rintro ⟨l, v, t', hv, h1, h2⟩
    rw [reads_len rfl [] (hlen l v t' hv), ] at h2
    obtain ⟨bs, t'', hb, h2, h3⟩ := h2
    subst hb
    rw [reads_nil] at h3
    exact ⟨l ++ bs, t'', .blob hv, by rw [h1, h2, List.append_assoc], (body_nil _ _ _).mpr h3⟩
  · rintro ⟨_, t', hp, h1, h2⟩
    cases hp with
    | @blob l bs hv =>
      refine ⟨l, _, bs ++ t', hv, by rw [h1, List.append_assoc], ?_⟩
      rw [reads_len rfl [] (hlen l _ _ hv)]
      exact ⟨bs, t', rfl, rfl, (reads_nil _ _ _ _).mpr ((body_nil _ _ _).mp h2)⟩

end Verif
