import Verif.Proofs.QuicLast

/-! Helper lemmas: the loop of `QuicPacket::new`. -/

namespace Verif
open Spec

theorem scan_suffix {m : Mode} {is : List Item} {vals : List Val} {rest : Buf} {x : List Val × Buf}
    (h : scan m is vals rest = some x) : x.2 <:+ rest := by
  induction is generalizing vals rest with
  | nil => simp only [scan, Option.some.injEq] at h; rw [← h]; exact List.suffix_refl _
  | cons it is ih =>
    cases he : it.len with
    | none =>
      rw [scan.eq_def] at h
      simp only [he] at h
      cases rest with
      | nil => simp at h
      | cons b t => exact (ih h).trans (List.suffix_cons _ _)
    | some e =>
      obtain ⟨bs, t, h1, -, h3⟩ := scan_bytes_inv he h
      rw [h1]
      exact (ih h3).trans (List.suffix_append _ _)

theorem suffix_drop {a b : Buf} {n : Nat} (h : a <:+ b) (hn : a.length + n ≤ b.length) : a <:+ b.drop n :=
  List.suffix_of_suffix_length_le h (List.drop_suffix _ _) (by rw [List.length_drop]; omega)

/-- The bytes after a packet start after its fixed fields. -/
theorem remaining_suffix {k : QuicKind} (m : Mode) (buf : Buf) (hmin : k.decl.minSize ≤ buf.length)
    (hsl : SliceLen buf.length) {r : Buf} (h : QuicPacket.remaining m ⟨k, buf⟩ = .ok r) :
    r <:+ buf.drop 7 := by
  cases hk : k.long with
  | false =>
    rw [remaining_last hk] at h
    cases h
    exact List.nil_suffix
  | true =>
    have hmin7 : 7 ≤ buf.length := by
      rw [quic_minSize] at hmin; cases k <;> first | exact hmin | cases hk
    rw [remaining_long k hk m buf hmin7 hsl] at h
    cases hs : scan m k.items (k.head.map (·.read buf)) (buf.drop 5) with
    | none => rw [hs] at h; simp at h
    | some x =>
      rw [hs] at h
      simp only at h
      have h1 := tailRest_suffix h
      have h1' := h1.trans (List.drop_suffix _ _)
      have h2 : x.2 <:+ (buf.drop 5).drop 2 := by
        have hit : ∃ is, k.items = .u8 :: .u8Bytes 6 :: .u8 :: .u8Bytes 8 :: is ∧ k.head = longSlots := by
          cases k <;> first | exact ⟨_, rfl, rfl⟩ | cases hk
        obtain ⟨is, e1, e2⟩ := hit
        rw [e1, e2] at hs
        obtain ⟨l1, d, t1, -, ht, hs⟩ := scan_cid_inv (j := 6) rfl hs
        obtain ⟨l2, s, t2, -, ht1, hs⟩ := scan_cid_inv (j := 8) rfl hs
        have h3 := scan_suffix hs
        have h4 := h3.length_le
        refine suffix_drop (h3.trans ?_) ?_
        · rw [ht, ht1]
          refine List.IsSuffix.trans ?_ (List.suffix_cons _ _)
          refine List.IsSuffix.trans ?_ (List.suffix_append _ _)
          exact (List.suffix_append _ _).trans (List.suffix_cons _ _)
        · rw [ht, ht1]; simp only [List.length_cons, List.length_append]; omega
      rw [List.drop_drop] at h2
      exact h1'.trans h2

theorem split5 {buf : Buf} (h : ¬ buf.length < 5) : ∃ b v t, buf = b :: (v ++ t) ∧ v.length = 4 := by
  cases buf with
  | nil => simp at h
  | cons b t =>
    refine ⟨b, t.take 4, t.drop 4, by rw [List.take_append_drop], ?_⟩
    simp only [List.length_cons] at h
    rw [List.length_take]; omega

theorem loop_fuel (m : Mode) (n : Nat) : ∀ (buf : Buf), buf.length ≤ n → SliceLen buf.length →
    ∀ f f', buf.length ≤ f → buf.length ≤ f' → QuicPacket.loop m f buf = QuicPacket.loop m f' buf := by
  induction n with
  | zero =>
    intro buf hn _ f f' hf hf'
    have : buf = [] := List.length_eq_zero_iff.mp (by omega)
    subst this
    cases f <;> cases f' <;> rfl
  | succ n ih =>
    intro buf hn hsl f f' hf hf'
    by_cases h0 : buf = []
    · subst h0
      cases f <;> cases f' <;> rfl
    have hpos := List.length_pos_iff.mpr h0
    obtain ⟨f, rfl⟩ : ∃ g, f = g + 1 := ⟨f - 1, by omega⟩
    obtain ⟨f', rfl⟩ : ∃ g, f' = g + 1 := ⟨f' - 1, by omega⟩
    by_cases h5 : buf.length < 5
    · rw [loop_short m f h0 h5, loop_short m f' h0 h5]
    · obtain ⟨b, v, t, rfl, hv⟩ := split5 h5
      rw [loop_step m f b t hv, loop_step m f' b t hv]
      cases hk : kindOf b v with
      | none => rfl
      | some k =>
        simp only
        by_cases hm : k.decl.minSize ≤ t.length + 5
        · rw [if_pos hm, if_pos hm]
          cases hr : QuicPacket.remaining m ⟨k, b :: (v ++ t)⟩ with
          | error e => rfl
          | ok r =>
            have hs := remaining_suffix m _ (by simpa [hv, Nat.add_comm 4, Nat.add_assoc] using hm) hsl hr
            have hl := hs.length_le
            rw [List.length_drop] at hl
            rw [ok_bind, ok_bind]
            unfold SliceLen at hsl
            rw [ih r (by omega) (by unfold SliceLen; omega) f f' (by omega) (by omega)]
        · rw [if_neg hm, if_neg hm]

theorem new_nil (m : Mode) : QuicPacket.new m [] = .ok (some []) := rfl

theorem new_short (m : Mode) {buf : Buf} (h0 : buf ≠ []) (h : buf.length < 5) :
    QuicPacket.new m buf = .ok none := by
  have hpos := List.length_pos_iff.mpr h0
  obtain ⟨f, hf⟩ : ∃ g, buf.length = g + 1 := ⟨buf.length - 1, by omega⟩
  rw [QuicPacket.new, hf, loop_short m f h0 h]

/-- One packet at a time. -/
theorem new_step (m : Mode) (b : UInt8) {v : Buf} (t : Buf) (hv : v.length = 4)
    (hsl : SliceLen (b :: (v ++ t)).length) :
    QuicPacket.new m (b :: (v ++ t)) =
      match kindOf b v with
      | none => .ok none
      | some k =>
        if k.decl.minSize ≤ t.length + 5 then
          QuicPacket.remaining m ⟨k, b :: (v ++ t)⟩ >>= fun r =>
            QuicPacket.new m r >>= fun
              | none => .ok none
              | some qs => .ok (some (⟨k, b :: (v ++ t)⟩ :: qs))
        else .ok none := by
  rw [QuicPacket.new, List.length_cons, loop_step m _ b t hv]
  cases hk : kindOf b v with
  | none => rfl
  | some k =>
    simp only
    by_cases hm : k.decl.minSize ≤ t.length + 5
    · rw [if_pos hm, if_pos hm]
      cases hr : QuicPacket.remaining m ⟨k, b :: (v ++ t)⟩ with
      | error e => rfl
      | ok r =>
        have hs := remaining_suffix m _ (by simpa [hv, Nat.add_comm 4, Nat.add_assoc] using hm) hsl hr
        have hl := hs.length_le
        rw [List.length_drop, List.length_cons] at hl
        rw [ok_bind, ok_bind]
        unfold SliceLen at hsl
        rw [List.length_cons] at hsl
        rw [QuicPacket.new, loop_fuel m r.length r (Nat.le_refl _) (by unfold SliceLen; omega) _ r.length
          (by omega) (Nat.le_refl _)]
        rfl
    · rw [if_neg hm, if_neg hm]

/-- A packet with a Length field is split off. -/
theorem new_long (m : Mode) {p : Quic.Packet} {bs : Buf} (h : Quic.LongEnc p bs) (rest : Buf)
    (hsl : SliceLen (bs ++ rest).length) :
    QuicPacket.new m (bs ++ rest) = QuicPacket.new m rest >>= (fun
      | none => .ok none
      | some qs => .ok (some (⟨Quic.kind p, bs ++ rest⟩ :: qs))) ∧
    Quic.Shows m ⟨Quic.kind p, bs ++ rest⟩ p := by
  obtain ⟨b, v, t, hbs, hv, ht, hk, hl, hf⟩ := long_facts h
  obtain ⟨hr, hsh⟩ := hf m rest hsl
  refine ⟨?_, hsh⟩
  have hbuf : bs ++ rest = b :: (v ++ (t ++ rest)) := by rw [hbs]; simp
  have hmin : (Quic.kind p).decl.minSize ≤ (t ++ rest).length + 5 := by
    rw [quic_minSize, List.length_append]
    split <;> omega
  rw [hbuf] at hsl hr ⊢
  rw [new_step m b _ hv hsl, hk]
  simp only
  rw [if_pos hmin, hr, ok_bind]

theorem new_last (m : Mode) {p : Quic.Packet} {bs : Buf} (h : Quic.LastEnc p bs)
    (hsl : SliceLen bs.length) :
    QuicPacket.new m bs = .ok (some [⟨Quic.kind p, bs⟩]) ∧ Quic.Shows m ⟨Quic.kind p, bs⟩ p := by
  obtain ⟨b, v, t, hbs, hv, ht, hk, hl, hf⟩ := last_facts h
  refine ⟨?_, hf m hsl⟩
  rw [hbs] at hsl ⊢
  rw [new_step m b _ hv hsl, hk]
  simp only
  rw [if_pos ht, remaining_last hl, ok_bind, new_nil]
  rfl

/-- The reported packets. -/
structure Reported (buf : Buf) (qs : List QuicPacket) : Prop where
  kinds : ∀ q ∈ qs, ∃ b v t, q.buf = b :: (v ++ t) ∧ v.length = 4 ∧ kindOf b v = some q.kind ∧
    q.kind.decl.minSize ≤ q.buf.length
  inside : ∀ q ∈ qs, q.buf <:+ buf
  apart : qs.Pairwise fun q q' => q'.buf <:+ q.buf.drop 7
  head : ∀ q, qs.head? = some q → q.buf = buf

theorem new_reported (m : Mode) (n : Nat) : ∀ (buf : Buf), buf.length ≤ n → SliceLen buf.length →
    QuicPacket.new m buf ≠ .error .hang ∧
    ∀ qs, QuicPacket.new m buf = .ok (some qs) → Reported buf qs := by
  induction n with
  | zero =>
    intro buf hn _
    have : buf = [] := List.length_eq_zero_iff.mp (by omega)
    subst this
    refine ⟨by rw [new_nil]; simp, fun qs h => ?_⟩
    rw [new_nil] at h
    cases h
    exact ⟨by simp, by simp, .nil, by simp⟩
  | succ n ih =>
    intro buf hn hsl
    by_cases h0 : buf = []
    · subst h0; exact ih [] (by simp) hsl
    by_cases h5 : buf.length < 5
    · rw [new_short m h0 h5]
      exact ⟨by simp, fun qs h => by cases h⟩
    obtain ⟨b, v, t, rfl, hv⟩ := split5 h5
    rw [new_step m b t hv hsl]
    cases hk : kindOf b v with
    | none => exact ⟨by simp, fun qs h => by cases h⟩
    | some k =>
      simp only
      by_cases hm : k.decl.minSize ≤ t.length + 5
      · rw [if_pos hm]
        have hmin : k.decl.minSize ≤ (b :: (v ++ t)).length := by
          simpa [hv, Nat.add_comm 4, Nat.add_assoc] using hm
        have hnh : NH (QuicPacket.remaining m ⟨k, b :: (v ++ t)⟩) := by
          cases hkl : k.long with
          | false => rw [remaining_last hkl]; exact NH.ok _
          | true =>
            have hmin7 : 7 ≤ (b :: (v ++ t)).length := by
              rw [quic_minSize] at hmin; cases k <;> first | exact hmin | cases hkl
            rw [remaining_long k hkl m _ hmin7 hsl]
            split
            · rw [tailRest]
              refine (varintLength_NH _).bind fun _ _ => ?_
              split
              · refine (varint_NH _).bind fun _ _ => ?_
                simp only
                split
                · exact NH.panic
                · split
                  · exact NH.ok _
                  · exact NH.panic
              · exact NH.panic
            · exact NH.panic
        cases hr : QuicPacket.remaining m ⟨k, b :: (v ++ t)⟩ with
        | error e =>
          rw [hr] at hnh
          cases e with
          | hang => exact (hnh rfl).elim
          | panic => exact ⟨fun hc => (by cases hc), fun qs h => by cases h⟩
        | ok r =>
          have hs := remaining_suffix m _ hmin hsl hr
          have hl := hs.length_le
          rw [List.length_drop, List.length_cons] at hl
          have hsl' := hsl
          unfold SliceLen at hsl'
          rw [List.length_cons] at hsl' hn
          obtain ⟨i1, i2⟩ := ih r (by omega) (by unfold SliceLen; omega)
          rw [ok_bind]
          cases hq : QuicPacket.new m r with
          | error e => rw [hq] at i1; exact ⟨i1, fun qs h => by cases h⟩
          | ok o =>
            cases o with
            | none => exact ⟨by simp, fun qs h => by cases h⟩
            | some qs' =>
              refine ⟨by simp, fun qs h => ?_⟩
              cases h
              obtain ⟨j1, j2, j3, -⟩ := i2 qs' hq
              refine ⟨?_, ?_, ?_, ?_⟩
              · intro q hq
                rcases List.mem_cons.mp hq with rfl | hq
                · exact ⟨b, v, t, rfl, hv, hk, hmin⟩
                · exact j1 q hq
              · intro q hq
                rcases List.mem_cons.mp hq with rfl | hq
                · exact List.suffix_refl _
                · exact (j2 q hq).trans (hs.trans (List.drop_suffix _ _))
              · refine List.pairwise_cons.mpr ⟨fun q hq => (j2 q hq).trans hs, j3⟩
              · intro q hq; cases hq; rfl
      · rw [if_neg hm]
        exact ⟨by simp, fun qs h => by cases h⟩

/-- Well-formed datagrams. -/
theorem new_datagram (m : Mode) {ps : List Quic.Packet} {buf : Buf} (h : Quic.Datagram ps buf)
    (hsl : SliceLen buf.length) :
    ∃ qs, QuicPacket.new m buf = .ok (some qs) ∧ qs.length = ps.length ∧
      ∀ (i : Nat) (p : Quic.Packet) (q : QuicPacket), ps[i]? = some p → qs[i]? = some q →
        q.kind = Quic.kind p ∧ Quic.Shows m q p ∧
        ∃ bs, (Quic.LongEnc p bs ∨ Quic.LastEnc p bs) ∧ bs <+: q.buf := by
  induction h with
  | nil => exact ⟨[], rfl, rfl, by simp⟩
  | @last p bs hl =>
    obtain ⟨h1, h2⟩ := new_last m hl hsl
    refine ⟨_, h1, rfl, ?_⟩
    intro i p' q hp hq
    cases i with
    | zero => cases hp; cases hq; exact ⟨rfl, h2, bs, .inr hl, List.prefix_refl _⟩
    | succ i => simp at hp
  | @cons p bs ps rest hl _ ih =>
    obtain ⟨h1, h2⟩ := new_long m hl rest hsl
    have hsl' := hsl
    unfold SliceLen at hsl'
    rw [List.length_append] at hsl'
    obtain ⟨qs, h3, h4, h5⟩ := ih (by unfold SliceLen; omega)
    refine ⟨⟨Quic.kind p, bs ++ rest⟩ :: qs, by rw [h1, h3]; rfl, by simp [h4], ?_⟩
    intro i p' q hp hq
    cases i with
    | zero => cases hp; cases hq; exact ⟨rfl, h2, bs, .inl hl, List.prefix_append _ _⟩
    | succ i =>
      rw [List.getElem?_cons_succ] at hp hq
      exact h5 i p' q hp hq

/-! ## Panics -/

theorem first_long {b : UInt8} {v : Buf} {k : QuicKind} (hk : k.long = true) (h : kindOf b v = some k) :
    b.toNat / 64 = 3 ∧ b.toNat / 16 % 4 ≠ 3 ∧ v ≠ [0, 0, 0, 0] := by
  have hb := b.toNat_lt
  unfold kindOf at h
  split at h
  · cases h; cases hk
  · split at h
    · cases h; cases hk
    · rename_i h1 h2
      refine ⟨?_, ?_, h2⟩
      · split at h
        · cases h
        · omega
      · intro h3
        split at h
        · cases h
        · rw [if_neg (by omega), if_neg (by omega), if_neg (by omega)] at h
          cases h; cases hk

theorem broken_kind {b : UInt8} {v : Buf} (h1 : b.toNat / 64 = 3) (h2 : b.toNat / 16 % 4 ≠ 3)
    (h3 : v ≠ [0, 0, 0, 0]) : ∃ k, kindOf b v = some k ∧ k.long = true := by
  unfold kindOf
  rw [if_neg (by omega), if_neg h3, if_neg (by omega)]
  split
  · exact ⟨_, rfl, rfl⟩
  · split
    · exact ⟨_, rfl, rfl⟩
    · rw [if_pos (by omega)]; exact ⟨_, rfl, rfl⟩

theorem long_minSize {k : QuicKind} (hk : k.long = true) : k.decl.minSize = 7 := by
  rw [quic_minSize]; cases k <;> first | rfl | cases hk

theorem new_broken {buf : Buf} (h : Quic.Broken buf) (hsl : SliceLen buf.length) :
    QuicPacket.new .debug buf = panic := by
  obtain ⟨b, v, t, rfl, h1, h2, hv, h3, h4, h5⟩ := h
  obtain ⟨k, hk, hkl⟩ := broken_kind h1 h2 h3
  rw [new_step .debug b t hv hsl, hk]
  simp only
  rw [if_pos (by rw [long_minSize hkl]; omega)]
  cases hr : QuicPacket.remaining .debug ⟨k, b :: (v ++ t)⟩ with
  | ok r =>
    obtain ⟨p, bs, h6, h7⟩ := long_debug hv hkl hk h4 hsl hr
    exact (h5 ⟨p, bs, r, h6, h7⟩).elim
  | error e =>
    have hmin7 : 7 ≤ (b :: (v ++ t)).length := by simp [hv]; omega
    cases e with
    | panic => rfl
    | hang =>
      have := (new_reported .debug _ _ (Nat.le_refl _) hsl).1
      rw [new_step .debug b t hv hsl, hk] at this
      simp only at this
      rw [if_pos (by rw [long_minSize hkl]; omega), hr] at this
      exact (this rfl).elim

theorem new_panic_iff (n : Nat) : ∀ (buf : Buf), buf.length ≤ n → SliceLen buf.length →
    ((QuicPacket.new .debug buf = panic ↔ Quic.LongThen Quic.Broken buf) ∧
     (QuicPacket.new .debug buf ≠ panic → QuicPacket.new .release buf = QuicPacket.new .debug buf)) := by
  have hmp : ∀ buf : Buf, Quic.LongThen Quic.Broken buf → SliceLen buf.length →
      QuicPacket.new .debug buf = panic := by
    intro buf h
    induction h with
    | here hb => exact new_broken hb
    | @cons p bs rest hl _ ih =>
      intro hsl
      have hsl' := hsl
      unfold SliceLen at hsl'
      rw [List.length_append] at hsl'
      rw [(new_long .debug hl rest hsl).1, ih (by unfold SliceLen; omega)]
      rfl
  induction n with
  | zero =>
    intro buf hn hsl
    have : buf = [] := List.length_eq_zero_iff.mp (by omega)
    subst this
    refine ⟨⟨fun h => ?_, fun h => hmp _ h hsl⟩, fun _ => rfl⟩
    rw [new_nil] at h; simp at h
  | succ n ih =>
    intro buf hn hsl
    refine ⟨⟨?_, fun h => hmp _ h hsl⟩, ?_⟩
    all_goals
      intro h
      by_cases h0 : buf = []
      · subst h0
        first
          | rfl
          | (rw [new_nil] at h; simp at h; done)
      by_cases h5 : buf.length < 5
      · first
          | (rw [new_short _ h0 h5, new_short _ h0 h5]; done)
          | (rw [new_short _ h0 h5] at h; simp at h; done)
      obtain ⟨b, v, t, rfl, hv⟩ := split5 h5
    · -- a panic
      rw [new_step .debug b t hv hsl] at h
      cases hk : kindOf b v with
      | none => rw [hk] at h; simp at h
      | some k =>
        rw [hk] at h
        simp only at h
        by_cases hm : k.decl.minSize ≤ t.length + 5
        · rw [if_pos hm] at h
          cases hkl : k.long with
          | false => rw [remaining_last hkl, ok_bind, new_nil] at h; simp at h
          | true =>
            rw [long_minSize hkl] at hm
            obtain ⟨f1, f2, f3⟩ := first_long hkl hk
            by_cases hex : ∃ p bs more, Quic.LongEnc p bs ∧ b :: (v ++ t) = bs ++ more
            · obtain ⟨p, bs, more, hl, he⟩ := hex
              rw [he] at hsl hn ⊢
              refine .cons hl ?_
              have hsl' := hsl
              unfold SliceLen at hsl'
              rw [List.length_append] at hsl' hn
              obtain ⟨b', v', t', hbs, hv', -, hk', -, hf⟩ := long_facts hl
              have hpos : 0 < bs.length := by rw [hbs]; simp
              refine ((ih more (by omega) (by unfold SliceLen; omega)).1).mp ?_
              have hkp : k = Quic.kind p := by
                have hbb : b = b' ∧ v = v' := by
                  rw [hbs] at he
                  simp only [List.cons_append, List.append_assoc, List.cons.injEq] at he
                  refine ⟨he.1, (List.append_inj he.2 ?_).1⟩
                  rw [hv, hv']
                rw [hbb.1, hbb.2, hk'] at hk
                exact (Option.some.inj hk).symm
              have hr := (hf .debug more hsl).1
              rw [he, hkp, hr, ok_bind] at h
              cases hq : QuicPacket.new .debug more with
              | error e => rw [hq] at h; exact h
              | ok o => rw [hq] at h; cases o <;> simp at h
            · exact .here ⟨b, v, t, rfl, f1, f2, hv, f3, by omega, hex⟩
        · rw [if_neg hm] at h; simp at h
    · -- agreement of the modes
      rw [new_step .debug b t hv hsl] at h ⊢
      rw [new_step .release b t hv hsl]
      cases hk : kindOf b v with
      | none => rfl
      | some k =>
        rw [hk] at h
        simp only at h ⊢
        by_cases hm : k.decl.minSize ≤ t.length + 5
        · rw [if_pos hm] at h ⊢
          rw [if_pos hm]
          cases hkl : k.long with
          | false => rw [remaining_last hkl, remaining_last hkl]; rfl
          | true =>
            rw [long_minSize hkl] at hm
            cases hr : QuicPacket.remaining .debug ⟨k, b :: (v ++ t)⟩ with
            | error e =>
              rw [hr] at h
              cases e with
              | panic => exact (h rfl).elim
              | hang =>
                have := (new_reported .debug _ _ (Nat.le_refl _) hsl).1
                rw [new_step .debug b t hv hsl, hk] at this
                simp only at this
                rw [if_pos (by rw [long_minSize hkl]; omega), hr] at this
                exact (this rfl).elim
            | ok r =>
              obtain ⟨p, bs, hl, he⟩ := long_debug hv hkl hk (by omega) hsl hr
              rw [hr, ok_bind] at h
              rw [he] at hsl hn hr h ⊢
              obtain ⟨b', v', t', hbs, hv', -, hk', -, hf⟩ := long_facts hl
              have hkp : k = Quic.kind p := by
                have hbb : b = b' ∧ v = v' := by
                  rw [hbs] at he
                  simp only [List.cons_append, List.append_assoc, List.cons.injEq] at he
                  exact ⟨he.1, (List.append_inj he.2 (by rw [hv, hv'])).1⟩
                rw [hbb.1, hbb.2, hk'] at hk
                exact (Option.some.inj hk).symm
              have hr' := (hf .release r hsl).1
              have hsl' := hsl
              unfold SliceLen at hsl'
              rw [List.length_append] at hsl' hn
              have hpos : 0 < bs.length := by rw [hbs]; simp
              rw [hkp, hr', ok_bind, ok_bind,
                (ih r (by omega) (by unfold SliceLen; omega)).2 (fun hp => by rw [hp] at h; exact h rfl)]
        · rw [if_neg hm, if_neg hm]

end Verif
