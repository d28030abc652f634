import Verif.Proofs.QuicDisplay

/-! Helper lemmas: which datagrams `QuicPacket::new` accepts. -/

namespace Verif
open Spec Spec.Quic

theorem beNat_zero_iff {v : Buf} (hv : v.length = 4) : beNat v = 0 ↔ v = [0, 0, 0, 0] := by
  constructor
  · intro h0
    rw [← beBytes_beNat v, hv, h0]; rfl
  · intro h0; rw [h0]; rfl

theorem head_facts (b : UInt8) {v : Buf} (t : Buf) (hv : v.length = 4) :
    (ShortForm (b :: (v ++ t)) ↔ b.toNat / 128 = 0 ∧ b.toNat / 64 % 2 = 1) ∧
    bitsAt (b :: (v ++ t)) 1 1 = b.toNat / 64 % 2 ∧
    bitsAt (b :: (v ++ t)) 0 4 = b.toNat / 16 ∧
    (bitsAt (b :: (v ++ t)) 8 32 = 0 ↔ v = [0, 0, 0, 0]) := by
  have hb := b.toNat_lt
  have e1 : b.toNat / 2 ^ (8 - 0 - 1) % 2 ^ 1 = b.toNat / 128 := by
    simp only [Nat.reduceSub, Nat.reducePow]; omega
  have e2 : b.toNat / 2 ^ (8 - 1 - 1) % 2 ^ 1 = b.toNat / 64 % 2 := rfl
  have e4 : b.toNat / 2 ^ (8 - 0 - 4) % 2 ^ 4 = b.toNat / 16 := by
    simp only [Nat.reduceSub, Nat.reducePow]; omega
  refine ⟨?_, ?_, ?_, ?_⟩
  · rw [ShortForm, bitsAt_cons b _ (by omega), bitsAt_cons b _ (by omega), e1, e2]
  · rw [bitsAt_cons b _ (by omega), e2]
  · rw [bitsAt_cons b _ (by omega), e4]
  · rw [version_read b hv, beNat_zero_iff hv]

theorem kindOf_none {b : UInt8} {v : Buf} (h : kindOf b v = none) :
    ¬ (b.toNat / 128 = 0 ∧ b.toNat / 64 % 2 = 1) ∧ b.toNat / 64 % 2 = 0 ∧ v ≠ [0, 0, 0, 0] := by
  unfold kindOf at h
  split at h
  · cases h
  · split at h
    · cases h
    · split at h
      · rename_i h1 h2 h3; exact ⟨h1, h3, h2⟩
      · split at h
        · cases h
        · split at h
          · cases h
          · split at h <;> cases h

theorem kindOf_last {b : UInt8} {v : Buf} {k : QuicKind} (h : kindOf b v = some k)
    (hk : k.long = false) (t : Buf) (hv : v.length = 4) (hm : k.decl.minSize ≤ t.length + 5) :
    Ending (b :: (v ++ t)) k := by
  have hb := b.toNat_lt
  obtain ⟨f1, f2, f3, f4⟩ := head_facts b t hv
  have hl : (b :: (v ++ t)).length = t.length + 5 := by simp [hv]; omega
  rw [quic_minSize] at hm
  unfold kindOf at h
  split at h
  · cases h
    refine ⟨by omega, f1.mpr ?_⟩
    assumption
  · split at h
    · cases h
      rename_i h1 h2
      exact ⟨by simp at hm; omega, fun hc => h1 (f1.mp hc), f4.mpr h2⟩
    · rename_i h1 h2
      split at h
      · cases h
      · split at h
        · cases h; cases hk
        · split at h
          · cases h; cases hk
          · split at h
            · cases h; cases hk
            · cases h
              refine ⟨by simp at hm; omega, ?_, fun hc => h2 (f4.mp hc)⟩
              rw [f3]; omega

theorem ending_kindOf {b : UInt8} {v : Buf} {k : QuicKind} {t : Buf} (hv : v.length = 4)
    (h : Ending (b :: (v ++ t)) k) :
    kindOf b v = some k ∧ k.long = false ∧ k.decl.minSize ≤ t.length + 5 := by
  have hb := b.toNat_lt
  obtain ⟨f1, f2, f3, f4⟩ := head_facts b t hv
  have hl : (b :: (v ++ t)).length = t.length + 5 := by simp [hv]; omega
  rw [quic_minSize]
  cases k <;> simp only [Ending, hl] at h
  · obtain ⟨h1, h2, h3⟩ := h
    refine ⟨?_, rfl, by simp; omega⟩
    rw [kindOf, if_neg (fun hc => h2 (f1.mpr hc)), if_pos (f4.mp h3)]
  · obtain ⟨h1, h2, h3⟩ := h
    rw [f3] at h2
    refine ⟨?_, rfl, by simp; omega⟩
    rw [kindOf, if_neg (by omega), if_neg (fun hc => h3 (f4.mpr hc)), if_neg (by omega), if_neg (by omega),
      if_neg (by omega), if_neg (by omega)]
  · refine ⟨?_, rfl, by simp⟩
    rw [kindOf, if_pos (f1.mp h.2)]

theorem ending_length {buf : Buf} {k : QuicKind} (h : Ending buf k) : 5 ≤ buf.length := by
  cases k <;> simp only [Ending] at h
  · omega
  · omega
  · exact h.1

theorem new_ending (m : Mode) {buf : Buf} {k : QuicKind} (h : Ending buf k) (hsl : SliceLen buf.length) :
    QuicPacket.new m buf = .ok (some [⟨k, buf⟩]) := by
  obtain ⟨b, v, t, rfl, hv⟩ := split5 (buf := buf) (by have := ending_length h; omega)
  obtain ⟨h1, h2, h3⟩ := ending_kindOf hv h
  rw [new_step m b t hv hsl, h1]
  simp only
  rw [if_pos h3, remaining_last h2, ok_bind, new_nil]
  rfl

theorem new_refused (m : Mode) {buf : Buf} (h : Refused buf) (hsl : SliceLen buf.length) :
    QuicPacket.new m buf = .ok none := by
  obtain ⟨h0, h⟩ := h
  by_cases h5 : buf.length < 5
  · exact new_short m (List.length_pos_iff.mp h0) h5
  · obtain ⟨b, v, t, rfl, hv⟩ := split5 h5
    have hb := b.toNat_lt
    obtain ⟨f1, f2, f3, f4⟩ := head_facts b t hv
    have hl : (b :: (v ++ t)).length = t.length + 5 := by simp [hv]; omega
    obtain ⟨h1, h⟩ := h.resolve_left h5
    have h1' : ¬ (b.toNat / 128 = 0 ∧ b.toNat / 64 % 2 = 1) := fun hc => h1 (f1.mpr hc)
    rw [new_step m b t hv hsl]
    cases hk : kindOf b v with
    | none => rfl
    | some k =>
      simp only
      rcases h with h | ⟨h2, h3⟩
      · rw [if_neg]
        rw [quic_minSize, if_neg]
        · omega
        · rintro rfl
          unfold kindOf at hk
          rw [if_neg h1'] at hk
          split at hk
          · cases hk
          · split at hk
            · cases hk
            · split at hk
              · cases hk
              · split at hk
                · cases hk
                · split at hk <;> cases hk
      · rw [f2] at h2
        rw [kindOf, if_neg h1', if_neg (fun hc => h3 (f4.mpr hc)), if_pos h2] at hk
        cases hk

/-- What a datagram can start with. -/
theorem datagram_cases (buf : Buf) :
    buf = [] ∨ Refused buf ∨ (∃ k, Ending buf k) ∨ Broken buf ∨
      ∃ p bs rest, LongEnc p bs ∧ buf = bs ++ rest := by
  by_cases h0 : buf = []
  · exact .inl h0
  have hpos := List.length_pos_iff.mpr h0
  by_cases h5 : buf.length < 5
  · exact .inr (.inl ⟨hpos, .inl h5⟩)
  obtain ⟨b, v, t, rfl, hv⟩ := split5 h5
  obtain ⟨f1, f2, f3, f4⟩ := head_facts b t hv
  have hl : (b :: (v ++ t)).length = t.length + 5 := by simp [hv]; omega
  cases hk : kindOf b v with
  | none =>
    obtain ⟨g1, g2, g3⟩ := kindOf_none hk
    exact .inr (.inl ⟨hpos, .inr ⟨fun hc => g1 (f1.mp hc), .inr ⟨by rw [f2]; exact g2, fun hc => g3 (f4.mp hc)⟩⟩⟩)
  | some k =>
    by_cases hm : k.decl.minSize ≤ t.length + 5
    · cases hkl : k.long with
      | false => exact .inr (.inr (.inl ⟨k, kindOf_last hk hkl t hv hm⟩))
      | true =>
        by_cases hex : ∃ p bs rest, LongEnc p bs ∧ b :: (v ++ t) = bs ++ rest
        · exact .inr (.inr (.inr (.inr hex)))
        · obtain ⟨g1, g2, g3⟩ := first_long hkl hk
          rw [long_minSize hkl] at hm
          exact .inr (.inr (.inr (.inl ⟨b, v, t, rfl, g1, g2, hv, g3, by omega, hex⟩)))
    · refine .inr (.inl ⟨hpos, .inr ⟨fun hc => ?_, .inl ?_⟩⟩)
      · rw [kindOf, if_pos (f1.mp hc)] at hk
        cases hk
        rw [quic_minSize] at hm
        simp at hm
      · rw [quic_minSize] at hm
        rw [hl]
        split at hm <;> omega

theorem long_pos {p : Packet} {bs : Buf} (h : LongEnc p bs) : 0 < bs.length := by
  obtain ⟨b, v, t, hbs, -⟩ := long_facts h
  rw [hbs]; simp

theorem slice_tail {bs rest : Buf} (h : SliceLen (bs ++ rest).length) : SliceLen rest.length := by
  unfold SliceLen at h ⊢
  rw [List.length_append] at h; omega

/-- Every datagram is accepted, refused or broken. -/
theorem datagram_total (n : Nat) : ∀ buf : Buf, buf.length ≤ n →
    (∃ qs, Reports buf qs) ∨ LongThen Refused buf ∨ LongThen Broken buf := by
  induction n with
  | zero =>
    intro buf hn
    rw [List.length_eq_zero_iff.mp (Nat.le_zero.mp hn)]
    exact .inl ⟨_, .nil⟩
  | succ n ih =>
    intro buf hn
    rcases datagram_cases buf with rfl | h | ⟨k, h⟩ | h | ⟨p, bs, rest, h, rfl⟩
    · exact .inl ⟨_, .nil⟩
    · exact .inr (.inl (.here h))
    · exact .inl ⟨_, .last h⟩
    · exact .inr (.inr (.here h))
    · have := long_pos h
      rw [List.length_append] at hn
      rcases ih rest (by omega) with ⟨qs, h'⟩ | h' | h'
      · exact .inl ⟨_, .cons h h'⟩
      · exact .inr (.inl (.cons h h'))
      · exact .inr (.inr (.cons h h'))

theorem new_reports (m : Mode) {buf : Buf} {qs : List QuicPacket} (h : Reports buf qs) :
    SliceLen buf.length → QuicPacket.new m buf = .ok (some qs) := by
  induction h with
  | nil => exact fun _ => rfl
  | last h => exact new_ending m h
  | @cons p bs rest qs h _ ih =>
    intro hsl
    rw [(new_long m h rest hsl).1, ih (slice_tail hsl)]
    rfl

theorem new_long_refused (m : Mode) {buf : Buf} (h : LongThen Refused buf) :
    SliceLen buf.length → QuicPacket.new m buf = .ok none := by
  induction h with
  | here h => exact new_refused m h
  | @cons p bs rest h _ ih =>
    intro hsl
    rw [(new_long m h rest hsl).1, ih (slice_tail hsl)]
    rfl

theorem new_debug_outcome {buf : Buf} (hsl : SliceLen buf.length) :
    (∀ qs, QuicPacket.new .debug buf = .ok (some qs) → Reports buf qs) ∧
    (QuicPacket.new .debug buf = .ok none → LongThen Refused buf) := by
  have hp := (new_panic_iff _ buf (Nat.le_refl _) hsl).1
  rcases datagram_total _ buf (Nat.le_refl _) with ⟨qs, h⟩ | h | h
  · have := new_reports .debug h hsl
    refine ⟨fun qs' h' => ?_, fun h' => ?_⟩
    · rw [this] at h'; cases h'; exact h
    · rw [this] at h'; cases h'
  · have := new_long_refused .debug h hsl
    exact ⟨fun qs' h' => (by rw [this] at h'; cases h'), fun _ => h⟩
  · have := hp.mpr h
    exact ⟨fun qs' h' => (by rw [this] at h'; cases h'), fun h' => (by rw [this] at h'; cases h')⟩

/-! ## Accessors of packets that extend to the end -/

theorem drop_cons_facts {buf : Buf} {n : Nat} {l : UInt8} {t : Buf} (h : buf.drop n = l :: t) :
    t = buf.drop (n + 1) ∧ ∀ i, t.getD i 0 = buf.getD (n + 1 + i) 0 := by
  have ht : t = buf.drop (n + 1) := by
    rw [← List.drop_drop, h]; rfl
  refine ⟨ht, fun i => ?_⟩
  rw [ht, List.getD_eq_getElem?_getD, List.getD_eq_getElem?_getD, List.getElem?_drop]

theorem byte_read {buf : Buf} {i : Nat} (h : i < buf.length) :
    (buf.getD i 0).toNat = bitsAt buf (8 * i) 8 := by
  have := Props.C55_whole_bytes buf i 1
  rw [Nat.mul_one] at this
  rw [this, List.drop_eq_getElem_cons h, List.take_succ_cons, List.take_zero,
    List.getD_eq_getElem?_getD, List.getElem?_eq_getElem h]
  simp [beNat]

/-- The connection ids of Version Negotiation and Retry packets. -/
theorem ids_parts {k : QuicKind} (hk : k = .versionNegotiation ∨ k = .retry) (m : Mode) {buf : Buf}
    (hmin : 7 ≤ buf.length) (hsl : SliceLen buf.length) :
    QuicPacket.destId m ⟨k, buf⟩ = .ok (bytesOf ((buf.drop 6).take (bitsAt buf 40 8))) ∧
    (buf.length < 7 + bitsAt buf 40 8 → QuicPacket.srcId m ⟨k, buf⟩ = panic) ∧
    (7 + bitsAt buf 40 8 ≤ buf.length → QuicPacket.srcId m ⟨k, buf⟩ =
      .ok (some (bytesOf ((buf.drop (7 + bitsAt buf 40 8)).take
        (bitsAt buf (8 * (6 + bitsAt buf 40 8)) 8))))) := by
  obtain ⟨l, t, hdrop, hl, htl⟩ := drop5 hmin
  obtain ⟨ht, hgd⟩ := drop_cons_facts hdrop
  have hkey : ∀ (d : Decl) (j : Nat), d.get m buf (j + 1) = .ok (bytesOf (t.take l.toNat)) ∧
      (t.length < l.toNat + 1 → d.get m buf (j + 3) = panic) ∧
      (l.toNat + 1 ≤ t.length → d.get m buf (j + 3) =
        .ok (bytesOf ((t.drop (l.toNat + 1)).take (t.getD l.toNat 0).toNat))) →
      d.get m buf (j + 1) = .ok (bytesOf ((buf.drop 6).take (bitsAt buf 40 8))) ∧
      (buf.length < 7 + bitsAt buf 40 8 → d.get m buf (j + 3) = panic) ∧
      (7 + bitsAt buf 40 8 ≤ buf.length → d.get m buf (j + 3) =
        .ok (bytesOf ((buf.drop (7 + bitsAt buf 40 8)).take (bitsAt buf (8 * (6 + bitsAt buf 40 8)) 8)))) := by
    rintro d j ⟨h1, h2, h3⟩
    refine ⟨by rw [h1, ht, hl], fun h => h2 (by omega), fun h => ?_⟩
    rw [h3 (by omega), hgd, ht, List.drop_drop, hl, byte_read (by omega),
      show 5 + 1 + (bitsAt buf 40 8 + 1) = 7 + bitsAt buf 40 8 by omega,
      show 5 + 1 + bitsAt buf 40 8 = 6 + bitsAt buf 40 8 by omega]
  rcases hk with rfl | rfl
  · have hm : QuicKind.versionNegotiation.decl.minSize ≤ buf.length := by rw [quic_minSize]; exact hmin
    obtain ⟨ha, hN⟩ := quic_head .versionNegotiation m buf hm
    obtain ⟨h1, h2, h3⟩ := hkey _ _ (ids_get (d := Verif.versionNegotiation) (j := 3)
      (post := [frest "supported_versions"]) rfl rfl hsl rfl hdrop ha hN)
    refine ⟨h1, fun h => ?_, fun h => ?_⟩
    · show some <$> Verif.versionNegotiation.get m buf 6 = _
      rw [h2 h]; rfl
    · show some <$> Verif.versionNegotiation.get m buf 6 = _
      rw [h3 h]; rfl
  · have hm : QuicKind.retry.decl.minSize ≤ buf.length := by rw [quic_minSize]; exact hmin
    obtain ⟨ha, hN⟩ := quic_head .retry m buf hm
    obtain ⟨h1, h2, h3⟩ := hkey _ _ (ids_get (d := Verif.retry) (j := 5)
      (post := [frest "retry_token"]) rfl rfl hsl rfl hdrop ha hN)
    refine ⟨h1, fun h => ?_, fun h => ?_⟩
    · show some <$> Verif.retry.get m buf 8 = _
      rw [h2 h]; rfl
    · show some <$> Verif.retry.get m buf 8 = _
      rw [h3 h]; rfl

end Verif
