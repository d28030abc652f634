import Verif.Proofs.QuicHeads
import Verif.Spec.QuicApi

/-! Helper lemmas: QUIC packets with a Length field. -/

namespace Verif
open Spec

/-! ## Scanning -/

theorem scan_bytes {m : Mode} {it : Item} {e : LenExpr} (he : it.len = some e) (is : List Item)
    (vals : List Val) (bs t : Buf) (hn : e m (env vals) (.ok (bs ++ t)) = .ok bs.length) :
    scan m (it :: is) vals (bs ++ t) = scan m is (vals ++ [bytesVal bs]) t := by
  rw [scan.eq_def]
  simp only [he, hn]
  rw [if_pos (by simp), List.take_left, List.drop_left]

theorem scan_bytes_inv {m : Mode} {it : Item} {e : LenExpr} (he : it.len = some e) {is : List Item}
    {vals : List Val} {rest : Buf} {x : List Val × Buf} (h : scan m (it :: is) vals rest = some x) :
    ∃ bs t, rest = bs ++ t ∧ e m (env vals) (.ok rest) = .ok bs.length ∧
      scan m is (vals ++ [bytesVal bs]) t = some x := by
  rw [scan.eq_def] at h
  simp only [he] at h
  cases hn : e m (env vals) (.ok rest) with
  | error y => rw [hn] at h; simp at h
  | ok n =>
    rw [hn] at h
    simp only at h
    by_cases hle : n ≤ rest.length
    · rw [if_pos hle] at h
      exact ⟨rest.take n, rest.drop n, (drop_eq_append hle).1, by rw [(drop_eq_append hle).2], h⟩
    · rw [if_neg hle] at h; simp at h

theorem lenU8_snoc (m : Mode) (vals : List Val) (n : Nat) (r : Res Buf) :
    lenU8 vals.length m (env (vals ++ [.num n])) r = .ok n := by
  rw [lenU8, lenNum, env_snoc]; rfl

theorem scan_cid (m : Mode) (is : List Item) {j : Nat} {vals : List Val} (hj : vals.length = j)
    {l : UInt8} {bs : Buf} (hl : l.toNat = bs.length) (t : Buf) :
    scan m (.u8 :: .u8Bytes j :: is) vals (l :: (bs ++ t)) =
      scan m is (vals ++ [.num l.toNat] ++ [bytesVal bs]) t := by
  subst hj
  rw [scan.eq_def]
  simp only [Item.len]
  rw [scan_bytes (it := .u8Bytes vals.length) rfl]
  rw [lenU8_snoc, hl]

theorem scan_cid_inv {m : Mode} {is : List Item} {j : Nat} {vals : List Val} (hj : vals.length = j)
    {rest : Buf} {x : List Val × Buf} (h : scan m (.u8 :: .u8Bytes j :: is) vals rest = some x) :
    ∃ (l : UInt8) (bs t : Buf), l.toNat = bs.length ∧ rest = l :: (bs ++ t) ∧
      scan m is (vals ++ [.num l.toNat] ++ [bytesVal bs]) t = some x := by
  subst hj
  rw [scan.eq_def] at h
  simp only [Item.len] at h
  cases rest with
  | nil => simp at h
  | cons l rest =>
    obtain ⟨bs, t, h1, h2, h3⟩ := scan_bytes_inv (it := .u8Bytes vals.length) rfl h
    rw [lenU8_snoc] at h2
    exact ⟨l, bs, t, Except.ok.inj h2, by rw [h1], h3⟩

theorem scan_blob (m : Mode) (is : List Item) {j : Nat} {vals : List Val} (hj : vals.length = j)
    {l bs : Buf} (hl : Quic.Varint l bs.length) (t : Buf) :
    scan m (.vi :: .viBytes j :: is) vals (l ++ (bs ++ t)) =
      scan m is (vals ++ [bytesVal l] ++ [bytesVal bs]) t := by
  subst hj
  rw [scan_bytes (it := .vi) rfl _ _ _ _ (varint_enc hl _).1, scan_bytes (it := .viBytes vals.length) rfl]
  rw [lenVarint, env_snoc]; exact (varint_enc hl []).2

theorem scan_blob_inv {m : Mode} {is : List Item} {j : Nat} {vals : List Val} (hj : vals.length = j)
    {rest : Buf} {x : List Val × Buf} (h : scan m (.vi :: .viBytes j :: is) vals rest = some x) :
    ∃ (l bs t : Buf), Quic.Varint l bs.length ∧ rest = l ++ (bs ++ t) ∧
      scan m is (vals ++ [bytesVal l] ++ [bytesVal bs]) t = some x := by
  subst hj
  obtain ⟨l, t, h1, h2, h3⟩ := scan_bytes_inv (it := .vi) rfl h
  obtain ⟨bs, t', h4, h5, h6⟩ := scan_bytes_inv (it := .viBytes vals.length) rfl h3
  simp only [lenVarintLength, ok_bind] at h2
  obtain ⟨v, hv⟩ := varint_take h2 (by rw [h1]; simp)
  rw [h1, List.take_left] at hv
  have h7 : lenVarint vals.length m (env (vals ++ [bytesVal l])) (.ok t) = .ok v := by
    rw [lenVarint, env_snoc]; exact (varint_enc hv []).2
  rw [h7] at h5
  rw [Except.ok.inj h5] at hv
  exact ⟨l, bs, t', hv, by rw [h1, h4], h6⟩

/-! ## The tail -/

theorem tailRest_enc (m : Mode) {length pn frames : Buf} (hl : Quic.Varint length (pn.length + frames.length))
    (rest : Buf) : tailRest m pn.length (length ++ (pn ++ (frames ++ rest))) = .ok rest := by
  have hv := varint_enc hl (pn ++ (frames ++ rest))
  rw [tailRest, hv.1, ok_bind, if_pos (by simp), List.take_left, hv.2, ok_bind]
  have hc : min pn.length ((length ++ (pn ++ (frames ++ rest))).length - length.length) = pn.length := by
    simp only [List.length_append]; omega
  simp only [hc]
  rw [if_neg (by omega), if_pos (by simp only [List.length_append]; omega)]
  congr 1
  rw [show length.length + (pn.length + (pn.length + frames.length) - pn.length) =
    length.length + (pn.length + frames.length) by omega]
  rw [← List.drop_drop, List.drop_left, ← List.drop_drop, List.drop_left, List.drop_left]

theorem tailRest_debug {p : Nat} {rest r : Buf} (h : tailRest .debug p rest = .ok r) :
    ∃ length pn frames : Buf, pn.length = p ∧ Quic.Varint length (pn.length + frames.length) ∧
      rest = length ++ (pn ++ (frames ++ r)) := by
  rw [tailRest, bind_eq_ok] at h
  obtain ⟨n, hn, h⟩ := h
  split at h
  · rename_i hle
    obtain ⟨v, hv⟩ := varint_take hn hle
    have hv2 := (varint_enc hv []).2
    rw [hv2, ok_bind] at h
    simp only at h
    generalize hc : min p (rest.length - n) = c at h
    split at h
    · simp at h
    · rename_i hcv
      split at h
      · rename_i hin
        cases h
        have hcv' : c ≤ v := by
          apply Nat.le_of_not_lt; intro hlt; exact hcv ⟨trivial, hlt⟩
        have hcp : c = p := by omega
        subst hcp
        have e1 := (drop_eq_append hle)
        have e2 := drop_eq_append (rest := rest.drop n) (n := c) (by rw [List.length_drop]; omega)
        have e3 := drop_eq_append (rest := (rest.drop n).drop c) (n := v - c)
          (by rw [List.length_drop, List.length_drop]; omega)
        refine ⟨rest.take n, (rest.drop n).take c, ((rest.drop n).drop c).take (v - c), e2.2, ?_, ?_⟩
        · rw [e2.2, e3.2, show c + (v - c) = v by omega]; exact hv
        · have hd : rest.drop (n + (c + v - c)) = ((rest.drop n).drop c).drop (v - c) := by
            rw [List.drop_drop, List.drop_drop]; congr 1; omega
          rw [hd, ← e3.1, ← e2.1, ← e1.1]
      · simp at h
  · simp at h

theorem tailRest_suffix {m : Mode} {p : Nat} {rest r : Buf} (h : tailRest m p rest = .ok r) :
    r <:+ rest.drop 1 := by
  rw [tailRest, bind_eq_ok] at h
  obtain ⟨n, hn, h⟩ := h
  have hn1 : 1 ≤ n := by
    cases rest with
    | nil => simp [varintLength, index] at hn
    | cons b t =>
      rw [varintLength_cons] at hn
      cases hn
      exact Nat.pow_pos (by omega)
  split at h
  · rw [bind_eq_ok] at h
    obtain ⟨v, -, h⟩ := h
    simp only at h
    split at h
    · simp at h
    · split at h
      · cases h
        rw [show n + (p + v - min p (rest.length - n)) =
          1 + (n - 1 + (p + v - min p (rest.length - n))) by omega, ← List.drop_drop]
        exact List.drop_suffix _ _
      · simp at h
  · simp at h

/-! ## Classification -/

theorem class_bits (b : UInt8) :
    (decide (b.toNat &&& (1 <<< 7) > 0) = decide (b.toNat / 128 = 1)) ∧
    (decide (b.toNat &&& (1 <<< 6) > 0) = decide (b.toNat / 64 % 2 = 1)) ∧
    ((b.toNat >>> 4) &&& 3 = b.toNat / 16 % 4) := by
  have h : ∀ x : Fin 256,
      (decide (x.val &&& (1 <<< 7) > 0) = decide (x.val / 128 = 1)) ∧
      (decide (x.val &&& (1 <<< 6) > 0) = decide (x.val / 64 % 2 = 1)) ∧
      ((x.val >>> 4) &&& 3 = x.val / 16 % 4) := by decide +kernel
  exact h ⟨b.toNat, b.toNat_lt⟩

/-- The kind of a packet as a function of its first byte and version. -/
def kindOf (b : UInt8) (v : Buf) : Option QuicKind :=
  if b.toNat / 128 = 0 ∧ b.toNat / 64 % 2 = 1 then some .oneRtt
  else if v = [0, 0, 0, 0] then some .versionNegotiation
  else if b.toNat / 64 % 2 = 0 then none
  else if b.toNat / 16 % 4 = 0 then some .initial
  else if b.toNat / 16 % 4 = 1 then some .zeroRtt
  else if b.toNat / 16 % 4 = 2 then some .handshake
  else some .retry

theorem classify_eq (b : UInt8) {v : Buf} (t : Buf) (hv : v.length = 4) :
    QuicPacket.classify (b :: (v ++ t)) = .ok (kindOf b v) := by
  obtain ⟨h1, h2, h3⟩ := class_bits b
  have hb := b.toNat_lt
  have hs : slice (b :: (v ++ t)) 1 5 = .ok v := by
    rw [slice, if_pos ⟨by omega, by simp [hv]⟩]
    simp [← hv]
  rw [QuicPacket.classify, show index (b :: (v ++ t)) 0 = .ok b from rfl, ok_bind]
  simp only [h1, h2, h3]
  rw [hs]
  simp only [ok_bind]
  unfold kindOf
  by_cases hf : b.toNat / 64 % 2 = 1
  · by_cases hh : b.toNat / 128 = 1
    · simp only [hf, hh, decide_true, Bool.not_true, Bool.and_false, Bool.false_eq_true, ite_false,
        Nat.one_ne_zero, false_and, ite_true]
      split
      · rfl
      · split
        · rfl
        · split
          · rfl
          · split
            · rfl
            · rw [if_pos (by omega)]
    · have hh0 : b.toNat / 128 = 0 := by omega
      simp [hf, hh0]
  · have hf0 : b.toNat / 64 % 2 = 0 := by omega
    simp [hf0]
    split <;> rfl

/-- One iteration of the loop. -/
theorem loop_step (m : Mode) (fuel : Nat) (b : UInt8) {v : Buf} (t : Buf) (hv : v.length = 4) :
    QuicPacket.loop m (fuel + 1) (b :: (v ++ t)) =
      match kindOf b v with
      | none => .ok none
      | some k =>
        if k.decl.minSize ≤ t.length + 5 then
          QuicPacket.remaining m ⟨k, b :: (v ++ t)⟩ >>= fun r =>
            QuicPacket.loop m fuel r >>= fun
              | none => .ok none
              | some qs => .ok (some (⟨k, b :: (v ++ t)⟩ :: qs))
        else .ok none := by
  have hlen : (b :: (v ++ t)).length = t.length + 5 := by simp [hv]; omega
  have hne : (b :: (v ++ t)).isEmpty = false := rfl
  rw [QuicPacket.loop]
  simp only [hne, Bool.false_eq_true, ite_false]
  rw [if_neg (by rw [hlen]; omega), classify_eq b t hv, ok_bind]
  cases kindOf b v with
  | none => rfl
  | some k =>
    simp only [Decl.new, hlen, ge_iff_le]
    by_cases hm : k.decl.minSize ≤ t.length + 5
    · simp only [if_pos hm]; rfl
    · simp only [if_neg hm]

theorem loop_short (m : Mode) (fuel : Nat) {buf : Buf} (h0 : buf ≠ []) (h : buf.length < 5) :
    QuicPacket.loop m (fuel + 1) buf = .ok none := by
  cases buf with
  | nil => exact (h0 rfl).elim
  | cons b t =>
    rw [QuicPacket.loop]
    simp only [List.isEmpty_cons, Bool.false_eq_true, ite_false]
    rw [if_pos h]

end Verif
