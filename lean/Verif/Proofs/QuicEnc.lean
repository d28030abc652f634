import Verif.Proofs.QuicShows

/-! Helper lemmas: encoded QUIC packets and what is read from them. -/

namespace Verif
open Spec

theorem version_ne {version : Nat} (h0 : 0 < version) (h1 : version < 2 ^ 32) :
    Quic.beBytes 4 version ≠ [0, 0, 0, 0] := by
  intro h
  have := beNat_beBytes (n := 4) (v := version) (by omega)
  rw [h] at this
  have hz : beNat [0, 0, 0, 0] = 0 := rfl
  omega

theorem cid_byte {bs : Buf} (h : bs.length < 256) : (UInt8.ofNat bs.length).toNat = bs.length := by
  rw [UInt8.toNat_ofNat', Nat.mod_eq_of_lt (by omega)]

theorem long_byte {ty res n : Nat} (ht : ty < 4) (hr : res < 4) (hn : 1 ≤ n ∧ n ≤ 4) :
    (UInt8.ofNat (0xC0 + 16 * ty + 4 * res + (n - 1))).toNat = 0xC0 + 16 * ty + 4 * res + (n - 1) := by
  rw [UInt8.toNat_ofNat', Nat.mod_eq_of_lt (by omega)]

theorem bits62 (b : UInt8) (t : Buf) : bitsAt (b :: t) 6 2 = b.toNat % 4 := by
  rw [bitsAt_cons b t (by omega)]; simp

theorem accessors_long {k : QuicKind} (hk : k.long = true) (m : Mode) {buf : Buf} {version : Nat}
    {dcid scid pn frames : Buf} {token : Option Buf} (hpn : pn.length ≤ 8)
    (h5 : k.decl.get m buf 5 = .ok (.nums [version]))
    (h7 : k.decl.get m buf 7 = .ok (bytesVal dcid))
    (h9 : k.decl.get m buf 9 = .ok (bytesVal scid))
    (ht : QuicPacket.token m ⟨k, buf⟩ = .ok (token.map Quic.bytesOf))
    (hp : k.decl.getRaw m buf (k.lengthPos + 1) = .ok pn)
    (hf : k.decl.getRaw m buf (k.lengthPos + 2) = .ok frames) :
    Quic.Accessors m ⟨k, buf⟩ (some version) dcid (some scid) token (some (beNat pn)) (some frames) := by
  have hp' := packetNumber_ok hpn
  have e1 : QuicPacket.version m ⟨k, buf⟩ = some <$> k.decl.get m buf 5 := by
    cases k <;> first | rfl | cases hk
  have e2 : QuicPacket.destId m ⟨k, buf⟩ = k.decl.get m buf 7 := by
    cases k <;> first | rfl | cases hk
  have e3 : QuicPacket.srcId m ⟨k, buf⟩ = some <$> k.decl.get m buf 9 := by
    cases k <;> first | rfl | cases hk
  have e4 : QuicPacket.packetNumber m ⟨k, buf⟩ =
      (some <$> k.decl.getRaw m buf (k.lengthPos + 1)) >>= fun raw =>
        match raw with
        | none => .ok none
        | some bytes => some <$> Verif.packetNumber (bytes.map UInt8.toNat) := by
    cases k <;> first | rfl | cases hk
  have e5 : QuicPacket.frames m ⟨k, buf⟩ = some <$> k.decl.getRaw m buf (k.lengthPos + 2) := by
    cases k <;> first | rfl | cases hk
  refine ⟨?_, ?_, ?_, ht, ?_, ?_⟩
  · rw [e1, h5]; rfl
  · rw [e2, h7]; rfl
  · rw [e3, h9]; rfl
  · rw [e4, hp]
    show some <$> Verif.packetNumber (pn.map UInt8.toNat) = _
    rw [hp']; rfl
  · rw [e5, hf]; rfl

/-- What holds of every encoding of a packet with a Length field. -/
def LongFacts (p : Quic.Packet) (bs : Buf) : Prop :=
  ∃ b v t, bs = b :: (v ++ t) ∧ v.length = 4 ∧ 2 ≤ t.length ∧
    kindOf b v = some (Quic.kind p) ∧ (Quic.kind p).long = true ∧
    ∀ (m : Mode) (rest : Buf), SliceLen (bs ++ rest).length →
      QuicPacket.remaining m ⟨Quic.kind p, bs ++ rest⟩ = .ok rest ∧
      Quic.Shows m ⟨Quic.kind p, bs ++ rest⟩ p

theorem kindOf_long {ty res n : Nat} (ht : ty < 4) (hr : res < 4) (hn : 1 ≤ n ∧ n ≤ 4) {v : Buf}
    (hv : v ≠ [0, 0, 0, 0]) :
    kindOf (UInt8.ofNat (0xC0 + 16 * ty + 4 * res + (n - 1))) v =
      some (if ty = 0 then .initial else if ty = 1 then .zeroRtt else if ty = 2 then .handshake
        else .retry) := by
  have hb := long_byte ht hr hn
  unfold kindOf
  rw [hb, if_neg (by omega), if_neg hv, if_neg (by omega)]
  have : (0xC0 + 16 * ty + 4 * res + (n - 1)) / 16 % 4 = ty := by omega
  rw [this]
  by_cases h0 : ty = 0
  · rw [if_pos h0, if_pos h0]
  · rw [if_neg h0, if_neg h0]
    by_cases h1 : ty = 1
    · rw [if_pos h1, if_pos h1]
    · rw [if_neg h1, if_neg h1]
      by_cases h2 : ty = 2
      · rw [if_pos h2, if_pos h2]
      · rw [if_neg h2, if_neg h2]

/-- 0-RTT and Handshake packets. -/
theorem plain_facts {k : QuicKind} (hk : k = .zeroRtt ∨ k = .handshake) {ty : Nat} (hty : ty < 4)
    {version : Nat} {dcid scid pn frames : Buf} {reserved : Nat} {length : Buf}
    (hh : Quic.HeaderOk version dcid scid) (hp : Quic.PnOk pn) (hr : reserved < 4)
    (hl : Quic.Varint length (pn.length + frames.length)) (m : Mode) (rest : Buf)
    (hsl : SliceLen (Quic.longHeader ty reserved pn.length version dcid scid ++ length ++ pn ++ frames ++
      rest).length) :
    QuicPacket.remaining m ⟨k, Quic.longHeader ty reserved pn.length version dcid scid ++ length ++ pn ++
        frames ++ rest⟩ = .ok rest ∧
      Quic.Accessors m ⟨k, Quic.longHeader ty reserved pn.length version dcid scid ++ length ++ pn ++
        frames ++ rest⟩ (some version) dcid (some scid) none (some (beNat pn)) (some frames) := by
  obtain ⟨hv0, hv1, hd, hs⟩ := hh
  have hlong : k.long = true := by rcases hk with rfl | rfl <;> rfl
  generalize hbuf : Quic.longHeader ty reserved pn.length version dcid scid ++ length ++ pn ++
    frames ++ rest = buf at hsl
  let b := UInt8.ofNat (0xC0 + 16 * ty + 4 * reserved + (pn.length - 1))
  let v := Quic.beBytes 4 version
  have hvl : v.length = 4 := beBytes_length 4 version
  let pre := UInt8.ofNat dcid.length :: (dcid ++ (UInt8.ofNat scid.length :: scid))
  have hbuf' : buf = b :: (v ++ (pre ++ (length ++ (pn ++ (frames ++ rest))))) := by
    rw [← hbuf]
    simp [Quic.longHeader, pre, b, v]
  have h62 : bitsAt buf 6 2 = pn.length - 1 := by
    have h1 := hp.1
    have h2 := hp.2
    rw [hbuf', bits62, long_byte hty hr hp]
    omega
  have hver : bitsAt buf 8 32 = version := by
    rw [hbuf', version_read b hvl, beNat_beBytes (by omega)]
  have hmin : 7 ≤ buf.length := by
    rw [hbuf']; simp [hvl, pre]; omega
  let hv := longSlots.map (·.read buf)
  let vals := hv ++ [.num (UInt8.ofNat dcid.length).toNat] ++ [bytesVal dcid] ++
    [.num (UInt8.ofNat scid.length).toNat] ++ [bytesVal scid]
  have hscan : ∀ is X, scan m (k.items ++ is) (k.head.map (·.read buf)) (pre ++ X) = scan m is vals X := by
    intro is X
    have e1 : k.items ++ is = .u8 :: .u8Bytes 6 :: .u8 :: .u8Bytes 8 :: is := by
      rcases hk with rfl | rfl <;> rfl
    have e2 : k.head.map (·.read buf) = hv := by rcases hk with rfl | rfl <;> rfl
    have e3 : pre ++ X = UInt8.ofNat dcid.length :: (dcid ++ (UInt8.ofNat scid.length :: (scid ++ X))) := by
      simp [pre]
    rw [e1, e2, e3, scan_cid m _ (j := 6) rfl (cid_byte hd), scan_cid m _ (j := 8) rfl (cid_byte hs)]
  have hpos : k.lengthPos = 10 := by rcases hk with rfl | rfl <;> rfl
  obtain ⟨h1, h2, h3, h4⟩ := long_common hlong m hvl hbuf' hmin hsl hscan (by rw [hpos]; rfl) rfl
    (by rw [h62]; have := hp.1; omega) hl
  refine ⟨h1, accessors_long hlong m (by have := hp.2; omega) ?_ (h2 7 _ rfl) (h2 9 _ rfl) ?_ h3 h4⟩
  · rw [h2 5 (.nums [bitsAt buf 8 32]) rfl, hver]
  · rcases hk with rfl | rfl <;> rfl

/-- Initial packets. -/
theorem initial_facts {version : Nat} {dcid scid token pn frames : Buf} {reserved : Nat}
    {tokenLen length : Buf}
    (hh : Quic.HeaderOk version dcid scid) (hp : Quic.PnOk pn) (hr : reserved < 4)
    (htl : Quic.Varint tokenLen token.length)
    (hl : Quic.Varint length (pn.length + frames.length)) (m : Mode) (rest : Buf)
    (hsl : SliceLen (Quic.longHeader 0 reserved pn.length version dcid scid ++ tokenLen ++ token ++ length ++
      pn ++ frames ++ rest).length) :
    QuicPacket.remaining m ⟨.initial, Quic.longHeader 0 reserved pn.length version dcid scid ++ tokenLen ++
        token ++ length ++ pn ++ frames ++ rest⟩ = .ok rest ∧
      Quic.Accessors m ⟨.initial, Quic.longHeader 0 reserved pn.length version dcid scid ++ tokenLen ++
        token ++ length ++ pn ++ frames ++ rest⟩
        (some version) dcid (some scid) (some token) (some (beNat pn)) (some frames) := by
  obtain ⟨hv0, hv1, hd, hs⟩ := hh
  generalize hbuf : Quic.longHeader 0 reserved pn.length version dcid scid ++ tokenLen ++ token ++ length ++
    pn ++ frames ++ rest = buf at hsl
  let b := UInt8.ofNat (0xC0 + 16 * 0 + 4 * reserved + (pn.length - 1))
  let v := Quic.beBytes 4 version
  have hvl : v.length = 4 := beBytes_length 4 version
  let pre := UInt8.ofNat dcid.length :: (dcid ++ (UInt8.ofNat scid.length :: (scid ++ (tokenLen ++ token))))
  have hbuf' : buf = b :: (v ++ (pre ++ (length ++ (pn ++ (frames ++ rest))))) := by
    rw [← hbuf]
    simp [Quic.longHeader, pre, b, v]
  have h62 : bitsAt buf 6 2 = pn.length - 1 := by
    have h1 := hp.1
    have h2 := hp.2
    rw [hbuf', bits62, long_byte (by omega) hr hp]
    omega
  have hver : bitsAt buf 8 32 = version := by
    rw [hbuf', version_read b hvl, beNat_beBytes (by omega)]
  have hmin : 7 ≤ buf.length := by
    rw [hbuf']; simp [hvl, pre]; omega
  let hv := longSlots.map (·.read buf)
  let vals := hv ++ [.num (UInt8.ofNat dcid.length).toNat] ++ [bytesVal dcid] ++
    [.num (UInt8.ofNat scid.length).toNat] ++ [bytesVal scid] ++ [bytesVal tokenLen] ++ [bytesVal token]
  have hscan : ∀ is X, scan m (QuicKind.initial.items ++ is) (QuicKind.initial.head.map (·.read buf))
      (pre ++ X) = scan m is vals X := by
    intro is X
    have e1 : QuicKind.initial.items ++ is =
      .u8 :: .u8Bytes 6 :: .u8 :: .u8Bytes 8 :: .vi :: .viBytes 10 :: is := rfl
    have e2 : QuicKind.initial.head.map (·.read buf) = hv := rfl
    have e3 : pre ++ X = UInt8.ofNat dcid.length :: (dcid ++ (UInt8.ofNat scid.length ::
        (scid ++ (tokenLen ++ (token ++ X))))) := by
      simp [pre]
    rw [e1, e2, e3, scan_cid m _ (j := 6) rfl (cid_byte hd), scan_cid m _ (j := 8) rfl (cid_byte hs), scan_blob m _ (j := 10) rfl htl]
  obtain ⟨h1, h2, h3, h4⟩ := long_common (k := .initial) rfl m hvl hbuf' hmin hsl hscan rfl rfl
    (by rw [h62]; have := hp.1; omega) hl
  refine ⟨h1, accessors_long (k := .initial) rfl m (by have := hp.2; omega) ?_ (h2 7 _ rfl) (h2 9 _ rfl)
    ?_ h3 h4⟩
  · rw [h2 5 (.nums [bitsAt buf 8 32]) rfl, hver]
  · show some <$> QuicKind.initial.decl.get m buf 11 = _
    rw [h2 11 _ rfl]; rfl

theorem long_facts {p : Quic.Packet} {bs : Buf} (h : Quic.LongEnc p bs) : LongFacts p bs := by
  cases h with
  | @initial version dcid scid token pn frames reserved tokenLen length hh hp hr htl hl =>
    refine ⟨UInt8.ofNat (0xC0 + 16 * 0 + 4 * reserved + (pn.length - 1)), Quic.beBytes 4 version,
      UInt8.ofNat dcid.length :: (dcid ++ (UInt8.ofNat scid.length :: (scid ++ (tokenLen ++ (token ++ (length ++
        (pn ++ frames))))))), ?_, beBytes_length _ _, by simp; omega, ?_, rfl, ?_⟩
    · simp [Quic.longHeader]
    · exact kindOf_long (by omega) hr hp (version_ne hh.1 hh.2.1)
    · intro m rest hsl
      exact initial_facts hh hp hr htl hl m rest hsl
  | @zeroRtt version dcid scid pn frames reserved length hh hp hr hl =>
    refine ⟨UInt8.ofNat (0xC0 + 16 * 1 + 4 * reserved + (pn.length - 1)), Quic.beBytes 4 version,
      UInt8.ofNat dcid.length :: (dcid ++ (UInt8.ofNat scid.length :: (scid ++ (length ++
        (pn ++ frames))))), ?_, beBytes_length _ _, by simp; omega, ?_, rfl, ?_⟩
    · simp [Quic.longHeader]
    · exact kindOf_long (by omega) hr hp (version_ne hh.1 hh.2.1)
    · intro m rest hsl
      exact plain_facts (.inl rfl) (by omega) hh hp hr hl m rest hsl
  | @handshake version dcid scid pn frames reserved length hh hp hr hl =>
    refine ⟨UInt8.ofNat (0xC0 + 16 * 2 + 4 * reserved + (pn.length - 1)), Quic.beBytes 4 version,
      UInt8.ofNat dcid.length :: (dcid ++ (UInt8.ofNat scid.length :: (scid ++ (length ++
        (pn ++ frames))))), ?_, beBytes_length _ _, by simp; omega, ?_, rfl, ?_⟩
    · simp [Quic.longHeader]
    · exact kindOf_long (by omega) hr hp (version_ne hh.1 hh.2.1)
    · intro m rest hsl
      exact plain_facts (.inr rfl) (by omega) hh hp hr hl m rest hsl

/-! ## The converse -/

theorem long_first {b : UInt8} {v : Buf} {k : QuicKind} (hk : k.long = true) (h : kindOf b v = some k) :
    v ≠ [0, 0, 0, 0] ∧ ∃ ty, ty < 3 ∧ b = UInt8.ofNat (0xC0 + 16 * ty + 4 * (b.toNat / 4 % 4) +
      (b.toNat % 4 + 1 - 1)) ∧
      k = if ty = 0 then .initial else if ty = 1 then .zeroRtt else .handshake := by
  have hb := b.toNat_lt
  unfold kindOf at h
  split at h
  · cases h; cases hk
  · rename_i h1
    split at h
    · cases h; cases hk
    · rename_i h2
      refine ⟨h2, ?_⟩
      split at h
      · cases h
      · rename_i h3
        have hbe : ∀ ty, b.toNat / 16 % 4 = ty → b = UInt8.ofNat (0xC0 + 16 * ty + 4 * (b.toNat / 4 % 4) +
            (b.toNat % 4 + 1 - 1)) := by
          intro ty hty
          rw [show 0xC0 + 16 * ty + 4 * (b.toNat / 4 % 4) + (b.toNat % 4 + 1 - 1) = b.toNat by omega,
            UInt8.ofNat_toNat]
        split at h
        · rename_i h4
          cases h
          exact ⟨0, by omega, hbe 0 h4, rfl⟩
        · split at h
          · rename_i h4
            cases h
            exact ⟨1, by omega, hbe 1 h4, rfl⟩
          · split at h
            · rename_i h4
              cases h
              exact ⟨2, by omega, hbe 2 h4, rfl⟩
            · cases h; cases hk

/-- In debug builds only encodings are accepted. -/
theorem long_debug {b : UInt8} {v t : Buf} (hv : v.length = 4) {k : QuicKind} (hk : k.long = true)
    (h : kindOf b v = some k) (hmin : 2 ≤ t.length) (hsl : SliceLen (b :: (v ++ t)).length) {r : Buf}
    (hr : QuicPacket.remaining .debug ⟨k, b :: (v ++ t)⟩ = .ok r) :
    ∃ p bs, Quic.LongEnc p bs ∧ b :: (v ++ t) = bs ++ r := by
  rw [remaining_long k hk _ _ (by simp [hv]; omega) hsl] at hr
  have hdrop : (b :: (v ++ t)).drop 5 = t := by
    rw [← List.cons_append, List.drop_left' (by simp [hv])]
  rw [hdrop, bits62] at hr
  obtain ⟨hvne, ty, hty, hb, hkt⟩ := long_first hk h
  have hve : v = Quic.beBytes 4 (beNat v) := by rw [← hv, beBytes_beNat]
  have hv0 : 0 < beNat v := by
    apply Nat.pos_of_ne_zero
    intro h0
    rw [h0] at hve
    exact hvne hve
  have hvlt : beNat v < 2 ^ 32 := by
    have := beNat_lt v
    rw [hv] at this; omega
  have hb4 : b.toNat / 4 % 4 < 4 := by omega
  have hcid : ∀ {l : UInt8} {bs : Buf}, l.toNat = bs.length → l = UInt8.ofNat bs.length := by
    intro l bs hl; rw [← hl, UInt8.ofNat_toNat]
  have hlt : ∀ {l : UInt8} {bs : Buf}, l.toNat = bs.length → bs.length < 256 := by
    intro l bs hl; have := l.toNat_lt; omega
  cases hs : scan .debug k.items (k.head.map (·.read (b :: (v ++ t)))) t with
  | none => rw [hs] at hr; simp at hr
  | some x =>
    rw [hs] at hr
    obtain ⟨vals, r0⟩ := x
    simp only at hr
    obtain ⟨length, pn, frames, hpn, hl, hr0⟩ := tailRest_debug hr
    have hpok : Quic.PnOk pn := by constructor <;> omega
    by_cases h0 : ty = 0
    · subst h0
      simp only [ite_true] at hkt
      subst hkt
      obtain ⟨l1, dcid, t1, hl1, ht, hs⟩ := scan_cid_inv (is := [.u8, .u8Bytes 8, .vi, .viBytes 10])
        (j := 6) rfl hs
      obtain ⟨l2, scid, t2, hl2, ht1, hs⟩ := scan_cid_inv (is := [.vi, .viBytes 10]) (j := 8) rfl hs
      obtain ⟨tl, token, t3, htl, ht2, hs⟩ := scan_blob_inv (is := []) (j := 10) rfl hs
      simp only [scan, Option.some.injEq, Prod.mk.injEq] at hs
      obtain ⟨-, rfl⟩ := hs
      refine ⟨_, _, .initial (version := beNat v) (dcid := dcid) (scid := scid) (token := token)
        (reserved := b.toNat / 4 % 4) ⟨hv0, hvlt, hlt hl1, hlt hl2⟩ hpok hb4 htl hl, ?_⟩
      rw [Quic.longHeader, hpn, ← hb, ← hve, ht, ht1, ht2, hr0, hcid hl1, hcid hl2]
      simp
    · have hitems : k.items = [.u8, .u8Bytes 6, .u8, .u8Bytes 8] ∧ k.head = longSlots := by
        rw [hkt, if_neg h0]; split <;> exact ⟨rfl, rfl⟩
      rw [hitems.1, hitems.2] at hs
      obtain ⟨l1, dcid, t1, hl1, ht, hs⟩ := scan_cid_inv (is := [.u8, .u8Bytes 8]) (j := 6) rfl hs
      obtain ⟨l2, scid, t2, hl2, ht1, hs⟩ := scan_cid_inv (is := []) (j := 8) rfl hs
      simp only [scan, Option.some.injEq, Prod.mk.injEq] at hs
      obtain ⟨-, rfl⟩ := hs
      have hfin : b :: (v ++ t) = (Quic.longHeader ty (b.toNat / 4 % 4) pn.length (beNat v) dcid scid ++ length ++
          pn ++ frames) ++ r := by
        rw [Quic.longHeader, hpn, ← hb, ← hve, ht, ht1, hr0, hcid hl1, hcid hl2]
        simp
      by_cases h1 : ty = 1
      · subst h1
        exact ⟨_, _, .zeroRtt ⟨hv0, hvlt, hlt hl1, hlt hl2⟩ hpok hb4 hl, hfin⟩
      · have h2 : ty = 2 := by omega
        subst h2
        exact ⟨_, _, .handshake ⟨hv0, hvlt, hlt hl1, hlt hl2⟩ hpok hb4 hl, hfin⟩

end Verif
