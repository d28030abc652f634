import Verif.Proofs.QuicOutcomes
import Verif.Spec.QuicRelease

/-! Helper lemmas: `QuicPacket::new` in release builds. -/

namespace Verif
open Spec Spec.Quic

theorem varint_value_lt {bs : Buf} {v : Nat} (h : Varint bs v) : v < 2 ^ 62 := by
  refine varint_lt (varint_enc h []).2 ?_ ?_
  · have := varint_enc h []
    have h8 := varintLength_le this.1
    simp only [List.length_map]; omega
  · intro y hy
    obtain ⟨c, -, rfl⟩ := List.mem_map.mp hy
    exact c.toNat_lt

/-- The remaining bytes of a packet. -/
theorem tailRest_body (m : Mode) {p l : Nat} {length : Buf} (hl : Varint length l) (body : Buf) :
    tailRest m p (length ++ body) =
      if m = .debug ∧ l < min p body.length then panic
      else if p + l - min p body.length ≤ body.length then .ok (body.drop (p + l - min p body.length))
      else panic := by
  have hv := varint_enc hl body
  rw [tailRest, hv.1, ok_bind, if_pos (by simp), List.take_left, hv.2, ok_bind]
  have hc : (length ++ body).length - length.length = body.length := by simp
  simp only [hc]
  have hd : (length ++ body).drop (length.length + (p + l - min p body.length)) =
      body.drop (p + l - min p body.length) := by
    rw [← List.drop_drop, List.drop_left]
  rw [hd]
  have : (length.length + (p + l - min p body.length) ≤ (length ++ body).length) ↔
      p + l - min p body.length ≤ body.length := by
    rw [List.length_append]; omega
  simp only [this]

theorem tailRest_release {h : Head} {length : Buf} (hl : Varint length h.length) (body r : Buf) :
    tailRest .release h.pnLen (length ++ body) = .ok r ↔ Next h body r := by
  rw [tailRest_body .release hl, if_neg (by simp)]
  unfold Next
  by_cases hp : h.pnLen ≤ body.length
  · rw [Nat.min_eq_left hp, show h.pnLen + h.length - h.pnLen = h.length by omega]
    split
    · rename_i hle
      constructor
      · intro h'; cases h'; exact .inl ⟨hp, hle, rfl⟩
      · rintro (⟨-, -, rfl⟩ | ⟨h', -⟩)
        · rfl
        · omega
    · rename_i hle
      constructor
      · intro h'; cases h'
      · rintro (⟨-, h', -⟩ | ⟨h', -⟩) <;> omega
  · rw [Nat.min_eq_right (by omega),
      show h.pnLen + h.length - body.length = h.length + (h.pnLen - body.length) by omega]
    split
    · rename_i hle
      constructor
      · intro h'; cases h'; exact .inr ⟨by omega, hle, rfl⟩
      · rintro (⟨h', -⟩ | ⟨-, -, rfl⟩)
        · omega
        · rfl
    · rename_i hle
      constructor
      · intro h'; cases h'
      · rintro (⟨h', -⟩ | ⟨-, h', -⟩) <;> omega

theorem getRaw_at {d : Decl} {m : Mode} {buf : Buf} {pre post : List Field} {f : Field} {e : LenExpr}
    (hfields : d.fields = pre ++ f :: post) (he : f.len = some e) {k : Nat} (hk : k = pre.length) :
    d.getRaw m buf k = varSlice m buf (curOff m (St.run m buf .init pre).bit (St.run m buf .init pre).lens)
      (lenExpr m buf (St.run m buf .init pre) e) := by
  subst hk
  have hget : d.fields[pre.length]? = some f := by
    rw [hfields, List.getElem?_append_right (Nat.le_refl _)]; simp
  have hbef : d.before m buf pre.length = St.run m buf .init pre := by
    rw [Decl.before, hfields, List.take_left' rfl]
  rw [Decl.getRaw, hget]
  simp only [hbef, fieldLen, he]

/-- Getters of a packet with a Length field that may be wrong. -/
theorem head_common {k : QuicKind} (hk : k.long = true) (m : Mode) {b : UInt8} {v : Buf}
    (hv : v.length = 4) {pre length body : Buf} {vals : List Val} {buf : Buf} {l : Nat}
    (hbuf : buf = b :: (v ++ (pre ++ (length ++ body))))
    (hmin : 7 ≤ buf.length) (hsl : SliceLen buf.length)
    (hscan : scan m k.items (k.head.map (·.read buf)) (pre ++ (length ++ body)) = some (vals, length ++ body))
    (hvl : vals.length = k.lengthPos) (h4 : vals[4]? = some (.num (bitsAt buf 6 2)))
    {p : Nat} (hp : p = bitsAt buf 6 2 + 1) (hp4 : p ≤ 4)
    (hl : Varint length l) :
    QuicPacket.remaining m ⟨k, buf⟩ = tailRest m p (length ++ body) ∧
      (∀ j x, vals[j]? = some x → k.decl.get m buf j = .ok x) ∧
      k.decl.getRaw m buf (k.lengthPos + 1) = .ok (body.take p) ∧
      k.decl.getRaw m buf (k.lengthPos + 2) =
        if p ≤ body.length ∧ p ≤ l then .ok ((body.drop p).take (l - p)) else panic := by
  have hmin' : k.decl.minSize ≤ buf.length := by
    rw [quic_minSize]; cases k <;> first | exact hmin | cases hk
  have hhs : k.headSize = 5 := by cases k <;> first | rfl | cases hk
  have hdrop : buf.drop 5 = pre ++ (length ++ body) := by
    rw [hbuf, ← List.cons_append, List.drop_left' (by simp [hv])]
  have hs0 : scan m k.items (k.head.map (·.read buf)) (buf.drop 5) = some (vals, length ++ body) := by
    rw [hdrop, hscan]
  have ha := quic_scan k m buf hmin' hsl (by rw [hhs]; exact hs0)
  have hlen : (k.decl.fields.take k.head.length ++ k.mid).length = k.lengthPos := by
    cases k <;> first | rfl | cases hk
  have hfields := long_fields k hk
  refine ⟨?_, ?_, ?_⟩
  · rw [remaining_long k hk m buf hmin hsl, hs0, ← hp]
  · exact fun j x hj => get_alive hfields ha hj
  have hsplit : ∀ a c : List Field, St.run m buf .init (a ++ c) = St.run m buf (St.run m buf .init a) c :=
    fun a c => run_append ..
  have hle : (length ++ body).length ≤ buf.length := by
    rw [hbuf]; simp only [List.length_cons, List.length_append]; omega
  have hsl' := hsl
  unfold SliceLen at hsl'
  simp only [List.length_append] at hle
  -- after Length
  have ha1 : Alive buf (St.run m buf .init (k.decl.fields.take k.head.length ++ k.mid ++
      [fbytes "length" lenVarintLength])) (vals ++ [bytesVal length]) body := by
    rw [hsplit]
    have := ha.step_vec (m := m) hsl (f := fbytes "length" lenVarintLength) rfl rfl
      (n := length.length) (by simp only [lenVarintLength, ok_bind]; exact (varint_enc hl _).1) (by simp)
    rw [List.take_left, List.drop_left] at this
    exact this
  have hpnlen : ∀ r, lenPn 4 m (env (vals ++ [bytesVal length])) r = .ok p := by
    intro r
    have h5 : (vals ++ [bytesVal length])[4]? = some (.num (bitsAt buf 6 2)) := by
      rw [List.getElem?_append_left (List.getElem?_eq_some_iff.mp h4).1, h4]
    rw [lenPn, lenNum, env, h5, hp]; rfl
  have hgr := getRaw_alive (d := k.decl) (f := fbytes "packet_number" (lenPn 4))
      (post := [fbytes "frames" (lenFrames k.lengthPos (k.lengthPos + 1)), frest "remaining"])
      (by rw [List.append_assoc _ [_]]; exact hfields) hsl ha1 rfl (hpnlen _) (by omega)
      (k := k.lengthPos + 1) (by rw [List.length_append, hlen]; rfl)
  refine ⟨hgr, ?_⟩
  have hfr := getRaw_at (d := k.decl) (m := m) (buf := buf)
    (f := fbytes "frames" (lenFrames k.lengthPos (k.lengthPos + 1))) (post := [frest "remaining"])
    (pre := k.decl.fields.take k.head.length ++ k.mid ++
      [fbytes "length" lenVarintLength] ++ [fbytes "packet_number" (lenPn 4)])
    (by rw [List.append_assoc _ [_], List.append_assoc _ [_]]; exact hfields) rfl
    (k := k.lengthPos + 2) (by rw [List.length_append, List.length_append, hlen]; rfl)
  rw [hfr]
  have hlt := varint_value_lt hl
  by_cases hpb : p ≤ body.length
  · have ha2 : Alive buf (St.run m buf .init (k.decl.fields.take k.head.length ++ k.mid ++
        [fbytes "length" lenVarintLength] ++ [fbytes "packet_number" (lenPn 4)]))
        (vals ++ [bytesVal length] ++ [bytesVal (body.take p)]) (body.drop p) := by
      rw [hsplit]
      exact ha1.step_vec (m := m) hsl (f := fbytes "packet_number" (lenPn 4)) rfl rfl
        (n := p) (hpnlen _) hpb
    have hfl : lenFrames k.lengthPos (k.lengthPos + 1) m
        (env (vals ++ [bytesVal length] ++ [bytesVal (body.take p)])) (.ok (body.drop p)) = usub m l p := by
      have e1 : env (vals ++ [bytesVal length] ++ [bytesVal (body.take p)]) k.lengthPos = .ok (bytesVal length) := by
        rw [env, List.append_assoc, List.getElem?_append_right (by omega), hvl]; simp
      have e2 : env (vals ++ [bytesVal length] ++ [bytesVal (body.take p)]) (k.lengthPos + 1) =
          .ok (bytesVal (body.take p)) := by
        rw [env, List.append_assoc, List.getElem?_append_right (by omega), hvl]; simp
      rw [lenFrames, e1, e2]
      simp only [ok_bind, Val.asNums, (varint_enc hl []).2]
      rw [List.length_map, List.length_take, Nat.min_eq_left hpb]
    rw [ha2.lenExpr hsl, hfl]
    obtain ⟨o, ho, hr, hol⟩ := ha2.curOff hsl m
    rw [ho]
    have hro := congrArg List.length hr
    rw [List.length_drop, List.length_drop] at hro
    by_cases hpl : p ≤ l
    · rw [if_pos ⟨hpb, hpl⟩]
      unfold usub
      rw [if_pos hpl, varSlice_alive hol (by omega), hr]
    · rw [if_neg (by omega)]
      cases m with
      | debug =>
        unfold usub; rw [if_neg hpl]
        rfl
      | release =>
        have hu : usub .release l p = .ok (usizeCard - (p - l)) := by
          unfold usub
          rw [if_neg hpl]
          show Except.ok _ = _
          congr 1
          rw [Nat.mod_eq_of_lt (by unfold usizeCard; omega : p < usizeCard),
            Nat.mod_eq_of_lt (by unfold usizeCard; omega)]
          unfold usizeCard; omega
        have hpo : p ≤ o := by
          have : buf.length = 5 + pre.length + length.length + body.length := by
            rw [hbuf]; simp [hv]; omega
          omega
        have hua : uadd .release o (usizeCard - (p - l)) = .ok (o - (p - l)) := by
          unfold uadd
          rw [if_neg (by unfold usizeCard; omega)]
          show Except.ok _ = _
          congr 1
          unfold usizeCard; omega
        rw [hu, varSlice, ok_bind, ok_bind, hua, ok_bind, slice, if_neg (by omega)]
  · rw [if_neg (by omega)]
    -- the packet number is incomplete
    obtain ⟨sizes, h1, h2, h3⟩ := ha1.lens
    have hst : St.run m buf .init (k.decl.fields.take k.head.length ++ k.mid ++
        [fbytes "length" lenVarintLength] ++ [fbytes "packet_number" (lenPn 4)]) =
        (St.run m buf .init (k.decl.fields.take k.head.length ++ k.mid ++
          [fbytes "length" lenVarintLength])).step m buf (fbytes "packet_number" (lenPn 4)) := by
      rw [hsplit]; rfl
    generalize St.run m buf .init (k.decl.fields.take k.head.length ++ k.mid ++
        [fbytes "length" lenVarintLength]) = st1 at ha1 h1 h2 h3 hst
    rw [hst]
    have hbl : body.length = buf.length - (st1.bit / 8 + sizes.sum) := by rw [h2, List.length_drop]
    have hco : curOff m (st1.step m buf (fbytes "packet_number" (lenPn 4))).bit
        (st1.step m buf (fbytes "packet_number" (lenPn 4))).lens = .ok (st1.bit / 8 + sizes.sum + p) := by
      show curOff m st1.bit (st1.lens ++ [lenExpr m buf st1 (lenPn 4)]) = _
      rw [ha1.lenExpr hsl, hpnlen, h1, show [Except.ok p] = [p].map (Except.ok (ε := Fail)) from rfl,
        ← List.map_append, curOff_ok (by unfold usizeCard; simp; omega)]
      simp; omega
    rw [hco]
    refine varSlice_beyond (by omega) ?_
    have hnh := run_NH (m := m) (buf := buf) [fbytes "packet_number" (lenPn 4)] (fun f hf =>
      long_endFields k m f (by
        simp only [List.mem_cons, List.not_mem_nil, or_false] at hf
        simp only [tailFields, List.mem_cons, List.not_mem_nil, or_false]
        simp [hf])) st1
      (by rw [h1]; intro l hl; obtain ⟨n, -, rfl⟩ := List.mem_map.mp hl; exact NH.ok _)
      (by rw [ha1.vals]; intro l hl; obtain ⟨n, -, rfl⟩ := List.mem_map.mp hl; exact NH.ok _)
    refine lenFrames_ends _ _ _ _ _ ?_ ((curOff_NH hnh.1).bind fun _ _ => sliceFrom_NH _ _)
    intro i
    rw [St.get]
    cases hi : (st1.step m buf (fbytes "packet_number" (lenPn 4))).vals[i]? with
    | none => exact NH.panic
    | some x => exact hnh.2 x (List.mem_of_getElem? hi)

/-! ## Heads -/

/-- What a packet with the given head shows; `body` are the bytes after the head. -/
def HeadShows (m : Mode) (h : Head) (buf body : Buf) : Prop :=
  QuicPacket.version m ⟨h.kind, buf⟩ = .ok (some (.nums [h.version])) ∧
  QuicPacket.destId m ⟨h.kind, buf⟩ = .ok (bytesOf h.dcid) ∧
  QuicPacket.srcId m ⟨h.kind, buf⟩ = .ok (some (bytesOf h.scid)) ∧
  QuicPacket.token m ⟨h.kind, buf⟩ = .ok (h.token.map bytesOf) ∧
  QuicPacket.packetNumber m ⟨h.kind, buf⟩ = .ok (some (beNat (body.take h.pnLen))) ∧
  QuicPacket.frames m ⟨h.kind, buf⟩ =
    if h.pnLen ≤ body.length ∧ h.pnLen ≤ h.length then
      .ok (some ((body.drop h.pnLen).take (h.length - h.pnLen))) else panic

theorem headShows {k : QuicKind} (hk : k.long = true) (m : Mode) {h : Head} {buf body : Buf}
    (hkk : h.kind = k) (hp4 : h.pnLen ≤ 4)
    (h5 : k.decl.get m buf 5 = .ok (.nums [h.version]))
    (h7 : k.decl.get m buf 7 = .ok (bytesVal h.dcid))
    (h9 : k.decl.get m buf 9 = .ok (bytesVal h.scid))
    (ht : QuicPacket.token m ⟨k, buf⟩ = .ok (h.token.map bytesOf))
    (hp : k.decl.getRaw m buf (k.lengthPos + 1) = .ok (body.take h.pnLen))
    (hf : k.decl.getRaw m buf (k.lengthPos + 2) =
      if h.pnLen ≤ body.length ∧ h.pnLen ≤ h.length then
        .ok ((body.drop h.pnLen).take (h.length - h.pnLen)) else panic) :
    HeadShows m h buf body := by
  have hp' := packetNumber_ok (pn := body.take h.pnLen) (by rw [List.length_take]; omega)
  unfold HeadShows
  rw [hkk]
  have e1 : QuicPacket.version m ⟨k, buf⟩ = some <$> k.decl.get m buf 5 := by
    cases k <;> first | rfl | cases hk
  have e2 : QuicPacket.destId m ⟨k, buf⟩ = k.decl.get m buf 7 := by
    cases k <;> first | rfl | cases hk
  have e3 : QuicPacket.srcId m ⟨k, buf⟩ = some <$> k.decl.get m buf 9 := by
    cases k <;> first | rfl | cases hk
  have e4 : QuicPacket.packetNumber m ⟨k, buf⟩ =
      (some <$> k.decl.getRaw m buf (k.lengthPos + 1)) >>= fun raw =>
        match raw with
        | none => .ok none
        | some bytes => some <$> Verif.packetNumber (bytes.map UInt8.toNat) := by
    cases k <;> first | rfl | cases hk
  have e5 : QuicPacket.frames m ⟨k, buf⟩ = some <$> k.decl.getRaw m buf (k.lengthPos + 2) := by
    cases k <;> first | rfl | cases hk
  refine ⟨?_, ?_, ?_, ht, ?_, ?_⟩
  · rw [e1, h5]; rfl
  · rw [e2, h7]; rfl
  · rw [e3, h9]; rfl
  · rw [e4, hp]
    show some <$> Verif.packetNumber ((body.take h.pnLen).map UInt8.toNat) = _
    rw [hp']; rfl
  · rw [e5, hf]; split <;> rfl

/-- What holds of every head. -/
def HeadFacts (h : Head) (head : Buf) : Prop :=
  ∃ b v t, head = b :: (v ++ t) ∧ v.length = 4 ∧ 2 ≤ t.length ∧
    kindOf b v = some h.kind ∧ h.kind.long = true ∧
    ∀ (m : Mode) (body : Buf), SliceLen (head ++ body).length →
      (∃ length, Varint length h.length ∧
        QuicPacket.remaining m ⟨h.kind, head ++ body⟩ = tailRest m h.pnLen (length ++ body)) ∧
      HeadShows m h (head ++ body) body

theorem plain_head {k : QuicKind} (hk : k = .zeroRtt ∨ k = .handshake) {ty : Nat} (hty : ty < 4)
    {version p l : Nat} {dcid scid : Buf} {reserved : Nat} {length : Buf}
    (hh : HeaderOk version dcid scid) (hp : 1 ≤ p ∧ p ≤ 4) (hr : reserved < 4)
    (hl : Varint length l) (m : Mode) (body : Buf)
    (hsl : SliceLen (longHeader ty reserved p version dcid scid ++ length ++ body).length) :
    QuicPacket.remaining m ⟨k, longHeader ty reserved p version dcid scid ++ length ++ body⟩ =
        tailRest m p (length ++ body) ∧
      HeadShows m ⟨k, version, dcid, scid, none, p, l⟩
        (longHeader ty reserved p version dcid scid ++ length ++ body) body := by
  obtain ⟨hv0, hv1, hd, hs⟩ := hh
  have hlong : k.long = true := by rcases hk with rfl | rfl <;> rfl
  generalize hbuf : longHeader ty reserved p version dcid scid ++ length ++ body = buf at hsl
  let b := UInt8.ofNat (0xC0 + 16 * ty + 4 * reserved + (p - 1))
  let v := beBytes 4 version
  have hvl : v.length = 4 := beBytes_length 4 version
  let pre := UInt8.ofNat dcid.length :: (dcid ++ (UInt8.ofNat scid.length :: scid))
  have hbuf' : buf = b :: (v ++ (pre ++ (length ++ body))) := by
    rw [← hbuf]
    simp [longHeader, pre, b, v]
  have h62 : bitsAt buf 6 2 = p - 1 := by
    rw [hbuf', bits62, long_byte hty hr hp]
    omega
  have hver : bitsAt buf 8 32 = version := by
    rw [hbuf', version_read b hvl, beNat_beBytes (by omega)]
  have hmin : 7 ≤ buf.length := by
    rw [hbuf']; simp [hvl, pre]; omega
  let hv := longSlots.map (·.read buf)
  let vals := hv ++ [.num (UInt8.ofNat dcid.length).toNat] ++ [bytesVal dcid] ++
    [.num (UInt8.ofNat scid.length).toNat] ++ [bytesVal scid]
  have hscan : scan m k.items (k.head.map (·.read buf)) (pre ++ (length ++ body)) =
      some (vals, length ++ body) := by
    have e1 : k.items = .u8 :: .u8Bytes 6 :: .u8 :: .u8Bytes 8 :: [] := by
      rcases hk with rfl | rfl <;> rfl
    have e2 : k.head.map (·.read buf) = hv := by rcases hk with rfl | rfl <;> rfl
    have e3 : ∀ X, pre ++ X = UInt8.ofNat dcid.length :: (dcid ++ (UInt8.ofNat scid.length :: (scid ++ X))) := by
      simp [pre]
    rw [e1, e2, e3, scan_cid m _ (j := 6) rfl (cid_byte hd), scan_cid m _ (j := 8) rfl (cid_byte hs), scan]
  have hpos : k.lengthPos = 10 := by rcases hk with rfl | rfl <;> rfl
  obtain ⟨h1, h2, h3, h4⟩ := head_common hlong m hvl hbuf' hmin hsl hscan (by rw [hpos]; rfl) rfl
    (p := p) (by rw [h62]; omega) hp.2 hl
  refine ⟨h1, headShows hlong m rfl hp.2 ?_ (h2 7 _ rfl) (h2 9 _ rfl) ?_ h3 h4⟩
  · rw [h2 5 (.nums [bitsAt buf 8 32]) rfl, hver]
  · rcases hk with rfl | rfl <;> rfl

theorem initial_head {version p l : Nat} {dcid scid token : Buf} {reserved : Nat} {tokenLen length : Buf}
    (hh : HeaderOk version dcid scid) (hp : 1 ≤ p ∧ p ≤ 4) (hr : reserved < 4)
    (htl : Varint tokenLen token.length) (hl : Varint length l) (m : Mode) (body : Buf)
    (hsl : SliceLen (longHeader 0 reserved p version dcid scid ++ tokenLen ++ token ++ length ++ body).length) :
    QuicPacket.remaining m ⟨.initial, longHeader 0 reserved p version dcid scid ++ tokenLen ++ token ++ length ++
        body⟩ = tailRest m p (length ++ body) ∧
      HeadShows m ⟨.initial, version, dcid, scid, some token, p, l⟩
        (longHeader 0 reserved p version dcid scid ++ tokenLen ++ token ++ length ++ body) body := by
  obtain ⟨hv0, hv1, hd, hs⟩ := hh
  generalize hbuf : longHeader 0 reserved p version dcid scid ++ tokenLen ++ token ++ length ++ body = buf at hsl
  let b := UInt8.ofNat (0xC0 + 16 * 0 + 4 * reserved + (p - 1))
  let v := beBytes 4 version
  have hvl : v.length = 4 := beBytes_length 4 version
  let pre := UInt8.ofNat dcid.length :: (dcid ++ (UInt8.ofNat scid.length :: (scid ++ (tokenLen ++ token))))
  have hbuf' : buf = b :: (v ++ (pre ++ (length ++ body))) := by
    rw [← hbuf]
    simp [longHeader, pre, b, v]
  have h62 : bitsAt buf 6 2 = p - 1 := by
    rw [hbuf', bits62, long_byte (by omega) hr hp]
    omega
  have hver : bitsAt buf 8 32 = version := by
    rw [hbuf', version_read b hvl, beNat_beBytes (by omega)]
  have hmin : 7 ≤ buf.length := by
    rw [hbuf']; simp [hvl, pre]; omega
  let hv := longSlots.map (·.read buf)
  let vals := hv ++ [.num (UInt8.ofNat dcid.length).toNat] ++ [bytesVal dcid] ++
    [.num (UInt8.ofNat scid.length).toNat] ++ [bytesVal scid] ++ [bytesVal tokenLen] ++ [bytesVal token]
  have hscan : scan m QuicKind.initial.items (QuicKind.initial.head.map (·.read buf)) (pre ++ (length ++ body)) =
      some (vals, length ++ body) := by
    have e1 : QuicKind.initial.items = .u8 :: .u8Bytes 6 :: .u8 :: .u8Bytes 8 :: .vi :: .viBytes 10 :: [] := rfl
    have e2 : QuicKind.initial.head.map (·.read buf) = hv := rfl
    have e3 : ∀ X, pre ++ X = UInt8.ofNat dcid.length :: (dcid ++ (UInt8.ofNat scid.length ::
        (scid ++ (tokenLen ++ (token ++ X))))) := by
      simp [pre]
    rw [e1, e2, e3, scan_cid m _ (j := 6) rfl (cid_byte hd), scan_cid m _ (j := 8) rfl (cid_byte hs),
      scan_blob m _ (j := 10) rfl htl, scan]
  obtain ⟨h1, h2, h3, h4⟩ := head_common (k := .initial) rfl m hvl hbuf' hmin hsl hscan rfl rfl
    (p := p) (by rw [h62]; omega) hp.2 hl
  refine ⟨h1, headShows (k := .initial) rfl m rfl hp.2 ?_ (h2 7 _ rfl) (h2 9 _ rfl) ?_ h3 h4⟩
  · rw [h2 5 (.nums [bitsAt buf 8 32]) rfl, hver]
  · show some <$> QuicKind.initial.decl.get m buf 11 = _
    rw [h2 11 _ rfl]; rfl

theorem longHead_facts {h : Head} {head : Buf} (hh : LongHead h head) : HeadFacts h head := by
  cases hh with
  | @initial version p l dcid scid token reserved tokenLen length hh hp hr htl hl =>
    refine ⟨UInt8.ofNat (0xC0 + 16 * 0 + 4 * reserved + (p - 1)), beBytes 4 version,
      UInt8.ofNat dcid.length :: (dcid ++ (UInt8.ofNat scid.length :: (scid ++ (tokenLen ++ (token ++ length))))),
      ?_, beBytes_length _ _, by simp; omega, ?_, rfl, ?_⟩
    · simp [longHeader]
    · exact kindOf_long (by omega) hr hp (version_ne hh.1 hh.2.1)
    · intro m body hsl
      obtain ⟨h1, h2⟩ := initial_head hh hp hr htl hl m body hsl
      exact ⟨⟨length, hl, h1⟩, h2⟩
  | @zeroRtt version p l dcid scid reserved length hh hp hr hl =>
    refine ⟨UInt8.ofNat (0xC0 + 16 * 1 + 4 * reserved + (p - 1)), beBytes 4 version,
      UInt8.ofNat dcid.length :: (dcid ++ (UInt8.ofNat scid.length :: (scid ++ length))),
      ?_, beBytes_length _ _, by simp; omega, ?_, rfl, ?_⟩
    · simp [longHeader]
    · exact kindOf_long (by omega) hr hp (version_ne hh.1 hh.2.1)
    · intro m body hsl
      obtain ⟨h1, h2⟩ := plain_head (.inl rfl) (by omega) hh hp hr hl m body hsl
      exact ⟨⟨length, hl, h1⟩, h2⟩
  | @handshake version p l dcid scid reserved length hh hp hr hl =>
    refine ⟨UInt8.ofNat (0xC0 + 16 * 2 + 4 * reserved + (p - 1)), beBytes 4 version,
      UInt8.ofNat dcid.length :: (dcid ++ (UInt8.ofNat scid.length :: (scid ++ length))),
      ?_, beBytes_length _ _, by simp; omega, ?_, rfl, ?_⟩
    · simp [longHeader]
    · exact kindOf_long (by omega) hr hp (version_ne hh.1 hh.2.1)
    · intro m body hsl
      obtain ⟨h1, h2⟩ := plain_head (.inr rfl) (by omega) hh hp hr hl m body hsl
      exact ⟨⟨length, hl, h1⟩, h2⟩

/-- A packet that can be gone on after has a head. -/
theorem tailRest_inv {m : Mode} {p : Nat} {rest r : Buf} (h : tailRest m p rest = .ok r) :
    ∃ length body l, Varint length l ∧ rest = length ++ body := by
  rw [tailRest, bind_eq_ok] at h
  obtain ⟨n, hn, h⟩ := h
  split at h
  · rename_i hle
    obtain ⟨v, hv⟩ := varint_take hn hle
    exact ⟨_, _, v, hv, (drop_eq_append hle).1⟩
  · simp at h

theorem long_inv {m : Mode} {b : UInt8} {v t : Buf} (hv : v.length = 4) {k : QuicKind} (hk : k.long = true)
    (h : kindOf b v = some k) (hmin : 2 ≤ t.length) (hsl : SliceLen (b :: (v ++ t)).length) {r : Buf}
    (hr : QuicPacket.remaining m ⟨k, b :: (v ++ t)⟩ = .ok r) :
    ∃ hd head body, LongHead hd head ∧ b :: (v ++ t) = head ++ body := by
  rw [remaining_long k hk _ _ (by simp [hv]; omega) hsl] at hr
  have hdrop : (b :: (v ++ t)).drop 5 = t := by
    rw [← List.cons_append, List.drop_left' (by simp [hv])]
  rw [hdrop, bits62] at hr
  obtain ⟨hvne, ty, hty, hb, hkt⟩ := long_first hk h
  have hve : v = beBytes 4 (beNat v) := by rw [← hv, beBytes_beNat]
  have hv0 : 0 < beNat v := by
    apply Nat.pos_of_ne_zero
    intro h0
    rw [h0] at hve
    exact hvne hve
  have hvlt : beNat v < 2 ^ 32 := by
    have := beNat_lt v
    rw [hv] at this; omega
  have hb4 : b.toNat / 4 % 4 < 4 := by omega
  have hp : 1 ≤ b.toNat % 4 + 1 ∧ b.toNat % 4 + 1 ≤ 4 := by omega
  have hcid : ∀ {l : UInt8} {bs : Buf}, l.toNat = bs.length → l = UInt8.ofNat bs.length := by
    intro l bs hl; rw [← hl, UInt8.ofNat_toNat]
  have hlt : ∀ {l : UInt8} {bs : Buf}, l.toNat = bs.length → bs.length < 256 := by
    intro l bs hl; have := l.toNat_lt; omega
  cases hs : scan m k.items (k.head.map (·.read (b :: (v ++ t)))) t with
  | none => rw [hs] at hr; simp at hr
  | some x =>
    rw [hs] at hr
    obtain ⟨vals, r0⟩ := x
    simp only at hr
    obtain ⟨length, body, l, hl, hr0⟩ := tailRest_inv hr
    by_cases h0 : ty = 0
    · subst h0
      simp only [ite_true] at hkt
      subst hkt
      obtain ⟨l1, dcid, t1, hl1, ht, hs⟩ := scan_cid_inv (is := [.u8, .u8Bytes 8, .vi, .viBytes 10])
        (j := 6) rfl hs
      obtain ⟨l2, scid, t2, hl2, ht1, hs⟩ := scan_cid_inv (is := [.vi, .viBytes 10]) (j := 8) rfl hs
      obtain ⟨tl, token, t3, htl, ht2, hs⟩ := scan_blob_inv (is := []) (j := 10) rfl hs
      simp only [scan, Option.some.injEq, Prod.mk.injEq] at hs
      obtain ⟨-, rfl⟩ := hs
      refine ⟨_, _, body, .initial (version := beNat v) (dcid := dcid) (scid := scid) (token := token)
        (reserved := b.toNat / 4 % 4) ⟨hv0, hvlt, hlt hl1, hlt hl2⟩ hp hb4 htl hl, ?_⟩
      rw [longHeader, ← hb, ← hve, ht, ht1, ht2, hr0, hcid hl1, hcid hl2]
      simp
    · have hitems : k.items = [.u8, .u8Bytes 6, .u8, .u8Bytes 8] ∧ k.head = longSlots := by
        rw [hkt, if_neg h0]; split <;> exact ⟨rfl, rfl⟩
      rw [hitems.1, hitems.2] at hs
      obtain ⟨l1, dcid, t1, hl1, ht, hs⟩ := scan_cid_inv (is := [.u8, .u8Bytes 8]) (j := 6) rfl hs
      obtain ⟨l2, scid, t2, hl2, ht1, hs⟩ := scan_cid_inv (is := []) (j := 8) rfl hs
      simp only [scan, Option.some.injEq, Prod.mk.injEq] at hs
      obtain ⟨-, rfl⟩ := hs
      have hfin : b :: (v ++ t) = (longHeader ty (b.toNat / 4 % 4) (b.toNat % 4 + 1) (beNat v) dcid scid ++
          length) ++ body := by
        rw [longHeader, ← hb, ← hve, ht, ht1, hr0, hcid hl1, hcid hl2]
        simp
      by_cases h1 : ty = 1
      · subst h1
        exact ⟨_, _, body, .zeroRtt ⟨hv0, hvlt, hlt hl1, hlt hl2⟩ hp hb4 hl, hfin⟩
      · have h2 : ty = 2 := by omega
        subst h2
        exact ⟨_, _, body, .handshake ⟨hv0, hvlt, hlt hl1, hlt hl2⟩ hp hb4 hl, hfin⟩

/-! ## The loop -/

theorem next_suffix {h : Head} {body rest : Buf} (hn : Next h body rest) : rest.length ≤ body.length := by
  rcases hn with ⟨-, -, rfl⟩ | ⟨-, -, rfl⟩ <;> rw [List.length_drop] <;> omega

theorem longHead_pos {h : Head} {head : Buf} (hh : LongHead h head) : 7 ≤ head.length := by
  obtain ⟨b, v, t, rfl, hv, ht, -⟩ := longHead_facts hh
  simp [hv]; omega

/-- A release build goes on after a packet. -/
theorem new_head {h : Head} {head body rest : Buf} (hh : LongHead h head) (hn : Next h body rest)
    (hsl : SliceLen (head ++ body).length) :
    QuicPacket.new .release (head ++ body) = QuicPacket.new .release rest >>= (fun
      | none => .ok none
      | some qs => .ok (some (⟨h.kind, head ++ body⟩ :: qs))) := by
  obtain ⟨b, v, t, hbs, hv, ht, hk, hkl, hf⟩ := longHead_facts hh
  obtain ⟨⟨length, hl, hr⟩, -⟩ := hf .release body hsl
  rw [(tailRest_release hl body rest).mpr hn] at hr
  have hbuf : head ++ body = b :: (v ++ (t ++ body)) := by rw [hbs]; simp
  have hmin : h.kind.decl.minSize ≤ (t ++ body).length + 5 := by
    rw [long_minSize hkl, List.length_append]; omega
  rw [hbuf] at hsl hr ⊢
  rw [new_step .release b _ hv hsl, hk]
  simp only
  rw [if_pos hmin, hr, ok_bind]
  rfl

theorem new_releaseBroken {buf : Buf} (h : ReleaseBroken buf) (hsl : SliceLen buf.length) :
    QuicPacket.new .release buf = panic := by
  obtain ⟨b, v, t, rfl, h1, h2, hv, h3, h4, h5⟩ := h
  obtain ⟨k, hk, hkl⟩ := broken_kind h1 h2 h3
  have hnh := (new_reported .release _ _ (Nat.le_refl _) hsl).1
  rw [new_step .release b t hv hsl, hk] at hnh ⊢
  simp only at hnh ⊢
  rw [if_pos (by rw [long_minSize hkl]; omega)] at hnh ⊢
  cases hr : QuicPacket.remaining .release ⟨k, b :: (v ++ t)⟩ with
  | ok r =>
    obtain ⟨hd, head, body, h6, h7⟩ := long_inv hv hkl hk h4 hsl hr
    refine (h5 ⟨hd, head, body, r, h6, ?_, h7⟩).elim
    obtain ⟨b', v', t', hbs, hv', -, hk', -, hf⟩ := longHead_facts h6
    have hbb : b = b' ∧ v = v' := by
      rw [hbs] at h7
      simp only [List.cons_append, List.append_assoc, List.cons.injEq] at h7
      exact ⟨h7.1, (List.append_inj h7.2 (by rw [hv, hv'])).1⟩
    have hkk : k = hd.kind := by
      rw [hbb.1, hbb.2, hk'] at hk
      exact (Option.some.inj hk).symm
    rw [h7] at hr hsl
    obtain ⟨⟨length, hl, hr'⟩, -⟩ := hf .release body hsl
    rw [hkk, hr'] at hr
    exact (tailRest_release hl body r).mp hr
  | error e =>
    cases e with
    | panic => rfl
    | hang => rw [hr] at hnh; exact (hnh rfl).elim

theorem release_cases (buf : Buf) :
    buf = [] ∨ Refused buf ∨ (∃ k, Ending buf k) ∨ ReleaseBroken buf ∨
      ∃ h head body rest, LongHead h head ∧ Next h body rest ∧ buf = head ++ body := by
  rcases datagram_cases buf with h | h | h | h | ⟨p, bs, rest, h, hbuf⟩
  · exact .inl h
  · exact .inr (.inl h)
  · exact .inr (.inr (.inl h))
  · by_cases hex : ∃ h head body more, LongHead h head ∧ Next h body more ∧ buf = head ++ body
    · exact .inr (.inr (.inr (.inr hex)))
    · obtain ⟨b, v, t, h0, h1, h2, h3, h4, h5, -⟩ := h
      exact .inr (.inr (.inr (.inl ⟨b, v, t, h0, h1, h2, h3, h4, h5, hex⟩)))
  · refine .inr (.inr (.inr (.inr ?_)))
    rw [hbuf]
    cases h with
    | @initial version dcid scid token pn frames reserved tokenLen length hh hp hr htl hl =>
      refine ⟨_, _, pn ++ (frames ++ rest), rest, .initial hh hp hr htl hl, .inl ⟨?_, ?_, ?_⟩, by simp⟩
      · simp
      · simp
      · show rest = (pn ++ (frames ++ rest)).drop (pn.length + frames.length)
        rw [← List.drop_drop, List.drop_left, List.drop_left]
    | @zeroRtt version dcid scid pn frames reserved length hh hp hr hl =>
      refine ⟨_, _, pn ++ (frames ++ rest), rest, .zeroRtt hh hp hr hl, .inl ⟨?_, ?_, ?_⟩, by simp⟩
      · simp
      · simp
      · show rest = (pn ++ (frames ++ rest)).drop (pn.length + frames.length)
        rw [← List.drop_drop, List.drop_left, List.drop_left]
    | @handshake version dcid scid pn frames reserved length hh hp hr hl =>
      refine ⟨_, _, pn ++ (frames ++ rest), rest, .handshake hh hp hr hl, .inl ⟨?_, ?_, ?_⟩, by simp⟩
      · simp
      · simp
      · show rest = (pn ++ (frames ++ rest)).drop (pn.length + frames.length)
        rw [← List.drop_drop, List.drop_left, List.drop_left]

theorem release_total (n : Nat) : ∀ buf : Buf, buf.length ≤ n →
    (∃ qs, ReleaseReports buf qs) ∨ ReleaseThen Refused buf ∨ ReleaseThen ReleaseBroken buf := by
  induction n with
  | zero =>
    intro buf hn
    rw [List.length_eq_zero_iff.mp (Nat.le_zero.mp hn)]
    exact .inl ⟨_, .nil⟩
  | succ n ih =>
    intro buf hn
    rcases release_cases buf with rfl | h | ⟨k, h⟩ | h | ⟨hd, head, body, rest, h, hx, rfl⟩
    · exact .inl ⟨_, .nil⟩
    · exact .inr (.inl (.here h))
    · exact .inl ⟨_, .last h⟩
    · exact .inr (.inr (.here h))
    · have := longHead_pos h
      have := next_suffix hx
      rw [List.length_append] at hn
      rcases ih rest (by omega) with ⟨qs, h'⟩ | h' | h'
      · exact .inl ⟨_, .cons h hx h'⟩
      · exact .inr (.inl (.cons h hx h'))
      · exact .inr (.inr (.cons h hx h'))

theorem slice_next {h : Head} {head body rest : Buf} (hn : Next h body rest)
    (hsl : SliceLen (head ++ body).length) : SliceLen rest.length := by
  have := next_suffix hn
  unfold SliceLen at hsl ⊢
  rw [List.length_append] at hsl; omega

theorem new_releaseReports {buf : Buf} {qs : List QuicPacket} (h : ReleaseReports buf qs) :
    SliceLen buf.length → QuicPacket.new .release buf = .ok (some qs) := by
  induction h with
  | nil => exact fun _ => rfl
  | last h => exact new_ending .release h
  | cons h hn _ ih =>
    intro hsl
    rw [new_head h hn hsl, ih (slice_next hn hsl)]
    rfl

theorem new_releaseRefused {buf : Buf} (h : ReleaseThen Refused buf) :
    SliceLen buf.length → QuicPacket.new .release buf = .ok none := by
  induction h with
  | here h => exact new_refused .release h
  | cons h hn _ ih =>
    intro hsl
    rw [new_head h hn hsl, ih (slice_next hn hsl)]
    rfl

theorem new_releasePanics {buf : Buf} (h : ReleaseThen ReleaseBroken buf) :
    SliceLen buf.length → QuicPacket.new .release buf = panic := by
  induction h with
  | here h => exact new_releaseBroken h
  | cons h hn _ ih =>
    intro hsl
    rw [new_head h hn hsl, ih (slice_next hn hsl)]
    rfl

end Verif
