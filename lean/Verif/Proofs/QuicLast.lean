import Verif.Proofs.QuicEnc

/-! Helper lemmas: QUIC packets that extend to the end of the datagram. -/

namespace Verif
open Spec

theorem oneRtt_payload (m : Mode) (buf : Buf) (h : 1 ≤ buf.length) (hsl : SliceLen buf.length) :
    oneRtt.payload m buf = .ok (buf.drop (10 + bitsAt buf 6 2)) := by
  have hsl' := hsl
  unfold SliceLen at hsl'
  have h5 : oneRtt.get m buf 5 = .ok (.num (bitsAt buf 6 2)) :=
    layoutOk_get oneRtt_layout (k := 5) rfl m buf h
  have h2 := bitsAt_lt buf 6 2
  have hl6 : (oneRtt.before m buf 6).lens = [] :=
    (before_fixed (d := oneRtt) (k := 6) (by decide) m buf).2
  have hl7 : (oneRtt.before m buf 7).lens = [.ok 8] := by
    rw [before_lens_succ (d := oneRtt) (k := 6) rfl rfl, hl6]; rfl
  have hl8 : (oneRtt.before m buf 8).lens = [8, bitsAt buf 6 2 + 1].map .ok := by
    rw [before_lens_succ (d := oneRtt) (k := 7) rfl rfl, hl7,
      show lenExpr m buf (oneRtt.before m buf 7) (lenPn 5) = .ok (bitsAt buf 6 2 + 1) from
        lenNum_eq (by decide) (by decide) h5]
    rfl
  have hbs : bitsSum (oneRtt.fields.take 8) = 8 := by decide
  have := payload_eq (d := oneRtt) (k := 8) (m := m) (buf := buf) (f := fpayloadRest "payload")
    (by decide +kernel) rfl hl8 (len := buf.length) rfl (by rw [hbs]; simp; omega)
  rw [this, hbs, List.take_of_length_le (by simp)]
  congr 2
  simp; omega

/-- What holds of every encoding of a packet that extends to the end. -/
def LastFacts (p : Quic.Packet) (bs : Buf) : Prop :=
  ∃ b v t, bs = b :: (v ++ t) ∧ v.length = 4 ∧ (Quic.kind p).decl.minSize ≤ t.length + 5 ∧
    kindOf b v = some (Quic.kind p) ∧ (Quic.kind p).long = false ∧
    ∀ m : Mode, SliceLen bs.length → Quic.Shows m ⟨Quic.kind p, bs⟩ p

theorem remaining_last {k : QuicKind} (h : k.long = false) (m : Mode) (buf : Buf) :
    QuicPacket.remaining m ⟨k, buf⟩ = .ok [] := by
  cases k <;> first | rfl | cases h

theorem last_facts {p : Quic.Packet} {bs : Buf} (h : Quic.LastEnc p bs) : LastFacts p bs := by
  cases h with
  | @retry version dcid scid token unused hh hu =>
    obtain ⟨hv0, hv1, hd, hs⟩ := hh
    generalize hbuf : [UInt8.ofNat (0xF0 + unused)] ++ Quic.beBytes 4 version ++
          [UInt8.ofNat dcid.length] ++ dcid ++ [UInt8.ofNat scid.length] ++ scid ++ token = buf
    have hvl := beBytes_length 4 version
    have hbyte : (UInt8.ofNat (0xF0 + unused)).toNat = 0xF0 + unused := by
      rw [UInt8.toNat_ofNat', Nat.mod_eq_of_lt (by omega)]
    have hbuf' : buf = UInt8.ofNat (0xF0 + unused) :: (Quic.beBytes 4 version ++
        (UInt8.ofNat dcid.length :: (dcid ++ (UInt8.ofNat scid.length :: (scid ++ token))))) := by
      rw [← hbuf]; simp
    refine ⟨_, _, _, hbuf', hvl, ?_, ?_, rfl, ?_⟩
    · show QuicKind.retry.decl.minSize ≤ _
      rw [quic_minSize]; simp; omega
    · unfold kindOf
      rw [hbyte, if_neg (by omega), if_neg (version_ne hv0 hv1), if_neg (by omega), if_neg (by omega),
        if_neg (by omega), if_neg (by omega)]
      rfl
    · intro m hsl
      have hmin : QuicKind.retry.decl.minSize ≤ buf.length := by
        rw [quic_minSize, hbuf']; simp [hvl]; omega
      have hver : bitsAt buf 8 32 = version := by
        rw [hbuf', version_read _ hvl, beNat_beBytes (by omega)]
      obtain ⟨hal, hN⟩ := quic_head .retry m buf hmin
      have hdrop : buf.drop QuicKind.retry.headSize = UInt8.ofNat dcid.length ::
          (dcid ++ (UInt8.ofNat scid.length :: (scid ++ token))) := by
        show buf.drop 5 = _
        rw [hbuf', ← List.cons_append, List.drop_left' (by simp [hvl])]
      have hscan : scan m QuicKind.retry.items (QuicKind.retry.head.map (·.read buf))
          (buf.drop QuicKind.retry.headSize) =
          some (retrySlots.map (·.read buf) ++ [.num (UInt8.ofNat dcid.length).toNat] ++ [bytesVal dcid] ++
            [.num (UInt8.ofNat scid.length).toNat] ++ [bytesVal scid], token) := by
        rw [hdrop]
        show scan m [.u8, .u8Bytes 5, .u8, .u8Bytes 7] (retrySlots.map (·.read buf)) _ = _
        rw [scan_cid m _ (j := 5) rfl (cid_byte hd), scan_cid m _ (j := 7) rfl (cid_byte hs), scan]
      have hg : ∀ j x, _ → Verif.retry.get m buf j = .ok x := fun j x =>
        get_scan (d := Verif.retry) (ls := [frest "retry_token"]) rfl (quic_mid .retry) hsl hal hscan
      have hraw : Verif.retry.getRaw m buf 9 = _ :=
        getRaw_scan (d := Verif.retry) (l := frest "retry_token") rfl rfl (quic_mid .retry) hsl hal
          (quic_tame .retry) hN
      rw [hscan] at hraw
      refine ⟨⟨?_, ?_, ?_, rfl, rfl, rfl⟩, hraw⟩
      · show some <$> Verif.retry.get m buf 4 = _
        rw [hg 4 (.nums [bitsAt buf 8 32]) rfl, hver]; rfl
      · exact hg 6 _ rfl
      · show some <$> Verif.retry.get m buf 8 = _
        rw [hg 8 _ rfl]; rfl
  | @versionNegotiation dcid scid versions unused hd hs hu =>
    generalize hbuf : [UInt8.ofNat (0x80 + unused)] ++ [0, 0, 0, 0] ++
          [UInt8.ofNat dcid.length] ++ dcid ++ [UInt8.ofNat scid.length] ++ scid ++ versions = buf
    have hbyte : (UInt8.ofNat (0x80 + unused)).toNat = 0x80 + unused := by
      rw [UInt8.toNat_ofNat', Nat.mod_eq_of_lt (by omega)]
    have hbuf' : buf = UInt8.ofNat (0x80 + unused) :: ([0, 0, 0, 0] ++
        (UInt8.ofNat dcid.length :: (dcid ++ (UInt8.ofNat scid.length :: (scid ++ versions))))) := by
      rw [← hbuf]; simp
    refine ⟨_, _, _, hbuf', rfl, ?_, ?_, rfl, ?_⟩
    · show QuicKind.versionNegotiation.decl.minSize ≤ _
      rw [quic_minSize]; simp; omega
    · unfold kindOf
      rw [hbyte, if_neg (by omega), if_pos rfl]
      rfl
    · intro m hsl
      have hmin : QuicKind.versionNegotiation.decl.minSize ≤ buf.length := by
        rw [quic_minSize, hbuf']; simp; omega
      obtain ⟨hal, hN⟩ := quic_head .versionNegotiation m buf hmin
      have hdrop : buf.drop QuicKind.versionNegotiation.headSize = UInt8.ofNat dcid.length ::
          (dcid ++ (UInt8.ofNat scid.length :: (scid ++ versions))) := by
        rw [hbuf']; rfl
      have hscan : scan m QuicKind.versionNegotiation.items
          (QuicKind.versionNegotiation.head.map (·.read buf))
          (buf.drop QuicKind.versionNegotiation.headSize) =
          some (vnSlots.map (·.read buf) ++ [.num (UInt8.ofNat dcid.length).toNat] ++ [bytesVal dcid] ++
            [.num (UInt8.ofNat scid.length).toNat] ++ [bytesVal scid], versions) := by
        rw [hdrop]
        show scan m [.u8, .u8Bytes 3, .u8, .u8Bytes 5] (vnSlots.map (·.read buf)) _ = _
        rw [scan_cid m _ (j := 3) rfl (cid_byte hd), scan_cid m _ (j := 5) rfl (cid_byte hs), scan]
      have hg : ∀ j x, _ → Verif.versionNegotiation.get m buf j = .ok x := fun j x =>
        get_scan (d := Verif.versionNegotiation) (ls := [frest "supported_versions"]) rfl
          (quic_mid .versionNegotiation) hsl hal hscan
      have hraw : Verif.versionNegotiation.getRaw m buf 7 = _ :=
        getRaw_scan (d := Verif.versionNegotiation) (l := frest "supported_versions") rfl rfl
          (quic_mid .versionNegotiation) hsl hal (quic_tame .versionNegotiation) hN
      rw [hscan] at hraw
      refine ⟨⟨rfl, ?_, ?_, rfl, rfl, rfl⟩, hraw⟩
      · exact hg 4 _ rfl
      · show some <$> Verif.versionNegotiation.get m buf 6 = _
        rw [hg 6 _ rfl]; rfl
  | @oneRtt dcid pn frames flags hd hp hfl =>
    generalize hbuf : [UInt8.ofNat (0x40 + 4 * flags + (pn.length - 1))] ++ dcid ++ pn ++ frames = buf
    have h1 := hp.1
    have h2 := hp.2
    have hbyte : (UInt8.ofNat (0x40 + 4 * flags + (pn.length - 1))).toNat =
        0x40 + 4 * flags + (pn.length - 1) := by
      rw [UInt8.toNat_ofNat', Nat.mod_eq_of_lt (by omega)]
    have hbuf0 : buf = UInt8.ofNat (0x40 + 4 * flags + (pn.length - 1)) :: (dcid ++ (pn ++ frames)) := by
      rw [← hbuf]; simp
    have hbuf' : buf = UInt8.ofNat (0x40 + 4 * flags + (pn.length - 1)) ::
        (dcid.take 4 ++ (dcid.drop 4 ++ (pn ++ frames))) := by
      rw [hbuf0, ← List.append_assoc (dcid.take 4), List.take_append_drop]
    refine ⟨_, _, _, hbuf', ?_, ?_, ?_, rfl, ?_⟩
    · rw [List.length_take, hd]; rfl
    · show QuicKind.oneRtt.decl.minSize ≤ _
      rw [quic_minSize]; simp
    · unfold kindOf
      rw [hbyte, if_pos (by omega)]
      rfl
    · intro m hsl
      have hmin : QuicKind.oneRtt.decl.minSize ≤ buf.length := by
        rw [quic_minSize, hbuf0]; simp
      have h62 : bitsAt buf 6 2 = pn.length - 1 := by
        rw [hbuf0, bits62, hbyte]; omega
      obtain ⟨hal, hN⟩ := quic_head .oneRtt m buf hmin
      have hdrop : buf.drop QuicKind.oneRtt.headSize = dcid ++ (pn ++ frames) := by
        rw [hbuf0]; rfl
      have hpnl : ∀ x, lenPn 5 m (env (oneRttSlots.map (·.read buf) ++ [bytesVal dcid])) x =
          .ok pn.length := by
        intro x
        show Except.ok (bitsAt buf 6 2 + 1) = _
        rw [h62]; congr 1; omega
      have hscan : scan m QuicKind.oneRtt.items (QuicKind.oneRtt.head.map (·.read buf))
          (buf.drop QuicKind.oneRtt.headSize) =
          some (oneRttSlots.map (·.read buf) ++ [bytesVal dcid] ++ [bytesVal pn], frames) := by
        rw [hdrop]
        show scan m [.const 8, .pn 5] (oneRttSlots.map (·.read buf)) _ = _
        rw [scan_bytes (it := .const 8) rfl _ _ _ _ (by rw [hd]; rfl),
          scan_bytes (it := .pn 5) rfl _ _ _ _ (hpnl _), scan]
      have hg : ∀ j x, _ → Verif.oneRtt.get m buf j = .ok x := fun j x =>
        get_scan (d := Verif.oneRtt) (ls := [fpayloadRest "payload"]) rfl (quic_mid .oneRtt) hsl hal hscan
      have hal1 : Alive buf (St.run m buf .init (QuicKind.oneRtt.decl.fields.take 7))
          (oneRttSlots.map (·.read buf) ++ [bytesVal dcid]) (pn ++ frames) := by
        have := scan_alive (m := m) (is := [.const 8]) hsl [fbytes "dest_id" (lenConst 8)] ⟨⟨rfl, rfl⟩, trivial⟩ hal
          (vals' := oneRttSlots.map (·.read buf) ++ [bytesVal dcid]) (rest' := pn ++ frames) (by
            rw [hdrop]
            show scan m [.const 8] (oneRttSlots.map (·.read buf)) _ = _
            rw [scan_bytes (it := .const 8) rfl _ _ _ _ (by rw [hd]; rfl), scan])
        rw [← run_append] at this
        exact this
      have hlt : pn.length < 2 ^ 63 := by omega
      have hraw : Verif.oneRtt.getRaw m buf 7 = .ok pn := by
        have := getRaw_alive (d := Verif.oneRtt) (f := fbytes "packet_number" (lenPn 5))
          (post := [fpayloadRest "payload"]) (k := 7) rfl hsl hal1 rfl (hpnl _) hlt rfl
        rw [List.take_left] at this
        exact this
      refine ⟨rfl, ?_, rfl, rfl, ?_, ?_⟩
      · exact hg 6 _ rfl
      · show ((some <$> Verif.oneRtt.getRaw m buf 7) >>= fun raw =>
          match raw with
          | none => .ok none
          | some bytes => some <$> Verif.packetNumber (bytes.map UInt8.toNat)) = _
        rw [hraw]
        show some <$> Verif.packetNumber (pn.map UInt8.toNat) = _
        rw [packetNumber_ok (by omega)]; rfl
      · show some <$> Verif.oneRtt.payload m buf = _
        rw [oneRtt_payload m buf (by rw [hbuf0]; simp) hsl, h62, hbuf0]
        rw [show 10 + (pn.length - 1) = (dcid.length + pn.length) + 1 by omega, List.drop_succ_cons,
          ← List.drop_drop, List.drop_left, List.drop_left]
        rfl

end Verif
