import Verif.Model.QuicDisplay
import Verif.Spec.QuicText
import Verif.Spec.QuicApi
import Verif.Proofs.QuicLoop
import Verif.Proofs.QuicFrameFields

/-! Helper lemmas: the texts printed for QUIC packets. -/

namespace Verif
open Spec

/-! ## Numbers -/

theorem digit_dec {d : Nat} (h : d < 10) : (d.digitChar, d) ∈ decDigits := by
  have : ∀ d < 10, (d.digitChar, d) ∈ decDigits := by decide +kernel
  exact this d h

theorem toDigits_dec (n : Nat) : DecNum (Nat.toDigits 10 n) n ∧
    ((Nat.toDigits 10 n).head? = some '0' → Nat.toDigits 10 n = ['0']) := by
  induction n using Nat.strongRecOn with
  | ind n ih =>
    by_cases h : n < 10
    · rw [Nat.toDigits_of_lt_base h]
      refine ⟨?_, ?_⟩
      · have := DecNum.snoc DecNum.nil (digit_dec h)
        simpa using this
      · intro h0
        simp only [List.head?_cons, Option.some.injEq] at h0
        rw [h0]
    · obtain ⟨h1, h2⟩ := ih (n / 10) (by omega)
      rw [Nat.toDigits_of_base_le (by omega) (by omega)]
      refine ⟨?_, ?_⟩
      · have := DecNum.snoc h1 (digit_dec (d := n % 10) (by omega))
        rwa [show 10 * (n / 10) + n % 10 = n by omega] at this
      · intro h0
        exfalso
        have hne : Nat.toDigits 10 (n / 10) ≠ [] := Nat.toDigits_ne_nil
        cases hd : Nat.toDigits 10 (n / 10) with
        | nil => exact hne hd
        | cons c t =>
          rw [hd] at h0 h1 h2
          have hc : c = '0' := by simpa using h0
          have h3 := h2 (by rw [hc]; rfl)
          rw [h3] at h1
          have : n / 10 = 0 := by
            have := ih (n / 10) (by omega)
            have hv := Nat.ofDigitChars_ten_toDigits (n := n / 10)
            rw [hd, h3] at hv
            simpa [Nat.ofDigitChars] using hv.symm
          omega

theorem fmtDec_spec (n : Nat) : Quic.Decimal (fmtDec n) n := by
  obtain ⟨h1, h2⟩ := toDigits_dec n
  have hl : (fmtDec n).toList = Nat.toDigits 10 n := Nat.toList_repr
  refine ⟨by rw [hl]; exact h1, ?_, ?_⟩
  · intro h
    have : (fmtDec n).toList = [] := by rw [h]; rfl
    rw [hl] at this
    exact Nat.toDigits_ne_nil this
  · intro h
    rw [hl] at h
    apply String.toList_inj.mp
    rw [hl, h2 h]; rfl

theorem lowerHex_spec {d : Nat} (h : d < 16) : (lowerHex d, d) ∈ hexDigits ∧ lowerHex d ∈ lowerHexDigits := by
  have : ∀ d < 16, (lowerHex d, d) ∈ hexDigits ∧ lowerHex d ∈ lowerHexDigits := by decide +kernel
  exact this d h

theorem hexNum_digits (v n : Nat) :
    HexNum ((List.range n).reverse.map fun i => lowerHex (v / 16 ^ i % 16)) (v % 16 ^ n) := by
  induction n generalizing v with
  | zero => rw [Nat.pow_zero, Nat.mod_one]; exact .nil
  | succ n ih =>
    rw [List.range_succ_eq_map, List.reverse_cons, List.map_append]
    have h := HexNum.snoc (ih (v / 16)) (lowerHex_spec (d := v % 16) (by omega)).1
    have he : ((List.map Nat.succ (List.range n)).reverse.map fun i => lowerHex (v / 16 ^ i % 16)) =
        (List.range n).reverse.map fun i => lowerHex (v / 16 / 16 ^ i % 16) := by
      rw [← List.map_reverse, List.map_map]
      apply List.map_congr_left
      intro i _
      simp only [Function.comp, Nat.succ_eq_add_one]
      rw [Nat.div_div_eq_div_mul, Nat.pow_succ, Nat.mul_comm]
    rw [he]
    have hv : v % 16 ^ (n + 1) = 16 * (v / 16 % 16 ^ n) + v % 16 := by
      rw [Nat.pow_succ, Nat.mul_comm (16 ^ n), Nat.mod_mul]; omega
    rw [hv]
    simpa using h

theorem fmt08x_spec {v : Nat} (h : v < 2 ^ 32) : Quic.EightHex (fmt08x v) v := by
  have hl : (fmt08x v).toList = [7, 6, 5, 4, 3, 2, 1, 0].map fun i => lowerHex (v / 16 ^ i % 16) := by
    rw [fmt08x, String.toList_ofList]
  refine ⟨?_, by rw [hl]; rfl, ?_⟩
  · rw [hl]
    have := hexNum_digits v 8
    rwa [Nat.mod_eq_of_lt (by omega)] at this
  · intro c hc
    rw [hl, List.mem_map] at hc
    obtain ⟨i, -, rfl⟩ := hc
    exact (lowerHex_spec (Nat.mod_lt _ (by omega))).2

theorem fmtBytes_spec (bytes : Buf) : Quic.BytesText (fmtBytes (bytes.map UInt8.toNat)) bytes := by
  refine ⟨(bytes.map UInt8.toNat).map fmtDec, rfl, by simp, ?_⟩
  intro i d b hd hb
  simp only [List.getElem?_map, hb, Option.map_some, Option.some.injEq] at hd
  rw [← hd]
  exact fmtDec_spec _

/-! ## Packets -/

open QuicPacket in
/-- The text of a packet from what its accessors return. -/
theorem display_eq {m : Mode} {q : QuicPacket} {version : Option Nat} {dest : Buf}
    {src token : Option Buf} {pn : Option Nat} {frames : Option Buf}
    (h : Quic.Accessors m q version dest src token pn frames) :
    q.display m = .ok ("packet-type: " ++ typeText q.kind ++ "\n" ++
      (version.elim "" fun v => "quic-version: " ++ versionDisplay v ++ "\n") ++
      (token.elim "" fun b => "token: " ++ fmtBytes (b.map UInt8.toNat) ++ "\n") ++
      (pn.elim "" fun n => "packet-number: " ++ fmtDec n ++ "\n") ++
      ("dest-id: " ++ fmtBytes (dest.map UInt8.toNat) ++ "\n") ++
      (src.elim "" fun b => "src-id: " ++ fmtBytes (b.map UInt8.toNat) ++ "\n") ++
      (frames.elim "" fun b => "payload: " ++ fmtDec b.length ++ "\n")) := by
  obtain ⟨h1, h2, h3, h4, h5, h6⟩ := h
  unfold QuicPacket.display
  rw [h1, h2, h3, h4, h5, h6]
  cases version <;> cases token <;> cases pn <;> cases src <;> cases frames <;> rfl

/-- Consecutive lines. -/
theorem linesText_append {a b : List Quic.Line} {s t : String} (ha : Quic.LinesText a s)
    (hb : Quic.LinesText b t) : Quic.LinesText (a ++ b) (s ++ t) := by
  induction ha with
  | nil => simpa using hb
  | cons h _ ih =>
    rw [String.append_assoc]
    exact .cons h ih

theorem line_one {l : Quic.Line} {s : String} (h : Quic.LineText l s) : Quic.LinesText [l] s := by
  have := Quic.LinesText.cons h .nil
  simpa using this

theorem line_version {v : Nat} (h : v < 2 ^ 32) :
    Quic.LinesText [.version v] ("quic-version: " ++ versionDisplay v ++ "\n") := by
  have := line_one (.version (fmt08x_spec h))
  rwa [show "quic-version: 0x" ++ fmt08x v ++ "\n" = "quic-version: " ++ versionDisplay v ++ "\n" by
    rw [versionDisplay, ← String.append_assoc]; rfl] at this

/-- The version of a packet is a `u32`. -/
theorem version_lt {p : Quic.Packet} {bs : Buf} (h : Quic.LongEnc p bs ∨ Quic.LastEnc p bs) :
    match p with
    | .initial v .. => v < 2 ^ 32
    | .zeroRtt v .. => v < 2 ^ 32
    | .handshake v .. => v < 2 ^ 32
    | .retry v .. => v < 2 ^ 32
    | _ => True := by
  rcases h with h | h <;> cases h <;> first | trivial | (rename_i hh _; exact hh.2.1) | (rename_i hh _ _ _; exact hh.2.1) | (rename_i hh _ _ _ _; exact hh.2.1)

/-- The text of a well-formed packet. -/
theorem display_shows {m : Mode} {q : QuicPacket} {p : Quic.Packet} {bs : Buf}
    (he : Quic.LongEnc p bs ∨ Quic.LastEnc p bs) (hk : q.kind = Quic.kind p) (h : Quic.Shows m q p) :
    ∃ s, q.display m = .ok s ∧ Quic.LinesText (Quic.lines p) s := by
  have hv := version_lt he
  cases p with
  | initial version dcid scid token pn frames =>
    refine ⟨_, display_eq h, ?_⟩
    rw [hk]
    exact linesText_append (linesText_append (linesText_append (linesText_append (linesText_append
      (linesText_append (line_one (.type (name := "initial"))) (line_version hv))
      (line_one (.token (fmtBytes_spec token)))) (line_one (.packetNumber (fmtDec_spec _))))
      (line_one (.destId (fmtBytes_spec dcid)))) (line_one (.srcId (fmtBytes_spec scid))))
      (line_one (.payload (fmtDec_spec _)))
  | zeroRtt version dcid scid pn frames =>
    refine ⟨_, display_eq h, ?_⟩
    rw [hk]
    exact linesText_append (linesText_append (linesText_append (linesText_append (linesText_append
      (linesText_append (line_one (.type (name := "0rtt"))) (line_version hv))
      .nil) (line_one (.packetNumber (fmtDec_spec _))))
      (line_one (.destId (fmtBytes_spec dcid)))) (line_one (.srcId (fmtBytes_spec scid))))
      (line_one (.payload (fmtDec_spec _)))
  | handshake version dcid scid pn frames =>
    refine ⟨_, display_eq h, ?_⟩
    rw [hk]
    exact linesText_append (linesText_append (linesText_append (linesText_append (linesText_append
      (linesText_append (line_one (.type (name := "handshake"))) (line_version hv))
      .nil) (line_one (.packetNumber (fmtDec_spec _))))
      (line_one (.destId (fmtBytes_spec dcid)))) (line_one (.srcId (fmtBytes_spec scid))))
      (line_one (.payload (fmtDec_spec _)))
  | retry version dcid scid token =>
    refine ⟨_, display_eq h.1, ?_⟩
    rw [hk]
    exact linesText_append (linesText_append (linesText_append (linesText_append (linesText_append
      (linesText_append (line_one (.type (name := "retry"))) (line_version hv)) .nil) .nil)
      (line_one (.destId (fmtBytes_spec dcid)))) (line_one (.srcId (fmtBytes_spec scid)))) .nil
  | versionNegotiation dcid scid versions =>
    refine ⟨_, display_eq h.1, ?_⟩
    rw [hk]
    exact linesText_append (linesText_append (linesText_append (linesText_append (linesText_append
      (linesText_append (line_one (.type (name := "version-negotiation"))) .nil) .nil) .nil)
      (line_one (.destId (fmtBytes_spec dcid)))) (line_one (.srcId (fmtBytes_spec scid)))) .nil
  | oneRtt dcid pn frames =>
    refine ⟨_, display_eq h, ?_⟩
    rw [hk]
    exact linesText_append (linesText_append (linesText_append (linesText_append (linesText_append
      (linesText_append (line_one (.type (name := "1rtt"))) .nil) .nil)
      (line_one (.packetNumber (fmtDec_spec _))))
      (line_one (.destId (fmtBytes_spec dcid)))) .nil) (line_one (.payload (fmtDec_spec _)))

/-! ## Packets that end early -/

/-- The bytes of a field after fields that do not fit. -/
theorem getRaw_dead {d : Decl} {m : Mode} {buf : Buf} {hd fs post : List Field} {f : Field}
    (hfields : d.fields = hd ++ fs ++ f :: post) {is : List Item}
    (hi : ItemsAre is fs) {vals : List Val} {rest : Buf} (hsl : SliceLen buf.length)
    (h : Alive buf (St.run m buf .init hd) vals rest) (ht : tame vals.length [] is)
    (hN : NumSmall (St.run m buf .init hd).vals)
    (hf : ∀ e, f.len = some e → e.ends)
    (hs : scan m is vals rest = none) {k : Nat} (hk : k = hd.length + fs.length) :
    d.getRaw m buf k = panic := by
  subst hk
  have hget : d.fields[hd.length + fs.length]? = some f := by
    rw [hfields, List.getElem?_append_right (by simp)]; simp
  have hbef : d.before m buf (hd.length + fs.length) = St.run m buf (St.run m buf .init hd) fs := by
    rw [Decl.before, hfields, List.take_left' (by simp), run_append]
  rw [Decl.getRaw, hget]
  simp only [hbef]
  have hnh : (∀ l ∈ (St.run m buf (St.run m buf .init hd) fs).lens, NH l) ∧
      ∀ x ∈ (St.run m buf (St.run m buf .init hd) fs).vals, NH x := by
    obtain ⟨sizes, h1, -⟩ := h.lens
    refine run_NH fs (items_endFields m hi) _ ?_ ?_
    · rw [h1]; intro l hl; obtain ⟨n, -, rfl⟩ := List.mem_map.mp hl; exact NH.ok _
    · rw [h.vals]; intro l hl; obtain ⟨n, -, rfl⟩ := List.mem_map.mp hl; exact NH.ok _
  have hco := curOff_NH (m := m) (bit := (St.run m buf (St.run m buf .init hd) fs).bit) hnh.1
  apply not_ok_panic
  · refine varSlice_NH hco ?_
    unfold fieldLen
    cases he : f.len with
    | none => exact NH.ok _
    | some e =>
      refine hf e he _ _ _ ?_ (hco.bind fun _ _ => sliceFrom_NH _ _)
      intro i
      rw [St.get]
      cases hi : (St.run m buf (St.run m buf .init hd) fs).vals[i]? with
      | none => exact NH.panic
      | some x => exact hnh.2 x (List.mem_of_getElem? hi)
  · intro a ha
    rw [varSlice, bind_eq_ok] at ha
    obtain ⟨o, ho, ha⟩ := ha
    have hlt := scan_dead hsl is fs hi h ht (fun j hj => by simp at hj) hN hs ho
    rw [bind_eq_ok] at ha
    obtain ⟨l, -, ha⟩ := ha
    rw [bind_eq_ok] at ha
    obtain ⟨b, -, ha⟩ := ha
    unfold slice at ha
    split at ha
    · omega
    · simp at ha

theorem get_vec_panic {d : Decl} {m : Mode} {buf : Buf} {k : Nat} {f : Field}
    (hf : d.fields[k]? = some f) (hty : f.ty = .vecPrim (u 8))
    (h : d.getRaw m buf k = panic) : d.get m buf k = panic := by
  rw [Decl.getRaw, hf] at h
  rw [Decl.get, hf]
  simp only at h ⊢
  rw [hty, getField, h]; rfl

theorem ids_scan_some (m : Mode) {j : Nat} {vals : List Val} (hj : vals.length = j) (l : UInt8) {t : Buf}
    (h : l.toNat + 1 ≤ t.length) :
    scan m [.u8, .u8Bytes j, .u8] vals (l :: t) =
      some (vals ++ [.num l.toNat] ++ [bytesVal (t.take l.toNat)] ++ [.num (t.getD l.toNat 0).toNat],
        t.drop (l.toNat + 1)) := by
  have ht : t = t.take l.toNat ++ t.drop l.toNat := (List.take_append_drop _ _).symm
  have hd : t.drop l.toNat = t.getD l.toNat 0 :: t.drop (l.toNat + 1) := by
    rw [List.drop_eq_getElem_cons (by omega), List.getD_eq_getElem?_getD, List.getElem?_eq_getElem (by omega)]
    rfl
  have hs := scan_cid m [.u8] hj (l := l) (bs := t.take l.toNat) (by rw [List.length_take]; omega)
    (t.drop l.toNat)
  rw [← ht] at hs
  rw [hs, hd]
  rfl

theorem ids_scan_none (m : Mode) {j : Nat} {vals : List Val} (hj : vals.length = j) (l : UInt8) {t : Buf}
    (h : t.length < l.toNat + 1) : scan m [.u8, .u8Bytes j, .u8] vals (l :: t) = none := by
  cases hs : scan m [.u8, .u8Bytes j, .u8] vals (l :: t) with
  | none => rfl
  | some x =>
    exfalso
    obtain ⟨l', bs, t', h1, h2, h3⟩ := scan_cid_inv hj hs
    injection h2 with h4 h5
    subst h4
    cases t' with
    | nil => simp [scan, Item.len] at h3
    | cons c t' =>
      rw [h5] at h
      simp only [List.length_append, List.length_cons] at h
      omega

/-- The connection ids of a Version Negotiation or Retry packet; `j` is the position of
`dest_id_len`. -/
theorem ids_get {d : Decl} {m : Mode} {buf : Buf} {hd post : List Field} {j : Nat} (hj : hd.length = j)
    (hfields : d.fields = hd ++ fprim "dest_id_len" 8 :: fbytes "dest_id" (lenU8 j) ::
      fprim "src_id_len" 8 :: fbytes "src_id" (lenU8 (j + 2)) :: post)
    (hsl : SliceLen buf.length) {vals : List Val} (hvl : vals.length = j) {l : UInt8} {t : Buf}
    (hdrop : buf.drop 5 = l :: t)
    (h : Alive buf (St.run m buf .init hd) vals (buf.drop 5))
    (hN : NumSmall (St.run m buf .init hd).vals) :
    d.get m buf (j + 1) = .ok (Quic.bytesOf (t.take l.toNat)) ∧
    (t.length < l.toNat + 1 → d.get m buf (j + 3) = panic) ∧
    (l.toNat + 1 ≤ t.length → d.get m buf (j + 3) =
      .ok (Quic.bytesOf ((t.drop (l.toNat + 1)).take (t.getD l.toNat 0).toNat))) := by
  subst hvl
  have hlt := l.toNat_lt
  have hf0 : d.fields[vals.length + 1]? = some (fbytes "dest_id" (lenU8 vals.length)) := by
    rw [hfields, List.getElem?_append_right (by omega), hj]
    simp
  have hf1 : d.fields[vals.length + 3]? = some (fbytes "src_id" (lenU8 (vals.length + 2))) := by
    rw [hfields, List.getElem?_append_right (by omega), hj]
    simp
  refine ⟨?_, ?_, ?_⟩
  · apply get_vec_of_raw hf0 rfl
    have ha : Alive buf (St.run m buf .init (hd ++ [fprim "dest_id_len" 8])) (vals ++ [.num l.toNat]) t := by
      rw [run_append]
      exact scan_alive hsl [.u8] [fprim "dest_id_len" 8] ⟨⟨rfl, rfl⟩, trivial⟩ h (by rw [hdrop]; rfl)
    exact getRaw_alive (pre := hd ++ [fprim "dest_id_len" 8]) (by rw [hfields, List.append_assoc]; rfl) hsl ha
      rfl (lenU8_snoc m vals l.toNat _) (by omega) (by simp [hj])
  · intro hlen
    apply get_vec_panic hf1 rfl
    refine getRaw_dead (hd := hd) (fs := [fprim "dest_id_len" 8, fbytes "dest_id" (lenU8 vals.length),
      fprim "src_id_len" 8]) (f := fbytes "src_id" (lenU8 (vals.length + 2))) (post := post)
      (is := [.u8, .u8Bytes vals.length, .u8]) (by rw [hfields, List.append_assoc]; rfl)
      ⟨⟨rfl, rfl⟩, ⟨rfl, rfl⟩, ⟨rfl, rfl⟩, trivial⟩ hsl h ?_ hN ?_ ?_ (by simp [hj])
    · simp [tame, Item.cap, grow, Item.strict, Item.ref]
    · intro e he
      cases he
      exact lenNum_ends _ _
    · rw [hdrop]; exact ids_scan_none m rfl l hlen
  · intro hlen
    have ha : Alive buf (St.run m buf .init (hd ++ [fprim "dest_id_len" 8,
        fbytes "dest_id" (lenU8 vals.length), fprim "src_id_len" 8]))
        (vals ++ [.num l.toNat] ++ [bytesVal (t.take l.toNat)] ++ [.num (t.getD l.toNat 0).toNat])
        (t.drop (l.toNat + 1)) := by
      rw [run_append]
      exact scan_alive hsl [.u8, .u8Bytes vals.length, .u8]
        [fprim "dest_id_len" 8, fbytes "dest_id" (lenU8 vals.length), fprim "src_id_len" 8]
        ⟨⟨rfl, rfl⟩, ⟨rfl, rfl⟩, ⟨rfl, rfl⟩, trivial⟩ h (by rw [hdrop]; exact ids_scan_some m rfl l hlen)
    refine get_vec_of_raw hf1 rfl (getRaw_alive (pre := hd ++ [fprim "dest_id_len" 8,
        fbytes "dest_id" (lenU8 vals.length), fprim "src_id_len" 8]) (by rw [hfields, List.append_assoc]; rfl)
        hsl ha rfl (n := (t.getD l.toNat 0).toNat) ?_ ?_ (by simp [hj]))
    · have := lenU8_snoc m (vals ++ [.num l.toNat] ++ [bytesVal (t.take l.toNat)]) (t.getD l.toNat 0).toNat
        (.ok (t.drop (l.toNat + 1)))
      rwa [show (vals ++ [Val.num l.toNat] ++ [bytesVal (t.take l.toNat)]).length = vals.length + 2 by simp]
        at this
    · have := (t.getD l.toNat 0).toNat_lt
      omega

/-- Bytes 5 and following of a packet with at least 7 bytes. -/
theorem drop5 {buf : Buf} (h : 7 ≤ buf.length) :
    ∃ (l : UInt8) (t : Buf), buf.drop 5 = l :: t ∧ l.toNat = bitsAt buf 40 8 ∧ t.length = buf.length - 6 := by
  refine ⟨buf[5], buf.drop 6, List.drop_eq_getElem_cons (by omega), ?_, by simp⟩
  have := Props.C55_whole_bytes buf 5 1
  rw [this, List.drop_eq_getElem_cons (show 5 < buf.length by omega), List.take_succ_cons, List.take_zero]
  simp [beNat]

open QuicPacket in
/-- When printing a Version Negotiation or Retry packet panics. -/
theorem display_ids {k : QuicKind} (hk : k = .versionNegotiation ∨ k = .retry) (m : Mode) {buf : Buf}
    (hmin : 7 ≤ buf.length) (hsl : SliceLen buf.length) :
    (buf.length < 7 + bitsAt buf 40 8 → QuicPacket.display m ⟨k, buf⟩ = panic) ∧
    (7 + bitsAt buf 40 8 ≤ buf.length → ∃ s, QuicPacket.display m ⟨k, buf⟩ = .ok s) := by
  obtain ⟨l, t, hdrop, hl, ht⟩ := drop5 hmin
  rcases hk with rfl | rfl
  · have hm : QuicKind.versionNegotiation.decl.minSize ≤ buf.length := by rw [quic_minSize]; exact hmin
    obtain ⟨ha, hN⟩ := quic_head .versionNegotiation m buf hm
    obtain ⟨h1, h2, h3⟩ := ids_get (d := Verif.versionNegotiation) (j := 3) (post := [frest "supported_versions"])
      rfl rfl hsl rfl hdrop ha hN
    have hd : QuicPacket.display m ⟨.versionNegotiation, buf⟩ =
        (some <$> Verif.versionNegotiation.get m buf 6 >>= optLine "src-id" bytesText) >>= fun l6 =>
          .ok ("packet-type: version-negotiation\n" ++ "" ++ "" ++ "" ++
            ("dest-id" ++ ": " ++ fmtBytes ((t.take l.toNat).map UInt8.toNat) ++ "\n") ++ l6 ++ "") := by
      unfold QuicPacket.display
      rw [show destId m ⟨.versionNegotiation, buf⟩ = _ from h1]
      rfl
    constructor
    · intro h
      rw [hd, h2 (by omega)]; rfl
    · intro h
      rw [hd, h3 (by omega)]
      exact ⟨_, rfl⟩
  · have hm : QuicKind.retry.decl.minSize ≤ buf.length := by rw [quic_minSize]; exact hmin
    obtain ⟨ha, hN⟩ := quic_head .retry m buf hm
    obtain ⟨h1, h2, h3⟩ := ids_get (d := Verif.retry) (j := 5) (post := [frest "retry_token"])
      rfl rfl hsl rfl hdrop ha hN
    have hv : Verif.retry.get m buf 4 = .ok (.nums [bitsAt buf 8 32]) :=
      layoutOk_get retry_layout (k := 4) rfl m buf hm
    have hd : QuicPacket.display m ⟨.retry, buf⟩ =
        (some <$> Verif.retry.get m buf 8 >>= optLine "src-id" bytesText) >>= fun l6 =>
          .ok ("packet-type: retry\n" ++ ("quic-version" ++ ": " ++ versionDisplay (bitsAt buf 8 32) ++ "\n") ++
            "" ++ "" ++
            ("dest-id" ++ ": " ++ fmtBytes ((t.take l.toNat).map UInt8.toNat) ++ "\n") ++ l6 ++ "") := by
      unfold QuicPacket.display
      rw [show destId m ⟨.retry, buf⟩ = _ from h1,
        show QuicPacket.version m ⟨.retry, buf⟩ = .ok (some (.nums [bitsAt buf 8 32])) by
          show some <$> Verif.retry.get m buf 4 = _
          rw [hv]; rfl]
      rfl
    constructor
    · intro h
      rw [hd, h2 (by omega)]; rfl
    · intro h
      rw [hd, h3 (by omega)]
      exact ⟨_, rfl⟩

/-- The packet number and connection id of a 1-RTT packet. -/
theorem oneRtt_parts (m : Mode) {buf : Buf} (hmin : 1 ≤ buf.length) (hsl : SliceLen buf.length) :
    Verif.oneRtt.get m buf 6 = .ok (Quic.bytesOf ((buf.drop 1).take 8)) ∧
    (buf.length < 9 → QuicPacket.packetNumber m ⟨.oneRtt, buf⟩ = panic) ∧
    (9 ≤ buf.length → QuicPacket.packetNumber m ⟨.oneRtt, buf⟩ =
      .ok (some (beNat ((buf.drop 9).take (bitsAt buf 6 2 + 1))))) := by
  have hm : QuicKind.oneRtt.decl.minSize ≤ buf.length := by rw [quic_minSize]; exact hmin
  obtain ⟨ha, hN⟩ := quic_head .oneRtt m buf hm
  have hlen : (buf.drop 1).length = buf.length - 1 := List.length_drop
  refine ⟨?_, ?_, ?_⟩
  · apply get_vec_of_raw (f := fbytes "dest_id" (lenConst 8)) rfl rfl
    exact getRaw_alive (d := Verif.oneRtt) (pre := Verif.oneRtt.fields.take 6) (k := 6)
      (f := fbytes "dest_id" (lenConst 8)) rfl hsl ha rfl (n := 8) rfl (by omega) rfl
  · intro h
    have hd : Verif.oneRtt.getRaw m buf 7 = panic := by
      refine getRaw_dead (hd := Verif.oneRtt.fields.take 6) (fs := [fbytes "dest_id" (lenConst 8)])
        (f := fbytes "packet_number" (lenPn 5)) (post := [fpayloadRest "payload"]) (is := [.const 8]) rfl
        ⟨⟨rfl, rfl⟩, trivial⟩ hsl ha ?_ hN ?_ ?_ rfl
      · simp [tame, Item.cap, grow, Item.ref]
      · intro e he; cases he; exact lenNum_ends _ _
      · show scan m [.const 8] _ (buf.drop 1) = none
        rw [scan.eq_def]
        simp only [Item.len, lenConst]
        rw [if_neg (by omega)]
    show (some <$> Verif.oneRtt.getRaw m buf 7) >>= _ = _
    rw [hd]; rfl
  · intro h
    have h2 := bitsAt_lt buf 6 2
    have hpn : Verif.oneRtt.getRaw m buf 7 = .ok ((buf.drop 9).take (bitsAt buf 6 2 + 1)) := by
      have ha8 : Alive buf (St.run m buf .init (Verif.oneRtt.fields.take 7))
          (QuicKind.oneRtt.head.map (·.read buf) ++ [.nums (((buf.drop 1).take 8).map (·.toNat))])
          ((buf.drop 1).drop 8) := by
        exact (ha.step_vec (m := m) hsl (f := fbytes "dest_id" (lenConst 8)) (n := 8) rfl rfl rfl
          (by show 8 ≤ (buf.drop 1).length; omega))
      have := getRaw_alive (d := Verif.oneRtt) (pre := Verif.oneRtt.fields.take 7) (k := 7)
        (f := fbytes "packet_number" (lenPn 5)) (post := [fpayloadRest "payload"]) rfl hsl ha8 rfl
        (n := bitsAt buf 6 2 + 1) ?_ (by omega) rfl
      · rwa [List.drop_drop] at this
      · rfl
    show (some <$> Verif.oneRtt.getRaw m buf 7) >>= _ = _
    rw [hpn]
    show some <$> Verif.packetNumber _ = _
    rw [packetNumber_ok (by rw [List.length_take]; omega)]
    rfl

open QuicPacket in
/-- When printing a 1-RTT packet panics. -/
theorem display_oneRtt (m : Mode) {buf : Buf} (hmin : 1 ≤ buf.length) (hsl : SliceLen buf.length) :
    (buf.length < 9 → QuicPacket.display m ⟨.oneRtt, buf⟩ = panic) ∧
    (9 ≤ buf.length → ∃ s, QuicPacket.display m ⟨.oneRtt, buf⟩ = .ok s) := by
  obtain ⟨h1, h2, h3⟩ := oneRtt_parts m hmin hsl
  constructor
  · intro h
    unfold QuicPacket.display
    rw [h2 h]
    rfl
  · intro h
    refine ⟨_, display_eq (version := none) (src := none) (token := none)
      (frames := some (buf.drop (10 + bitsAt buf 6 2))) ⟨rfl, h1, rfl, rfl, h3 h, ?_⟩⟩
    show some <$> Verif.oneRtt.payload m buf = _
    rw [oneRtt_payload m buf hmin hsl]; rfl

/-- The remaining bytes of every reported packet were found. -/
theorem new_remaining (m : Mode) (n : Nat) : ∀ (buf : Buf), buf.length ≤ n → SliceLen buf.length →
    ∀ qs, QuicPacket.new m buf = .ok (some qs) → ∀ q ∈ qs, ∃ r, q.remaining m = .ok r := by
  induction n with
  | zero =>
    intro buf hn _ qs h
    have : buf = [] := List.length_eq_zero_iff.mp (by omega)
    subst this
    rw [new_nil] at h
    cases h
    simp
  | succ n ih =>
    intro buf hn hsl qs h
    by_cases h0 : buf = []
    · subst h0; exact ih [] (by simp) hsl qs h
    by_cases h5 : buf.length < 5
    · rw [new_short m h0 h5] at h; cases h
    obtain ⟨b, v, t, rfl, hv⟩ := split5 h5
    rw [new_step m b t hv hsl] at h
    cases hk : kindOf b v with
    | none => rw [hk] at h; cases h
    | some k =>
      rw [hk] at h
      simp only at h
      by_cases hm : k.decl.minSize ≤ t.length + 5
      · rw [if_pos hm] at h
        have hmin : k.decl.minSize ≤ (b :: (v ++ t)).length := by
          simpa [hv, Nat.add_comm 4, Nat.add_assoc] using hm
        cases hr : QuicPacket.remaining m ⟨k, b :: (v ++ t)⟩ with
        | error e => rw [hr] at h; cases h
        | ok r =>
          have hs := remaining_suffix m _ hmin hsl hr
          have hl := hs.length_le
          rw [List.length_drop, List.length_cons] at hl
          have hsl' := hsl
          unfold SliceLen at hsl'
          rw [List.length_cons] at hsl' hn
          rw [hr, ok_bind] at h
          cases hq : QuicPacket.new m r with
          | error e => rw [hq] at h; cases h
          | ok o =>
            rw [hq] at h
            cases o with
            | none => cases h
            | some qs' =>
              cases h
              intro q hq'
              rcases List.mem_cons.mp hq' with rfl | hq'
              · exact ⟨r, hr⟩
              · exact ih r (by omega) (by unfold SliceLen; omega) qs' hq q hq'
      · rw [if_neg hm] at h; cases h

/-- In a debug build, every reported packet with a Length field is well-formed. -/
theorem reported_long {buf : Buf} (hsl : SliceLen buf.length) {qs : List QuicPacket}
    (h : QuicPacket.new .debug buf = .ok (some qs)) {q : QuicPacket} (hq : q ∈ qs)
    (hk : q.kind.long = true) :
    ∃ p bs, Quic.LongEnc p bs ∧ q.kind = Quic.kind p ∧ ∀ m, Quic.Shows m q p := by
  have hrep := (new_reported .debug _ buf (Nat.le_refl _) hsl).2 qs h
  obtain ⟨b, v, t, hbuf, hv, hkind, hmin⟩ := hrep.kinds q hq
  have hle := (hrep.inside q hq).length_le
  obtain ⟨r, hr⟩ := new_remaining .debug _ buf (Nat.le_refl _) hsl qs h q hq
  obtain ⟨k, qbuf⟩ := q
  simp only at hbuf hkind hmin hk hle
  subst hbuf
  rw [long_minSize hk] at hmin
  have hslq : SliceLen (b :: (v ++ t)).length := by unfold SliceLen at *; omega
  obtain ⟨p, bs, h1, h2⟩ := long_debug hv hk hkind (by simp [hv] at hmin; omega) hslq hr
  obtain ⟨b', v', t', hbs, hv', -, hk', -, hf⟩ := long_facts h1
  have hkk : k = Quic.kind p := by
    rw [hbs, List.cons_append, List.append_assoc] at h2
    injection h2 with hb hvt
    have hvv : v = v' := (List.append_inj hvt (by omega)).1
    rw [hb, hvv, hk'] at hkind
    exact (Option.some.inj hkind).symm
  refine ⟨p, bs, h1, hkk, fun m => ?_⟩
  rw [hkk, h2]
  exact (hf m r (by rw [← h2]; exact hslq)).2

end Verif
