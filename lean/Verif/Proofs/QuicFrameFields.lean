import Verif.Proofs.QuicFrameFacts
import Verif.Spec.QuicApi

/-! Helper lemmas: the fields of QUIC frames. -/

namespace Verif
open Spec

theorem scan_some {m : Mode} {it : Item} {e : LenExpr} (he : it.len = some e) (is : List Item)
    {vals : List Val} {bs t : Buf} (hn : e m (env vals) (.ok (bs ++ t)) = .ok bs.length) :
    scan m (it :: is) vals (bs ++ t) = scan m is (vals ++ [Quic.bytesOf bs]) t := by
  rw [scan.eq_def]
  simp only [he, hn]
  rw [if_pos (by simp), List.take_left, List.drop_left]
  rfl

theorem scan_vi {m : Mode} {bs : Buf} {v : Nat} (h : Quic.Varint bs v) (is : List Item)
    (vals : List Val) (t : Buf) :
    scan m (.vi :: is) vals (bs ++ t) = scan m is (vals ++ [Quic.bytesOf bs]) t :=
  scan_some rfl is (by simp only [lenVarintLength, ok_bind]; exact (varint_enc h t).1)

theorem scan_count {m : Mode} {it : Item} {is : List Item} {vals : List Val} {rs : List Buf}
    (hc : Counts m it vals rs.length) (h : ∀ r ∈ rs, ∃ v, Quic.Varint r v) (t : Buf) :
    scan m (it :: is) vals (rs.flatten ++ t) = scan m is (vals ++ [Quic.bytesOf rs.flatten]) t := by
  obtain ⟨e, he, hc⟩ := hc
  exact scan_some he is (by rw [hc]; exact (nVarints_iff _ _ _).mpr ⟨rs, t, rfl, h, rfl, rfl⟩)

theorem scan_none {m : Mode} {it : Item} {is : List Item} {vals : List Val}
    (hc : Counts m it vals 0) (t : Buf) :
    scan m (it :: is) vals t = scan m is (vals ++ [Quic.bytesOf []]) t :=
  scan_count (rs := []) hc (by simp) t

theorem scan_one {m : Mode} {it : Item} {is : List Item} {vals : List Val} {bs : Buf} {v : Nat}
    (hc : Counts m it vals 1) (h : Quic.Varint bs v) (t : Buf) :
    scan m (it :: is) vals (bs ++ t) = scan m is (vals ++ [Quic.bytesOf bs]) t := by
  have := scan_count (is := is) (rs := [bs]) hc (by simpa using ⟨v, h⟩) t
  simpa using this

theorem scan_viBytes {m : Mode} {j : Nat} {is : List Item} {vals : List Val} {l bs : Buf}
    (hj : env vals j = .ok (Quic.bytesOf l)) (h : Quic.Varint l bs.length) (t : Buf) :
    scan m (.viBytes j :: is) vals (bs ++ t) = scan m is (vals ++ [Quic.bytesOf bs]) t :=
  scan_some rfl is (by rw [lenVarint, hj]; exact (varint_enc h []).2)

theorem scan_stream {m : Mode} {j : Nat} {is : List Item} {vals : List Val} {l bs : Buf}
    (hj : env vals j = .ok (Quic.bytesOf l)) (h : Quic.Varint l bs.length) (t : Buf) :
    scan m (.stream j :: is) vals (bs ++ t) = scan m is (vals ++ [Quic.bytesOf bs]) t := by
  refine scan_some rfl is ?_
  rw [lenStreamData, hj]
  simp only [ok_bind, Val.asNums, Quic.bytesOf]
  cases l with
  | nil => exact (varint_ne_nil h).elim
  | cons b l => exact (varint_enc h []).2

theorem scan_toEnd {m : Mode} {j : Nat} {is : List Item} {vals : List Val} {bs : Buf}
    (hj : env vals j = .ok (Quic.bytesOf [])) :
    scan m (.stream j :: is) vals bs = scan m is (vals ++ [Quic.bytesOf bs]) [] := by
  have := scan_some (m := m) (it := .stream j) rfl is (vals := vals) (bs := bs) (t := [])
    (by rw [lenStreamData, hj, List.append_nil]; rfl)
  rwa [List.append_nil] at this

theorem scan_const {m : Mode} {n : Nat} {is : List Item} {vals : List Val} {bs : Buf}
    (h : bs.length = n) (t : Buf) :
    scan m (.const n :: is) vals (bs ++ t) = scan m is (vals ++ [Quic.bytesOf bs]) t :=
  scan_some rfl is (by rw [h]; rfl)

theorem scan_u8 {m : Mode} {is : List Item} {vals : List Val} (b : UInt8) (t : Buf) :
    scan m (.u8 :: is) vals (b :: t) = scan m is (vals ++ [.num b.toNat]) t := by
  rw [scan.eq_def]; rfl

theorem scan_u8Bytes {m : Mode} {j : Nat} {is : List Item} {vals : List Val} {bs : Buf}
    (hj : env vals j = .ok (.num bs.length)) (t : Buf) :
    scan m (.u8Bytes j :: is) vals (bs ++ t) = scan m is (vals ++ [Quic.bytesOf bs]) t :=
  scan_some rfl is (by rw [lenU8, lenNum, hj]; rfl)

theorem counts_of {m : Mode} {j n : Nat} {vals : List Val} {l : Buf}
    (hj : env vals j = .ok (Quic.bytesOf l)) (h : Quic.Varint l n) : Counts m (.nviOf j) vals n := by
  refine ⟨_, rfl, fun rest => ?_⟩
  rw [lenNVarintsOf, hj]
  simp only [ok_bind, Val.asNums, Quic.bytesOf, (varint_enc h []).2]

/-- Names of the fields between `ty` and `remaining`. -/
def midNames (k : FrameKind) : List String := (k.decl.fields.drop 1).dropLast.map (·.name)

/-- What is proved for each kind of frame. -/
def FieldsOk (ty : Nat) (body : Buf) (fields : List (String × Val)) : Prop :=
  ∃ k, FrameKind.ofType ty = some k ∧ midNames k = fields.map (·.1) ∧
    ∀ m rest, (Quic.openEnded ty → rest = []) →
      scan m (frameItems k) [.nums [ty]] (body ++ rest) = some (.nums [ty] :: fields.map (·.2), rest)

theorem fields_ok {ty : Nat} {body : Buf} {fields : List (String × Val)}
    (h : Quic.Fields 1 ty body fields) : FieldsOk ty body fields := by
  cases h with
  | padding => exact ⟨_, rfl, rfl, fun m rest _ => rfl⟩
  | ping => exact ⟨_, rfl, rfl, fun m rest _ => rfl⟩
  | handshakeDone => exact ⟨_, rfl, rfl, fun m rest _ => rfl⟩
  | ack h1 h2 h3 h4 h5 h6 =>
    refine ⟨_, rfl, rfl, fun m rest _ => ?_⟩
    simp only [frameItems, List.append_assoc]
    rw [scan_vi h1, scan_vi h2, scan_vi h3, scan_vi h4,
      scan_count (counts_of rfl (by rwa [h5, Nat.one_mul])) h6, scan_none (counts_nvi (ty := 2) rfl rfl)]
    rfl
  | @ackEcn largest delay count first ect0 ect1 ce ranges a b n c x y z h1 h2 h3 h4 h5 h6 h7 h8 h9 =>
    refine ⟨_, rfl, rfl, fun m rest _ => ?_⟩
    simp only [frameItems, List.append_assoc]
    rw [scan_vi h1, scan_vi h2, scan_vi h3, scan_vi h4,
      scan_count (counts_of rfl (by rwa [h5, Nat.one_mul])) h6]
    have := scan_count (m := m) (is := []) (rs := [ect0, ect1, ce])
      (counts_nvi (f := fun ty => if ty = 0x03 then 3 else 0) (ty := 3)
        (vals := [.nums [3], Quic.bytesOf largest, Quic.bytesOf delay, Quic.bytesOf count,
          Quic.bytesOf first, Quic.bytesOf ranges.flatten]) rfl rfl) (by
        intro r hr
        simp only [List.mem_cons, List.not_mem_nil, or_false] at hr
        rcases hr with rfl | rfl | rfl
        · exact ⟨_, h7⟩
        · exact ⟨_, h8⟩
        · exact ⟨_, h9⟩) rest
    simp only [List.flatten_cons, List.flatten_nil, List.append_nil, List.append_assoc] at this
    exact this
  | resetStream h1 h2 h3 =>
    refine ⟨_, rfl, rfl, fun m rest _ => ?_⟩
    simp only [frameItems, List.append_assoc]
    rw [scan_vi h1, scan_vi h2, scan_vi h3]; rfl
  | stopSending h1 h2 =>
    refine ⟨_, rfl, rfl, fun m rest _ => ?_⟩
    simp only [frameItems, List.append_assoc]
    rw [scan_vi h1, scan_vi h2]; rfl
  | crypto h1 h2 =>
    refine ⟨_, rfl, rfl, fun m rest _ => ?_⟩
    simp only [frameItems, List.append_assoc]
    rw [scan_vi h1, scan_vi h2, scan_viBytes rfl h2]; rfl
  | newToken h1 =>
    refine ⟨_, rfl, rfl, fun m rest _ => ?_⟩
    simp only [frameItems, List.append_assoc]
    rw [scan_vi h1, scan_viBytes rfl h1]; rfl
  | stream ht h1 =>
    rcases ht with rfl | rfl
    all_goals
      refine ⟨_, rfl, rfl, fun m rest ho => ?_⟩
      have hr : rest = [] := ho (by simp [Quic.openEnded])
      subst hr
      simp only [frameItems, List.append_nil]
      rw [scan_vi h1, scan_none (counts_opt rfl rfl), scan_none (counts_opt rfl rfl), scan_toEnd rfl]
      rfl
  | streamLen ht h1 h2 =>
    rcases ht with rfl | rfl
    all_goals
      refine ⟨_, rfl, rfl, fun m rest _ => ?_⟩
      simp only [frameItems, List.append_assoc]
      rw [scan_vi h1, scan_none (counts_opt rfl rfl), scan_one (counts_opt rfl rfl) h2,
        scan_stream rfl h2]
      rfl
  | streamOff ht h1 h2 =>
    rcases ht with rfl | rfl
    all_goals
      refine ⟨_, rfl, rfl, fun m rest ho => ?_⟩
      have hr : rest = [] := ho (by simp [Quic.openEnded])
      subst hr
      simp only [frameItems, List.append_assoc, List.append_nil]
      rw [scan_vi h1, scan_one (counts_opt rfl rfl) h2, scan_none (counts_opt rfl rfl), scan_toEnd rfl]
      rfl
  | streamOffLen ht h1 h2 h3 =>
    rcases ht with rfl | rfl
    all_goals
      refine ⟨_, rfl, rfl, fun m rest _ => ?_⟩
      simp only [frameItems, List.append_assoc]
      rw [scan_vi h1, scan_one (counts_opt rfl rfl) h2, scan_one (counts_opt rfl rfl) h3,
        scan_stream rfl h3]
      rfl
  | maxData h1 => exact ⟨_, rfl, rfl, fun m rest _ => by simp only [frameItems]; rw [scan_vi h1]; rfl⟩
  | dataBlocked h1 => exact ⟨_, rfl, rfl, fun m rest _ => by simp only [frameItems]; rw [scan_vi h1]; rfl⟩
  | retireConnectionId h1 =>
    exact ⟨_, rfl, rfl, fun m rest _ => by simp only [frameItems]; rw [scan_vi h1]; rfl⟩
  | maxStreams ht h1 =>
    rcases ht with rfl | rfl
    all_goals exact ⟨_, rfl, rfl, fun m rest _ => by simp only [frameItems]; rw [scan_vi h1]; rfl⟩
  | streamsBlocked ht h1 =>
    rcases ht with rfl | rfl
    all_goals exact ⟨_, rfl, rfl, fun m rest _ => by simp only [frameItems]; rw [scan_vi h1]; rfl⟩
  | maxStreamData h1 h2 =>
    refine ⟨_, rfl, rfl, fun m rest _ => ?_⟩
    simp only [frameItems, List.append_assoc]
    rw [scan_vi h1, scan_vi h2]; rfl
  | streamDataBlocked h1 h2 =>
    refine ⟨_, rfl, rfl, fun m rest _ => ?_⟩
    simp only [frameItems, List.append_assoc]
    rw [scan_vi h1, scan_vi h2]; rfl
  | newConnectionId h1 h2 h3 h4 =>
    refine ⟨_, rfl, rfl, fun m rest _ => ?_⟩
    simp only [frameItems, List.append_assoc]
    rw [scan_vi h1, scan_vi h2, List.singleton_append (l := _ ++ _), scan_u8, h3, scan_u8Bytes rfl,
      scan_const h4]
    rfl
  | path ht h1 =>
    rcases ht with rfl | rfl
    all_goals exact ⟨_, rfl, rfl, fun m rest _ => by simp only [frameItems]; rw [scan_const h1]; rfl⟩
  | close h1 h2 h3 =>
    refine ⟨_, rfl, rfl, fun m rest _ => ?_⟩
    simp only [frameItems, List.append_assoc]
    rw [scan_vi h1, scan_one (counts_opt (ty := 0x1c) rfl rfl) h2, scan_vi h3, scan_viBytes rfl h3]; rfl
  | closeApp h1 h2 =>
    refine ⟨_, rfl, rfl, fun m rest _ => ?_⟩
    simp only [frameItems, List.append_assoc]
    rw [scan_vi h1, scan_none (counts_opt (ty := 0x1d) rfl rfl), scan_vi h2, scan_viBytes rfl h2]; rfl

/-! ## Every frame has fields -/

theorem parts_cons {r : Nat} {p : Quic.Part} {ps : List Quic.Part} {body : Buf}
    (h : Quic.PartsEnc r (p :: ps) body) :
    ∃ bs t, Quic.PartEnc r p bs ∧ Quic.PartsEnc r ps t ∧ body = bs ++ t := by
  cases h with
  | cons h1 h2 => exact ⟨_, _, h1, h2, rfl⟩

theorem parts_int {r : Nat} {ps : List Quic.Part} {body : Buf}
    (h : Quic.PartsEnc r (.int :: ps) body) :
    ∃ bs v t, Quic.Varint bs v ∧ Quic.PartsEnc r ps t ∧ body = bs ++ t := by
  obtain ⟨bs, t, ⟨h1⟩, h2, rfl⟩ := parts_cons h
  exact ⟨_, _, _, h1, h2, rfl⟩

theorem parts_nil {r : Nat} {body : Buf} (h : Quic.PartsEnc r [] body) : body = [] := by
  cases h; rfl

theorem parts_blob {r : Nat} {body : Buf} (h : Quic.PartsEnc r [.blob] body) :
    ∃ l bs, Quic.Varint l bs.length ∧ body = l ++ bs := by
  obtain ⟨bs, t, h1, h2, rfl⟩ := parts_cons h
  rw [parts_nil h2, List.append_nil]
  cases h1 with
  | blob h1 => exact ⟨_, _, h1, rfl⟩

theorem parts_ranges {r : Nat} {ps : List Quic.Part} {body : Buf}
    (h : Quic.PartsEnc r (.ranges :: ps) body) :
    ∃ (count first : Buf) (n v : Nat) (rs : List Buf) (t : Buf), Quic.Varint count n ∧
      Quic.Varint first v ∧ rs.length = r * n ∧ (∀ x ∈ rs, ∃ v, Quic.Varint x v) ∧
      Quic.PartsEnc r ps t ∧ body = count ++ (first ++ (rs.flatten ++ t)) := by
  obtain ⟨bs, t, h1, h2, rfl⟩ := parts_cons h
  cases h1 with
  | ranges h3 h4 h5 h6 => exact ⟨_, _, _, _, _, _, h3, h4, h5, h6, h2, by simp only [List.append_assoc]⟩

theorem has_fields {r ty : Nat} {parts : List Quic.Part} {body : Buf}
    (hp : Quic.frameParts ty = some parts) (h : Quic.PartsEnc r parts body) :
    ∃ fields, Quic.Fields r ty body fields := by
  by_cases hty : 0x1e < ty
  · unfold Quic.frameParts at hp
    repeat rw [if_neg (by omega)] at hp
    cases hp
  have one : ∀ {body : Buf}, Quic.PartsEnc r [.int] body → ∃ v, Quic.Varint body v := by
    intro body h
    obtain ⟨b1, v1, t, h1, g1, rfl⟩ := parts_int h
    rw [parts_nil g1, List.append_nil]; exact ⟨_, h1⟩
  have two : ∀ {body : Buf}, Quic.PartsEnc r [.int, .int] body →
      ∃ a b x y, Quic.Varint a x ∧ Quic.Varint b y ∧ body = a ++ b := by
    intro body h
    obtain ⟨b1, v1, t, h1, g2, rfl⟩ := parts_int h
    obtain ⟨v2, h2⟩ := one g2
    exact ⟨_, _, _, _, h1, h2, rfl⟩
  have path : ∀ {n : Nat} {body : Buf}, Quic.PartsEnc r [.bytes n] body → body.length = n := by
    intro n body h
    obtain ⟨bs, t, h1, h2, rfl⟩ := parts_cons h
    rw [parts_nil h2, List.append_nil]
    cases h1; rfl
  have toEnd : ∀ {body : Buf}, Quic.PartsEnc r [.int, .toEnd] body →
      ∃ a x data, Quic.Varint a x ∧ body = a ++ data := by
    intro body h
    obtain ⟨b1, v1, t, h1, g3, rfl⟩ := parts_int h
    exact ⟨_, _, _, h1, rfl⟩
  have blob : ∀ {body : Buf}, Quic.PartsEnc r [.int, .blob] body →
      ∃ a x l data, Quic.Varint a x ∧ Quic.Varint l data.length ∧ body = a ++ l ++ data := by
    intro body h
    obtain ⟨b1, v1, t, h1, g4, rfl⟩ := parts_int h
    obtain ⟨l, bs, h2, rfl⟩ := parts_blob g4
    exact ⟨_, _, _, _, h1, h2, by rw [List.append_assoc]⟩
  match ty, hty with
  | 0, _ => cases hp; rw [parts_nil h]; exact ⟨_, .padding⟩
  | 1, _ => cases hp; rw [parts_nil h]; exact ⟨_, .ping⟩
  | 2, _ =>
    cases hp
    obtain ⟨b1, v1, t, h1, g5, rfl⟩ := parts_int h
    obtain ⟨b2, v2, t, h2, g6, rfl⟩ := parts_int g5
    obtain ⟨c, f, n, v, rs, t, h3, h4, h5, h6, g7, rfl⟩ := parts_ranges g6
    rw [parts_nil g7, List.append_nil]
    simp only [← List.append_assoc]
    exact ⟨_, .ack h1 h2 h3 h4 h5 h6⟩
  | 3, _ =>
    cases hp
    obtain ⟨b1, v1, t, h1, g8, rfl⟩ := parts_int h
    obtain ⟨b2, v2, t, h2, g9, rfl⟩ := parts_int g8
    obtain ⟨c, f, n, v, rs, t, h3, h4, h5, h6, g10, rfl⟩ := parts_ranges g9
    obtain ⟨b7, v7, t, h7, g11, rfl⟩ := parts_int g10
    obtain ⟨a, b, x, y, h8, h9, rfl⟩ := two g11
    simp only [← List.append_assoc]
    exact ⟨_, .ackEcn h1 h2 h3 h4 h5 h6 h7 h8 h9⟩
  | 4, _ =>
    cases hp
    obtain ⟨b1, v1, t, h1, g12, rfl⟩ := parts_int h
    obtain ⟨a, b, x, y, h2, h3, rfl⟩ := two g12
    rw [← List.append_assoc]
    exact ⟨_, .resetStream h1 h2 h3⟩
  | 5, _ =>
    cases hp
    obtain ⟨a, b, x, y, h2, h3, rfl⟩ := two h
    exact ⟨_, .stopSending h2 h3⟩
  | 6, _ =>
    cases hp
    obtain ⟨a, x, l, data, h1, h2, rfl⟩ := blob h
    exact ⟨_, .crypto h1 h2⟩
  | 7, _ =>
    cases hp
    obtain ⟨l, bs, h2, rfl⟩ := parts_blob h
    exact ⟨_, .newToken h2⟩
  | 8, _ => cases hp; obtain ⟨a, x, data, h1, rfl⟩ := toEnd h; exact ⟨_, .stream (by simp) h1⟩
  | 9, _ => cases hp; obtain ⟨a, x, data, h1, rfl⟩ := toEnd h; exact ⟨_, .stream (by simp) h1⟩
  | 10, _ =>
    cases hp; obtain ⟨a, x, l, data, h1, h2, rfl⟩ := blob h; exact ⟨_, .streamLen (by simp) h1 h2⟩
  | 11, _ =>
    cases hp; obtain ⟨a, x, l, data, h1, h2, rfl⟩ := blob h; exact ⟨_, .streamLen (by simp) h1 h2⟩
  | 12, _ =>
    cases hp
    obtain ⟨b1, v1, t, h1, g13, rfl⟩ := parts_int h
    obtain ⟨a, x, data, h2, rfl⟩ := toEnd g13
    rw [← List.append_assoc]; exact ⟨_, .streamOff (by simp) h1 h2⟩
  | 13, _ =>
    cases hp
    obtain ⟨b1, v1, t, h1, g14, rfl⟩ := parts_int h
    obtain ⟨a, x, data, h2, rfl⟩ := toEnd g14
    rw [← List.append_assoc]; exact ⟨_, .streamOff (by simp) h1 h2⟩
  | 14, _ =>
    cases hp
    obtain ⟨b1, v1, t, h1, g15, rfl⟩ := parts_int h
    obtain ⟨a, x, l, data, h2, h3, rfl⟩ := blob g15
    simp only [← List.append_assoc]; exact ⟨_, .streamOffLen (by simp) h1 h2 h3⟩
  | 15, _ =>
    cases hp
    obtain ⟨b1, v1, t, h1, g16, rfl⟩ := parts_int h
    obtain ⟨a, x, l, data, h2, h3, rfl⟩ := blob g16
    simp only [← List.append_assoc]; exact ⟨_, .streamOffLen (by simp) h1 h2 h3⟩
  | 16, _ => cases hp; obtain ⟨v, h1⟩ := one h; exact ⟨_, .maxData h1⟩
  | 17, _ => cases hp; obtain ⟨a, b, x, y, h2, h3, rfl⟩ := two h; exact ⟨_, .maxStreamData h2 h3⟩
  | 18, _ => cases hp; obtain ⟨v, h1⟩ := one h; exact ⟨_, .maxStreams (by simp) h1⟩
  | 19, _ => cases hp; obtain ⟨v, h1⟩ := one h; exact ⟨_, .maxStreams (by simp) h1⟩
  | 20, _ => cases hp; obtain ⟨v, h1⟩ := one h; exact ⟨_, .dataBlocked h1⟩
  | 21, _ => cases hp; obtain ⟨a, b, x, y, h2, h3, rfl⟩ := two h; exact ⟨_, .streamDataBlocked h2 h3⟩
  | 22, _ => cases hp; obtain ⟨v, h1⟩ := one h; exact ⟨_, .streamsBlocked (by simp) h1⟩
  | 23, _ => cases hp; obtain ⟨v, h1⟩ := one h; exact ⟨_, .streamsBlocked (by simp) h1⟩
  | 24, _ =>
    cases hp
    obtain ⟨b1, v1, t, h1, g17, rfl⟩ := parts_int h
    obtain ⟨b2, v2, t, h2, g18, rfl⟩ := parts_int g17
    obtain ⟨b3, t, h3, g19, rfl⟩ := parts_cons g18
    have h4 := path g19
    cases h3 with
    | @cid l bs hl =>
      have := Quic.Fields.newConnectionId (r := r) h1 h2 hl h4
      simp only [List.append_assoc, List.cons_append, List.nil_append] at this ⊢
      exact ⟨_, this⟩
  | 25, _ => cases hp; obtain ⟨v, h1⟩ := one h; exact ⟨_, .retireConnectionId h1⟩
  | 26, _ => cases hp; exact ⟨_, .path (by simp) (path h)⟩
  | 27, _ => cases hp; exact ⟨_, .path (by simp) (path h)⟩
  | 28, _ =>
    cases hp
    obtain ⟨b1, v1, t, h1, g20, rfl⟩ := parts_int h
    obtain ⟨a, x, l, data, h2, h3, rfl⟩ := blob g20
    simp only [← List.append_assoc]; exact ⟨_, .close h1 h2 h3⟩
  | 29, _ => cases hp; obtain ⟨a, x, l, data, h1, h2, rfl⟩ := blob h; exact ⟨_, .closeApp h1 h2⟩
  | 30, _ => cases hp; rw [parts_nil h]; exact ⟨_, .handshakeDone⟩
  | n + 31, h => omega

/-! ## Getters -/

theorem get_vec_of_raw {d : Decl} {m : Mode} {buf : Buf} {k : Nat} {f : Field}
    (hf : d.fields[k]? = some f) (hty : f.ty = .vecPrim (u 8)) {bs : Buf}
    (h : d.getRaw m buf k = .ok bs) : d.get m buf k = .ok (Quic.bytesOf bs) := by
  rw [Decl.getRaw, hf] at h
  rw [Decl.get, hf]
  simp only at h ⊢
  rw [hty, getField, h, ok_bind, getElems_u8 _ _ _ (by omega)]
  simp [Quic.bytesOf]

theorem frame_get {ty : UInt8} {body rest : Buf} {fields : List (String × Val)}
    (h : FieldsOk ty.toNat body fields) {k : FrameKind} (hk : FrameKind.ofType ty.toNat = some k)
    (ho : Quic.openEnded ty.toNat → rest = []) (m : Mode)
    (hsl : SliceLen (ty :: (body ++ rest)).length) (i : Nat) (v : Val)
    (hv : (.nums [ty.toNat] :: fields.map (·.2) ++ [Quic.bytesOf rest])[i]? = some v) :
    k.decl.get m (ty :: (body ++ rest)) i = .ok v := by
  obtain ⟨k', hk', hn, hs⟩ := h
  rw [hk] at hk'; cases hk'
  have hs := hs m rest ho
  have hlen : fields.length = (k.decl.fields.drop 1).dropLast.length := by
    have := congrArg List.length hn
    simpa [midNames] using this.symm
  by_cases hi : i < fields.length + 1
  · refine get_scan (frame_fields k) (frame_items k) hsl (frame_head m ty (body ++ rest)).1 hs ?_
    rwa [List.getElem?_append_left (by simpa using hi)] at hv
  · rw [List.getElem?_append_right (by simpa using Nat.le_of_not_lt hi)] at hv
    simp only [List.length_cons, List.length_map] at hv
    have hi' : i = fields.length + 1 := by
      have := (List.getElem?_eq_some_iff.mp hv).1
      simp only [List.length_singleton] at this
      omega
    subst hi'
    simp only [Nat.sub_self, List.getElem?_cons_zero, Option.some.injEq] at hv
    subst hv
    have hidx : fields.length + 1 = k.decl.fields.length - 1 := by
      rw [frame_length, hlen]; simp only [List.length_singleton]; omega
    have hrem := frame_remaining m k ty (body ++ rest) 0 hsl
    rw [hs] at hrem
    rw [hidx]
    refine get_vec_of_raw (f := frest "remaining") ?_ rfl hrem
    cases k <;> rfl

theorem frame_names {ty : Nat} {body : Buf} {fields : List (String × Val)}
    (h : FieldsOk ty body fields) {k : FrameKind} (hk : FrameKind.ofType ty = some k) :
    k.decl.fields.map (·.name) = "ty" :: fields.map (·.1) ++ ["remaining"] := by
  obtain ⟨k', hk', hn, -⟩ := h
  rw [hk] at hk'; cases hk'
  rw [frame_fields k, ← hn, midNames]
  rw [List.map_append, List.map_append]
  rfl

theorem bytesOf_inj {a b : Buf} (h : Quic.bytesOf a = Quic.bytesOf b) : a = b := by
  simp only [Quic.bytesOf, Val.nums.injEq] at h
  exact List.map_inj_right (fun _ _ h => UInt8.toNat_inj.mp h) |>.mp h

theorem raw_of_get_vec {d : Decl} {m : Mode} {buf : Buf} {k : Nat} {f : Field}
    (hf : d.fields[k]? = some f) (hty : f.ty = .vecPrim (u 8)) {bs : Buf}
    (h : d.get m buf k = .ok (Quic.bytesOf bs)) : d.getRaw m buf k = .ok bs := by
  cases hr : d.getRaw m buf k with
  | ok b =>
    rw [get_vec_of_raw hf hty hr] at h
    simp only [Except.ok.injEq] at h
    rw [bytesOf_inj h]
  | error e =>
    rw [Decl.getRaw, hf] at hr
    rw [Decl.get, hf] at h
    simp only at h hr
    rw [hty, getField, hr] at h
    cases h

/-- `payload()` returns what the raw getter of the payload field returns. -/
theorem payload_of_raw {d : Decl} {m : Mode} {buf : Buf} {k : Nat} (hk : d.payloadIdx = some k)
    (hsl : SliceLen buf.length) {bs : Buf} (h : d.getRaw m buf k = .ok bs) :
    d.payload m buf = .ok bs := by
  unfold SliceLen at hsl
  rw [Decl.getRaw] at h
  rw [Decl.payload, Decl.payloadBounds, hk]
  dsimp only
  cases hf : d.fields[k]? with
  | none => rw [hf] at h; cases h
  | some f =>
    rw [hf] at h
    dsimp only at h ⊢
    rw [varSlice, bind_eq_ok] at h
    obtain ⟨a, ha, h⟩ := h
    rw [bind_eq_ok] at h
    obtain ⟨l, hl, h⟩ := h
    rw [bind_eq_ok] at h
    obtain ⟨b, hb, h⟩ := h
    have hab : a ≤ min b buf.length := by
      unfold slice at h
      split at h
      · omega
      · cases h
    have hend : ∀ c, c = min b buf.length →
        (if buf.length ≤ a then (.ok [] : Res Buf) else slice buf a c) = .ok bs := by
      rintro c rfl
      split
      · have hal : a = min b buf.length := by omega
        rw [← hal, slice, if_pos (by omega)] at h
        rw [← h]
        congr 1
        rw [List.drop_eq_nil_of_le (by rw [List.length_take]; omega)]
      · exact h
    rw [ha, ok_bind]
    unfold fieldLen at hl
    cases he : f.len with
    | none =>
      rw [he] at hl
      cases hl
      dsimp only
      rw [ok_bind]
      refine hend _ ?_
      rw [uadd_ok (by unfold usizeCard; omega)] at hb
      cases hb
      omega
    | some e =>
      rw [he] at hl
      dsimp only at hl ⊢
      rw [hl, ok_bind, hb, ok_bind, ok_bind]
      exact hend _ rfl

/-- `Frame::payload` of a STREAM frame. -/
theorem stream_payload {ty : UInt8} {body rest : Buf} {fields : List (String × Val)}
    (h : FieldsOk ty.toNat body fields) (hk : FrameKind.ofType ty.toNat = some .stream)
    (ho : Quic.openEnded ty.toNat → rest = []) (m : Mode)
    (hsl : SliceLen (ty :: (body ++ rest)).length) {data : Buf}
    (hd : fields[3]? = some ("stream_data", Quic.bytesOf data)) :
    frameStream.payload m (ty :: (body ++ rest)) = .ok data := by
  refine payload_of_raw (k := 4) rfl hsl (raw_of_get_vec (f := fpayload "stream_data" (lenStreamData 3)) rfl rfl ?_)
  refine frame_get h hk ho m hsl 4 _ ?_
  have hl : 3 < fields.length := (List.getElem?_eq_some_iff.mp hd).1
  rw [List.getElem?_append_left (by simp; omega), List.getElem?_cons_succ, List.getElem?_map, hd]
  rfl

theorem stream_of_fields {r t : Nat} {body data : Buf} {fields : List (String × Val)} {k : FrameKind}
    (h : Quic.Fields r t body fields) (hk : FrameKind.ofType t = some k)
    (hd : ("stream_data", Quic.bytesOf data) ∈ fields) :
    k = .stream ∧ fields[3]? = some ("stream_data", Quic.bytesOf data) := by
  cases h with
  | stream ht _ | streamLen ht _ _ | streamOff ht _ _ | streamOffLen ht _ _ _ =>
    rcases ht with rfl | rfl <;> cases hk <;> simp at hd <;> exact ⟨rfl, by rw [hd]; rfl⟩
  | _ => simp at hd

theorem no_payload_of_fields {r t : Nat} {body : Buf} {fields : List (String × Val)} {k : FrameKind}
    (h : Quic.Fields r t body fields) (hk : FrameKind.ofType t = some k)
    (hd : ∀ v, ("stream_data", v) ∉ fields) : k.decl.payloadIdx = none := by
  cases h with
  | stream ht _ | streamLen ht _ _ | streamOff ht _ _ | streamOffLen ht _ _ _ =>
    simp at hd
  | maxStreams ht _ | streamsBlocked ht _ | path ht _ => rcases ht with rfl | rfl <;> cases hk <;> rfl
  | _ => cases hk; rfl

/-- The frames of a sequence. -/
theorem frames_mem {r : Nat} {buf : Buf} {raw : List (UInt8 × Buf)} (h : Quic.Frames r buf raw)
    (x : UInt8 × Buf) (hx : x ∈ raw) : ∃ parts body rest, x.2 = x.1 :: (body ++ rest) ∧
      Quic.frameParts x.1.toNat = some parts ∧ Quic.PartsEnc r parts body ∧
      (.toEnd ∈ parts → rest = []) ∧ x.2.length ≤ buf.length := by
  induction h with
  | nil => cases hx
  | @cons ty parts body rest fs h1 h2 h3 h4 ih =>
    rcases List.mem_cons.mp hx with rfl | hx
    · exact ⟨_, _, _, rfl, h1, h2, h3, Nat.le_refl _⟩
    · obtain ⟨p, b, t, g1, g2, g3, g4, g5⟩ := ih hx
      refine ⟨p, b, t, g1, g2, g3, g4, ?_⟩
      simp only [List.length_cons, List.length_append]; omega

theorem toEnd_of_open {ty : Nat} {parts : List Quic.Part} (hp : Quic.frameParts ty = some parts)
    (h : Quic.openEnded ty) : .toEnd ∈ parts := by
  rcases h with rfl | rfl | rfl | rfl <;> cases hp <;> decide

end Verif
