import Verif.Proofs.QuicFrames

/-! Helper lemmas: `Frame::new`. -/

namespace Verif
open Spec

/-- The scanned fields of each frame. -/
def frameItems : FrameKind → List Item
  | .padding => []
  | .ping => []
  | .ack => [.vi, .vi, .vi, .vi, .nviOf 3, .nvi fun ty => if ty = 0x03 then 3 else 0]
  | .resetStream => [.vi, .vi, .vi]
  | .stopSending => [.vi, .vi]
  | .crypto => [.vi, .vi, .viBytes 2]
  | .newToken => [.vi, .viBytes 1]
  | .stream => [.vi, .opt fun ty => if ty &&& 0x04 > 0 then 1 else 0,
      .opt fun ty => if ty &&& 0x02 > 0 then 1 else 0, .stream 3]
  | .maxData => [.vi]
  | .maxStreamData => [.vi, .vi]
  | .maxStreams => [.vi]
  | .dataBlocked => [.vi]
  | .streamDataBlocked => [.vi, .vi]
  | .streamsBlocked => [.vi]
  | .newConnectionId => [.vi, .vi, .u8, .u8Bytes 3, .const 16]
  | .retireConnectionId => [.vi]
  | .pathChallenge => [.const 8]
  | .pathResponse => [.const 8]
  | .connectionClose => [.vi, .opt fun ty => if ty = 0x1d then 0 else 1, .vi, .viBytes 3]
  | .handshakeDone => []

theorem frame_fields (k : FrameKind) :
    k.decl.fields = [fmisc "ty" [8]] ++ (k.decl.fields.drop 1).dropLast ++ [frest "remaining"] := by
  cases k <;> rfl

theorem frame_items (k : FrameKind) : ItemsAre (frameItems k) (k.decl.fields.drop 1).dropLast := by
  cases k <;> repeat first | exact trivial | refine ⟨⟨rfl, rfl⟩, ?_⟩

theorem ite_le_one {p : Prop} [Decidable p] : (if p then 1 else 0) ≤ 1 := by split <;> omega
theorem ite_le_one' {p : Prop} [Decidable p] : (if p then 0 else 1) ≤ 1 := by split <;> omega

theorem frame_tame (k : FrameKind) : tame 1 [] (frameItems k) := by
  cases k <;>
    simp [tame, frameItems, Item.cap, grow, Item.strict, Item.ref, Item.next, ite_le_one, ite_le_one']

/-- After the type byte. -/
theorem frame_head (m : Mode) (b : UInt8) (rest : Buf) :
    Alive (b :: rest) (St.run m (b :: rest) .init [fmisc "ty" [8]]) [.nums [b.toNat]] rest ∧
      NumSmall (St.run m (b :: rest) .init [fmisc "ty" [8]]).vals := by
  have hv : (St.run m (b :: rest) .init [fmisc "ty" [8]]).vals = [.ok (.nums [b.toNat])] := by
    show [Val.nums <$> getArgs m [] (b :: rest) 0 [u 8]] = _
    have : getPrim (u 8) 0 (b :: rest) 0 = .ok b.toNat := getPrim_u8 (by simp)
    rw [getArgs, curOff_nil, ok_bind, this]
    rfl
  have hbit : (St.run m (b :: rest) .init [fmisc "ty" [8]]).bit = 8 := by
    simp [St.run, St.step, St.init, fmisc, Ty.bits]
  refine ⟨⟨⟨[], rfl, ?_, ?_⟩, hv, ?_⟩, ?_⟩
  · rw [hbit]; simp
  · rw [hbit]; simp
  · rw [hbit]
  · rw [hv]; intro x hx n hn
    simp only [List.mem_singleton] at hx
    rw [hx] at hn; cases hn

theorem frame_length (k : FrameKind) :
    k.decl.fields.length - 1 = [fmisc "ty" [8]].length + (k.decl.fields.drop 1).dropLast.length := by
  cases k <;> rfl

/-- `Frame::remaining`. -/
theorem frame_remaining (m : Mode) (k : FrameKind) (b : UInt8) (rest : Buf) (c : Nat)
    (hsl : SliceLen (b :: rest).length) :
    Frame.remaining m ⟨k, b :: rest, c⟩ =
      match scan m (frameItems k) [.nums [b.toNat]] rest with
      | some (_, r) => .ok r
      | none => panic := by
  rw [Frame.remaining]
  simp only
  rw [frame_length]
  exact getRaw_scan (frame_fields k) rfl (frame_items k) hsl (frame_head m b rest).1
    (frame_tame k) (frame_head m b rest).2

theorem counts_nvi {m : Mode} {f : Nat → Nat} {ty n : Nat} {vals : List Val}
    (h0 : env vals 0 = .ok (.nums [ty])) (hn : f ty = n) : Counts m (.nvi f) vals n := by
  refine ⟨_, rfl, fun rest => ?_⟩
  rw [lenNVarints, h0]
  simp only [ok_bind, Val.asTuple1, hn]

theorem counts_opt {m : Mode} {f : Nat → Nat} {ty n : Nat} {vals : List Val}
    (h0 : env vals 0 = .ok (.nums [ty])) (hn : f ty = n) : Counts m (.opt f) vals n := by
  refine ⟨_, rfl, fun rest => ?_⟩
  rw [lenNVarints, h0]
  simp only [ok_bind, Val.asTuple1, hn]

theorem reads_body_nil (m : Mode) (r : Nat) (vals : List Val) (rest t : Buf) :
    Reads m [] vals rest t ↔ Body r [] rest t := by rw [reads_nil, body_nil]

theorem no_toEnd {ps : List Quic.Part} (h : Quic.Part.toEnd ∉ ps) {P : Prop} {t : Buf} :
    P ∧ (.toEnd ∈ ps → t = []) ↔ P := by
  constructor
  · exact And.left
  · exact fun hp => ⟨hp, fun hm => (h hm).elim⟩

theorem body_int_toEnd {r : Nat} {ps : List Quic.Part} {rest t : Buf} {m : Mode} {is : List Item}
    {vals : List Val} {P : Prop}
    (h : ∀ bs v t', Quic.Varint bs v →
      (Reads m is (vals ++ [bytesVal bs]) t' t ↔ Body r ps t' t ∧ P)) :
    Reads m (.vi :: is) vals rest t ↔ Body r (.int :: ps) rest t ∧ P := by
  rw [reads_vi, body_cons]
  constructor
  · rintro ⟨bs, v, t', hv, h1, h2⟩
    obtain ⟨h3, h4⟩ := (h bs v t' hv).mp h2
    exact ⟨⟨bs, t', .int hv, h1, h3⟩, h4⟩
  · rintro ⟨⟨bs, t', hp, h1, h2⟩, h4⟩
    cases hp with
    | int hv => exact ⟨bs, _, t', hv, h1, (h bs _ t' hv).mpr ⟨h2, h4⟩⟩

theorem none_and {m : Mode} {r : Nat} {it : Item} {is : List Item} {vals : List Val} {rest t : Buf}
    {ps : List Quic.Part} {P : Prop} (hc : Counts m it vals 0)
    (h : Reads m is (vals ++ [bytesVal []]) rest t ↔ Body r ps rest t ∧ P) :
    Reads m (it :: is) vals rest t ↔ Body r ps rest t ∧ P := by
  obtain ⟨e, he, hc⟩ := hc
  rw [reads_count he is (hc rest)]
  constructor
  · rintro ⟨rs, t', h1, -, h2, h3⟩
    rw [List.length_eq_zero_iff] at h1
    subst h1
    subst h2
    exact h.mp h3
  · intro hb
    exact ⟨[], rest, rfl, by simp, rfl, h.mpr hb⟩

/-- The scan of a frame succeeds exactly on the frame's parts (with one integer per ACK range). -/
def FrameAgree (ty : Nat) (kind : FrameKind) (parts : List Quic.Part) : Prop :=
  ∀ m rest t, Reads m (frameItems kind) [.nums [ty]] rest t ↔
    Body 1 parts rest t ∧ (.toEnd ∈ parts → t = [])

theorem agree_bare (ty : Nat) (k : FrameKind) (h : frameItems k = []) : FrameAgree ty k [] := by
  intro m rest t
  rw [no_toEnd (by decide), h]; exact reads_body_nil ..

theorem agree_one (ty : Nat) (k : FrameKind) (h : frameItems k = [.vi]) : FrameAgree ty k [.int] := by
  intro m rest t
  rw [no_toEnd (by decide), h]
  exact step_int fun _ _ _ _ => reads_body_nil ..

theorem agree_two (ty : Nat) (k : FrameKind) (h : frameItems k = [.vi, .vi]) :
    FrameAgree ty k [.int, .int] := by
  intro m rest t
  rw [no_toEnd (by decide), h]
  exact step_int fun _ _ _ _ => step_int fun _ _ _ _ => reads_body_nil ..

theorem agree_three (ty : Nat) (k : FrameKind) (h : frameItems k = [.vi, .vi, .vi]) :
    FrameAgree ty k [.int, .int, .int] := by
  intro m rest t
  rw [no_toEnd (by decide), h]
  exact step_int fun _ _ _ _ => step_int fun _ _ _ _ => step_int fun _ _ _ _ => reads_body_nil ..

theorem agree_path (ty : Nat) (k : FrameKind) (h : frameItems k = [.const 8]) :
    FrameAgree ty k [.bytes 8] := by
  intro m rest t
  rw [no_toEnd (by decide), h]
  exact step_bytes fun _ _ => reads_body_nil ..

theorem agree_ack2 : FrameAgree 2 .ack [.int, .int, .ranges] := by
  intro m rest t
  rw [no_toEnd (by decide)]
  exact step_int fun _ _ _ _ => step_int fun _ _ _ _ => step_ranges rfl fun _ _ _ _ =>
    step_none (counts_nvi (ty := 2) rfl rfl) (reads_body_nil ..)

theorem agree_ack3 : FrameAgree 3 .ack [.int, .int, .ranges, .int, .int, .int] := by
  intro m rest t
  rw [no_toEnd (by decide)]
  exact step_int fun _ _ _ _ => step_int fun _ _ _ _ => step_ranges rfl fun _ _ _ _ =>
    step_three (counts_nvi (ty := 3) rfl rfl)

theorem agree_crypto : FrameAgree 6 .crypto [.int, .blob] := by
  intro m rest t
  rw [no_toEnd (by decide)]
  exact step_int fun _ _ _ _ => step_blob rfl fun _ _ _ => reads_body_nil ..

theorem agree_newToken : FrameAgree 7 .newToken [.blob] := by
  intro m rest t
  rw [no_toEnd (by decide)]
  exact step_blob rfl fun _ _ _ => reads_body_nil ..

theorem agree_stream00 (ty : Nat) (h4 : (if ty &&& 0x04 > 0 then 1 else 0) = 0)
    (h2 : (if ty &&& 0x02 > 0 then 1 else 0) = 0) : FrameAgree ty .stream [.int, .toEnd] := by
  intro m rest t
  rw [show (.toEnd ∈ [Quic.Part.int, .toEnd] → t = []) ↔ t = [] by simp]
  refine body_int_toEnd fun bs v t' _ => ?_
  refine none_and (counts_opt (ty := ty) rfl h4) ?_
  refine none_and (counts_opt (ty := ty) rfl h2) ?_
  exact step_toEnd rfl

theorem agree_stream01 (ty : Nat) (h4 : (if ty &&& 0x04 > 0 then 1 else 0) = 0)
    (h2 : (if ty &&& 0x02 > 0 then 1 else 0) = 1) : FrameAgree ty .stream [.int, .blob] := by
  intro m rest t
  rw [no_toEnd (by decide)]
  refine step_int fun bs v t' _ => ?_
  refine step_none (counts_opt (ty := ty) rfl h4) ?_
  exact step_stream rfl (counts_opt (ty := ty) rfl h2)

theorem agree_stream10 (ty : Nat) (h4 : (if ty &&& 0x04 > 0 then 1 else 0) = 1)
    (h2 : (if ty &&& 0x02 > 0 then 1 else 0) = 0) : FrameAgree ty .stream [.int, .int, .toEnd] := by
  intro m rest t
  rw [show (.toEnd ∈ [Quic.Part.int, .int, .toEnd] → t = []) ↔ t = [] by simp]
  refine body_int_toEnd fun bs v t' _ => ?_
  rw [reads_one (counts_opt (ty := ty) rfl h4)]
  refine body_int_toEnd fun bs v t' _ => ?_
  refine none_and (counts_opt (ty := ty) rfl h2) ?_
  exact step_toEnd rfl

theorem agree_stream11 (ty : Nat) (h4 : (if ty &&& 0x04 > 0 then 1 else 0) = 1)
    (h2 : (if ty &&& 0x02 > 0 then 1 else 0) = 1) : FrameAgree ty .stream [.int, .int, .blob] := by
  intro m rest t
  rw [no_toEnd (by decide)]
  refine step_int fun bs v t' _ => ?_
  rw [reads_one (counts_opt (ty := ty) rfl h4)]
  refine step_int fun bs v t' _ => ?_
  exact step_stream rfl (counts_opt (ty := ty) rfl h2)

theorem agree_newConnectionId : FrameAgree 0x18 .newConnectionId [.int, .int, .cid, .bytes 16] := by
  intro m rest t
  rw [no_toEnd (by decide)]
  exact step_int fun _ _ _ _ => step_int fun _ _ _ _ => step_cid rfl fun _ _ _ =>
    step_bytes fun _ _ => reads_body_nil ..

theorem agree_close0 : FrameAgree 0x1c .connectionClose [.int, .int, .blob] := by
  intro m rest t
  rw [no_toEnd (by decide)]
  refine step_int fun bs v t' _ => ?_
  rw [reads_one (counts_opt (ty := 0x1c) rfl rfl)]
  exact step_int fun bs v t' _ => step_blob rfl fun _ _ _ => reads_body_nil ..

theorem agree_close1 : FrameAgree 0x1d .connectionClose [.int, .blob] := by
  intro m rest t
  rw [no_toEnd (by decide)]
  refine step_int fun bs v t' _ => ?_
  exact step_none (counts_opt (ty := 0x1d) rfl rfl) (step_blob rfl fun _ _ _ => reads_body_nil ..)

theorem frame_agree (ty : Nat) :
    (FrameKind.ofType ty = none ∧ Quic.frameParts ty = none) ∨
    ∃ kind parts, FrameKind.ofType ty = some kind ∧ Quic.frameParts ty = some parts ∧
      FrameAgree ty kind parts := by
  by_cases h : 0x1e < ty
  · left
    unfold FrameKind.ofType Quic.frameParts
    constructor <;> (repeat rw [if_neg (by omega)])
  right
  match ty, h with
  | 0, _ => exact ⟨_, _, rfl, rfl, agree_bare _ _ rfl⟩
  | 1, _ => exact ⟨_, _, rfl, rfl, agree_bare _ _ rfl⟩
  | 2, _ => exact ⟨_, _, rfl, rfl, agree_ack2⟩
  | 3, _ => exact ⟨_, _, rfl, rfl, agree_ack3⟩
  | 4, _ => exact ⟨_, _, rfl, rfl, agree_three _ _ rfl⟩
  | 5, _ => exact ⟨_, _, rfl, rfl, agree_two _ _ rfl⟩
  | 6, _ => exact ⟨_, _, rfl, rfl, agree_crypto⟩
  | 7, _ => exact ⟨_, _, rfl, rfl, agree_newToken⟩
  | 8, _ => exact ⟨_, _, rfl, rfl, agree_stream00 _ rfl rfl⟩
  | 9, _ => exact ⟨_, _, rfl, rfl, agree_stream00 _ rfl rfl⟩
  | 10, _ => exact ⟨_, _, rfl, rfl, agree_stream01 _ rfl rfl⟩
  | 11, _ => exact ⟨_, _, rfl, rfl, agree_stream01 _ rfl rfl⟩
  | 12, _ => exact ⟨_, _, rfl, rfl, agree_stream10 _ rfl rfl⟩
  | 13, _ => exact ⟨_, _, rfl, rfl, agree_stream10 _ rfl rfl⟩
  | 14, _ => exact ⟨_, _, rfl, rfl, agree_stream11 _ rfl rfl⟩
  | 15, _ => exact ⟨_, _, rfl, rfl, agree_stream11 _ rfl rfl⟩
  | 16, _ => exact ⟨_, _, rfl, rfl, agree_one _ _ rfl⟩
  | 17, _ => exact ⟨_, _, rfl, rfl, agree_two _ _ rfl⟩
  | 18, _ => exact ⟨_, _, rfl, rfl, agree_one _ _ rfl⟩
  | 19, _ => exact ⟨_, _, rfl, rfl, agree_one _ _ rfl⟩
  | 20, _ => exact ⟨_, _, rfl, rfl, agree_one _ _ rfl⟩
  | 21, _ => exact ⟨_, _, rfl, rfl, agree_two _ _ rfl⟩
  | 22, _ => exact ⟨_, _, rfl, rfl, agree_one _ _ rfl⟩
  | 23, _ => exact ⟨_, _, rfl, rfl, agree_one _ _ rfl⟩
  | 24, _ => exact ⟨_, _, rfl, rfl, agree_newConnectionId⟩
  | 25, _ => exact ⟨_, _, rfl, rfl, agree_one _ _ rfl⟩
  | 26, _ => exact ⟨_, _, rfl, rfl, agree_path _ _ rfl⟩
  | 27, _ => exact ⟨_, _, rfl, rfl, agree_path _ _ rfl⟩
  | 28, _ => exact ⟨_, _, rfl, rfl, agree_close0⟩
  | 29, _ => exact ⟨_, _, rfl, rfl, agree_close1⟩
  | 30, _ => exact ⟨_, _, rfl, rfl, agree_bare _ _ rfl⟩
  | n + 31, h => omega

end Verif
