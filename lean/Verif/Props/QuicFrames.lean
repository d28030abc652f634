import Verif.Proofs.QuicFrameFacts
import Verif.Proofs.QuicBytes

/-!
# QUIC variable-length integers and frames (C42, C46 - C49)

`Spec/Quic` describes the wire format of RFC 9000; its parameter `perRange` is the number of integers
per ACK range, which is 2 in the RFC and 1 in the code (see C48). `Spec/QuicApi` says how a frame
shows in the crate's `Frame` type. Theorems hold in debug and release builds (`m : Mode`).
-/

namespace Verif.Props
open Spec Spec.Quic

/-! ## C42 -/

/-- **C42** Decoding of every encoding of every value, whatever follows it. -/
theorem C42_varint_decodes (bs tail : Buf) (v : Nat) (h : Varint bs v) :
    varintLength (bs ++ tail) = .ok bs.length ∧ varint (bs.map (·.toNat)) = .ok v :=
  varint_enc h tail

example := C42_varint_decodes [0x7b, 0xbd] [0xff] 15293 ⟨1, by decide, by decide, by decide, by decide⟩

/-- **C42** Every value below 2^62 has such an encoding in each of the sizes 1, 2, 4, 8 able to hold
it (6, 14, 30 or 62 bits). -/
theorem C42_varint_sizes (v p : Nat) (hp : p < 4) (hv : v < 2 ^ (8 * 2 ^ p - 2)) :
    ∃ bs, bs.length = 2 ^ p ∧ Varint bs v := by
  refine ⟨beBytes (2 ^ p) (p * 2 ^ (8 * 2 ^ p - 2) + v), beBytes_length .., p, hp, beBytes_length .., hv, ?_⟩
  apply beNat_beBytes
  have h256 : (256 : Nat) ^ (2 ^ p) = 4 * 2 ^ (8 * 2 ^ p - 2) := by
    have : 1 ≤ 2 ^ p := Nat.one_le_two_pow
    rw [show (256 : Nat) = 2 ^ 8 by rfl, ← Nat.pow_mul, show (4 : Nat) = 2 ^ 2 by rfl, ← Nat.pow_add]
    congr 1; omega
  rw [h256]
  have : p * 2 ^ (8 * 2 ^ p - 2) ≤ 3 * 2 ^ (8 * 2 ^ p - 2) := Nat.mul_le_mul_right _ (by omega)
  omega

example := C42_varint_sizes 37 3 (by decide) (by decide)

/-- **C42** Values read from 1 to 8 bytes are below 2^62. -/
theorem C42_varint_bound (bs : Buf) (h1 : 1 ≤ bs.length) (h8 : bs.length ≤ 8) :
    ∃ v, varint (bs.map (·.toNat)) = .ok v ∧ v ≤ 2 ^ 62 - 1 := by
  cases bs with
  | nil => simp at h1
  | cons b t =>
    refine ⟨_, rfl, ?_⟩
    have := varint_lt (l := (b :: t).map (·.toNat)) rfl (by simpa using h8) (by
      intro x hx; obtain ⟨c, -, rfl⟩ := List.mem_map.mp hx; exact c.toNat_lt)
    omega

example : Varint [0x7b, 0xbd] 15293 := ⟨1, by decide, by decide, by decide, by decide⟩
example : varint [0x7b, 0xbd] = .ok 15293 ∧ varintLength [0x7b, 0xbd, 0xff] = .ok 2 := ⟨rfl, rfl⟩

/-! ## C47 -/

/-- **C47** When `Frame::new` succeeds, the input is a sequence of frames and what is reported are
its runs: one `Padding` with the length of the run for each maximal run of PADDING frames, and each
other frame with the variant of its type; all with the bytes from their start on. -/
theorem C47_frames_reported (m : Mode) (buf : Buf) (hsl : SliceLen buf.length) (fs : List Frame)
    (h : Frame.new m buf = .ok (some fs)) :
    ∃ raw, Frames 1 buf raw ∧ fs.map shown = (runs raw).map expected :=
  frames_of_new hsl h

example := C47_frames_reported .debug [0, 0, 1] (by decide)
  [⟨.padding, [0, 0, 1], 2⟩, ⟨.ping, [1], 0⟩] (by decide +kernel)

/-- **C47** A run of `n + 1` PADDING bytes followed by other frames. -/
theorem C47_padding_run (m : Mode) (n : Nat) (rest : Buf) (hsl : SliceLen (n + 1 + rest.length))
    (hrest : rest.head? ≠ some 0) (fs : List Frame) (h : Frame.new m rest = .ok (some fs)) :
    Frame.new m (List.replicate (n + 1) 0 ++ rest) =
      .ok (some (⟨.padding, List.replicate (n + 1) 0 ++ rest, n + 1⟩ :: fs)) := by
  have hsl' : SliceLen rest.length := by unfold SliceLen at *; omega
  obtain ⟨raw, hraw, hfs⟩ := frames_of_new hsl' h
  have key : ∀ k, ∃ raw', Frames 1 (List.replicate (k + 1) 0 ++ rest) raw' ∧
      runs raw' = ((0, List.replicate (k + 1) 0 ++ rest), k + 1) :: runs raw := by
    intro k
    induction k with
    | zero =>
      refine ⟨(0, 0 :: rest) :: raw, .cons (body := []) (parts := []) rfl .nil (by simp) hraw, ?_⟩
      have hnz : ∀ g n t, runs raw = (g, n) :: t → g.1 ≠ 0 := by
        intro g n t hr
        cases hraw with
        | nil => cases hr
        | @cons ty parts body rest' fs' h1 h2 h3 h4 =>
          have := runs_head (ty, ty :: (body ++ rest')) fs'
          rw [hr] at this
          simp only [List.head?_cons, Option.map_some, Option.some.injEq] at this
          rw [this]
          intro hz
          apply hrest
          simp only at hz
          rw [hz]; rfl
      rw [runs]
      cases hr : runs raw with
      | nil => rfl
      | cons g t =>
        simp only
        rw [if_neg fun hz => hnz _ _ _ hr hz.2]
        rfl
    | succ k ih =>
      obtain ⟨raw', h1, h2⟩ := ih
      refine ⟨_, .cons (ty := 0) (body := []) (parts := []) rfl .nil (by simp) h1, ?_⟩
      rw [runs, h2]
      simp only [and_self, ite_true]
      rfl
  obtain ⟨raw', h1, h2⟩ := key n
  obtain ⟨fs', h3, h4⟩ := new_of_frames m (buf := List.replicate (n + 1) 0 ++ rest)
    (by rw [List.length_append, List.length_replicate]; exact hsl) h1
  rw [h3]
  congr 2
  apply shown_inj
  rw [h4, h2, List.map_cons, List.map_cons, hfs]
  rfl

example := C47_padding_run .debug 1000 [1] (by decide) (by decide) [⟨.ping, [1], 0⟩] (by decide +kernel)

/-- **C47** No two adjacent reported frames are both `Padding`. -/
theorem C47_no_adjacent_padding (m : Mode) (buf : Buf) (hsl : SliceLen buf.length) (fs : List Frame)
    (h : Frame.new m buf = .ok (some fs)) (i : Nat) (f g : Frame) (hf : fs[i]? = some f)
    (hg : fs[i + 1]? = some g) : ¬ (f.kind = .padding ∧ g.kind = .padding) := by
  obtain ⟨raw, hraw, hfs⟩ := frames_of_new hsl h
  have hkind : ∀ (j : Nat) (x : Frame), fs[j]? = some x → x.kind = .padding →
      ∃ a : (UInt8 × Buf) × Nat, (runs raw)[j]? = some a ∧ a.1.1 = 0 := by
    intro j x hx hk
    have := congrArg (·[j]?) hfs
    simp only [List.getElem?_map, hx, Option.map_some] at this
    cases ha : (runs raw)[j]? with
    | none => rw [ha] at this; cases this
    | some a =>
      rw [ha] at this
      simp only [Option.map_some, Option.some.injEq, shown, expected, Prod.mk.injEq, hk,
        variants_ofType] at this
      exact ⟨a, rfl, (ofType_padding _).mp this.1.symm⟩
  rintro ⟨h1, h2⟩
  obtain ⟨a, ha, ha0⟩ := hkind i f hf h1
  obtain ⟨b, hb, hb0⟩ := hkind (i + 1) g hg h2
  exact runs_no_adjacent raw i a b ha hb ⟨ha0, hb0⟩

example : Frame.new .debug [0, 0, 0, 1, 0, 0x10, 5] =
    .ok (some [⟨.padding, [0, 0, 0, 1, 0, 0x10, 5], 3⟩, ⟨.ping, [1, 0, 0x10, 5], 0⟩,
      ⟨.padding, [0, 0x10, 5], 1⟩, ⟨.maxData, [0x10, 5], 0⟩]) := by decide +kernel

/-! ## C48 -/

/-- An ACK frame of type 2 with range count `n`, and whatever integers `rs` stand after its first
range, followed by `rest`. -/
def ackFrame (ty : UInt8) (largest delay count first : Buf) (rs : List Buf) (rest : Buf) : Buf :=
  ty :: (largest ++ delay ++ count ++ first ++ rs.flatten ++ rest)

/-- **C48 is false**: after an ACK frame with `n ≥ 1` ranges (`2 * n` integers), parsing continues in
the middle of the ranges, after `n` of the integers. -/
theorem C48_ack_ranges_false (m : Mode) (largest delay count first : Buf) (a b c n : Nat)
    (rs : List Buf) (rest : Buf) (h1 : Varint largest a) (h2 : Varint delay b) (h3 : Varint count n)
    (h4 : Varint first c) (hn : 0 < n) (hlen : rs.length = 2 * n) (hrs : ∀ r ∈ rs, ∃ v, Varint r v)
    (hsl : SliceLen (ackFrame 2 largest delay count first rs rest).length) :
    Frame.remaining m ⟨.ack, ackFrame 2 largest delay count first rs rest, 0⟩ =
      .ok ((rs.drop n).flatten ++ rest) ∧ (rs.drop n).flatten ++ rest ≠ rest := by
  constructor
  · have hbody : Reads m (frameItems .ack) [.nums [2]]
        (largest ++ delay ++ count ++ first ++ rs.flatten ++ rest) ((rs.drop n).flatten ++ rest) := by
      refine (agree_ack2 m _ _).mpr ⟨⟨largest ++ (delay ++ ((count ++ first ++ (rs.take n).flatten) ++ [])),
        .cons (.int h1) (.cons (.int h2) (.cons (.ranges h3 h4 ?_ ?_) .nil)), ?_⟩, by simp⟩
      · rw [List.length_take]; omega
      · exact fun r hr => hrs r (List.mem_of_mem_take hr)
      · have hs : rs.flatten = (rs.take n).flatten ++ (rs.drop n).flatten := by
          rw [← List.flatten_append, List.take_append_drop]
        rw [hs]; simp only [List.append_assoc, List.append_nil]
    obtain ⟨v, hv⟩ := hbody
    have := frame_remaining m .ack 2 (largest ++ delay ++ count ++ first ++ rs.flatten ++ rest) 0 hsl
    rw [show (2 : UInt8).toNat = 2 from rfl, hv] at this
    exact this
  · intro heq
    have hnil : (rs.drop n).flatten = [] := by
      have := congrArg List.length heq
      rw [List.length_append] at this
      exact List.length_eq_zero_iff.mp (by omega)
    have hlt : n < rs.length := by omega
    rw [List.flatten_eq_nil_iff] at hnil
    have hmem : rs[n] ∈ rs.drop n := by
      rw [List.drop_eq_getElem_cons hlt]; exact List.mem_cons_self
    obtain ⟨v, hv⟩ := hrs _ (List.mem_of_mem_drop hmem)
    rw [hnil _ hmem] at hv
    exact varint_ne_nil hv

/-- A well-formed ACK frame with one range and a PING frame, for which the last integer of the range
is reported as PADDING. -/
example : Frames 2 [2, 5, 0, 1, 0, 1, 0, 1] [(2, [2, 5, 0, 1, 0, 1, 0, 1]), (1, [1])] ∧
    Frame.new .debug [2, 5, 0, 1, 0, 1, 0, 1] = .ok (some [⟨.ack, [2, 5, 0, 1, 0, 1, 0, 1], 0⟩,
      ⟨.padding, [0, 1], 1⟩, ⟨.ping, [1], 0⟩]) := by
  constructor
  · have v : ∀ b : UInt8, b.toNat < 64 → Varint [b] b.toNat := fun b hb =>
      (varint_cons_iff b [] _).mpr ⟨by rw [Nat.div_eq_of_lt hb]; rfl, by rw [Nat.mod_eq_of_lt hb]; simp [beNat]⟩
    refine .cons (body := [5] ++ ([0] ++ (([1] ++ [0] ++ [[1], [0]].flatten) ++ []))) (rest := [1]) rfl
      (.cons (.int (v 5 (by decide))) (.cons (.int (v 0 (by decide)))
        (.cons (.ranges (v 1 (by decide)) (v 0 (by decide)) rfl ?_) .nil))) (by simp)
      (.cons (body := []) rfl .nil (by simp) .nil)
    intro r hr
    simp only [List.mem_cons, List.not_mem_nil, or_false] at hr
    rcases hr with rfl | rfl
    · exact ⟨_, v 1 (by decide)⟩
    · exact ⟨_, v 0 (by decide)⟩
  · decide +kernel

/-- **C48, partial**: without ACK ranges (range count 0), parsing continues right after the first
range (type 2) or after the ECN counts (type 3). Missing: positive range counts, for which the claim
is false. -/
theorem C48_ack_without_ranges_partial (m : Mode) (largest delay count first e0 e1 e2 : Buf)
    (a b c x y z : Nat) (rest : Buf) (h1 : Varint largest a) (h2 : Varint delay b) (h3 : Varint count 0)
    (h4 : Varint first c) (h5 : Varint e0 x) (h6 : Varint e1 y) (h7 : Varint e2 z)
    (hsl : SliceLen (ackFrame 3 largest delay count first [e0, e1, e2] rest).length)
    (fs : List Frame) (h : Frame.new m rest = .ok (some fs)) :
    Frame.new m (ackFrame 2 largest delay count first [] rest) =
      .ok (some (⟨.ack, ackFrame 2 largest delay count first [] rest, 0⟩ :: fs)) ∧
    Frame.new m (ackFrame 3 largest delay count first [e0, e1, e2] rest) =
      .ok (some (⟨.ack, ackFrame 3 largest delay count first [e0, e1, e2] rest, 0⟩ :: fs)) := by
  have happ : ∀ rs : List Buf, largest ++ delay ++ count ++ first ++ rs.flatten ++ rest =
      largest ++ (delay ++ (count ++ first ++ ([] : List Buf).flatten ++ rs.flatten)) ++ rest := by
    intro rs; simp only [List.append_assoc, List.flatten_nil, List.nil_append]
  have hr : ∀ ps bs, PartsEnc 1 ps bs →
      PartsEnc 1 (.int :: .int :: .ranges :: ps)
        (largest ++ (delay ++ (count ++ first ++ ([] : List Buf).flatten ++ bs))) := fun ps bs hps =>
    .cons (.int h1) (.cons (.int h2) (.cons (.ranges h3 h4 rfl (by simp)) hps))
  have hle : (ackFrame 2 largest delay count first [] rest).length ≤
      (ackFrame 3 largest delay count first [e0, e1, e2] rest).length := by
    simp only [ackFrame, List.length_cons, List.length_append, List.flatten_nil, List.length_nil]
    omega
  constructor
  · have hsl2 : SliceLen (ackFrame 2 largest delay count first [] rest).length := by
      unfold SliceLen at *; omega
    unfold ackFrame at hsl2 ⊢
    rw [happ] at hsl2 ⊢
    exact new_cons (by decide) rfl rfl (hr _ _ .nil) (by simp) hsl2 h
  · unfold ackFrame at hsl ⊢
    rw [happ] at hsl ⊢
    exact new_cons (by decide) rfl rfl (hr [.int, .int, .int] (e0 ++ (e1 ++ (e2 ++ [])))
      (.cons (.int h5) (.cons (.int h6) (.cons (.int h7) .nil)))) (by simp) hsl h

example : Frame.new .debug [2, 5, 0, 0, 0, 1] =
    .ok (some [⟨.ack, [2, 5, 0, 0, 0, 1], 0⟩, ⟨.ping, [1], 0⟩]) := by decide +kernel

/-! ## C49 -/

/-- **C49 is false**: a CRYPTO frame cut off after its type. -/
theorem C49_frame_new_total_false : Frame.new .debug [0x06] = panic ∧ Frame.new .release [0x06] = panic := by
  decide +kernel

/-- Where `Frame::new` returns `None` instead of panicking: at a type RFC 9000 does not define, and at
a NEW_CONNECTION_ID type that is the last byte. -/
def Rejected (rest : Buf) : Prop := UnknownType rest ∨ rest = [0x18]

/-- **C49, partial**: `Frame::new` returns `Some` exactly on frame sequences, `None` exactly on frames
followed by an unknown type (or a lone NEW_CONNECTION_ID type), and panics on everything else.
Missing: the claim that it never panics, which is false; and sequences are those with one integer per
ACK range (C48). -/
theorem C49_frame_new_outcomes_partial (m : Mode) (buf : Buf) (hsl : SliceLen buf.length) :
    ((∃ fs, Frame.new m buf = .ok (some fs)) ↔ ∃ raw, Frames 1 buf raw) ∧
    (Frame.new m buf = .ok none ↔ FramesThen 1 Rejected buf) ∧
    (Frame.new m buf = panic ↔ ¬ (∃ raw, Frames 1 buf raw) ∧ ¬ FramesThen 1 Rejected buf) := by
  unfold Frame.new
  rcases frame_loop m buf.length [] buf (Nat.le_refl _) hsl with ⟨raw, h1, h2⟩ | ⟨h1, h2, h3⟩ | ⟨h1, h2, h3⟩
  · have hno := frames_not_then h1
    rw [h2]
    exact ⟨⟨fun _ => ⟨raw, h1⟩, fun _ => ⟨_, rfl⟩⟩, ⟨fun h => (by cases h), fun h => (hno h).elim⟩,
      ⟨fun h => (by cases h), fun h => (h.1 ⟨raw, h1⟩).elim⟩⟩
  · rw [h3]
    exact ⟨⟨fun ⟨_, h⟩ => (by cases h), fun ⟨raw, h⟩ => (h2 raw h).elim⟩, ⟨fun _ => h1, fun _ => rfl⟩,
      ⟨fun h => (by cases h), fun h => (h.2 h1).elim⟩⟩
  · rw [h3]
    exact ⟨⟨fun ⟨_, h⟩ => (by cases h), fun ⟨raw, h⟩ => (h1 raw h).elim⟩,
      ⟨fun h => (by cases h), fun h => (h2 h).elim⟩, ⟨fun _ => ⟨fun ⟨raw, h⟩ => h1 raw h, h2⟩, fun _ => rfl⟩⟩

example : Frame.new .debug [1, 0x1f, 0, 0] = .ok none := by decide +kernel
example : FramesThen 1 Rejected [1, 0x1f, 0, 0] :=
  .cons (ty := 1) (body := []) rfl .nil (by simp) (.here (.inl rfl))

/-! ## C46, frames -/

/-- **C46** `Frame::new` terminates. -/
theorem C46_frame_new_terminates (m : Mode) (buf : Buf) (hsl : SliceLen buf.length) :
    Frame.new m buf ≠ .error .hang := by
  unfold Frame.new
  rcases frame_loop m buf.length [] buf (Nat.le_refl _) hsl with ⟨raw, h1, h2⟩ | ⟨h1, h2, h3⟩ | ⟨h1, h2, h3⟩
  · rw [h2]; exact fun h => by cases h
  · rw [h3]; exact fun h => by cases h
  · rw [h3]; exact fun h => by cases h

example := C46_frame_new_terminates .debug [0x06] (by decide)

/-- **C46** The reported frames start inside the input, the first one at its start, and each one after
the type byte of all previous ones. -/
theorem C46_frames_consecutive (m : Mode) (buf : Buf) (hsl : SliceLen buf.length) (fs : List Frame)
    (h : Frame.new m buf = .ok (some fs)) :
    (∀ f ∈ fs, f.buf <:+ buf ∧ f.buf ≠ []) ∧
    fs.Pairwise (fun f g => g.buf <:+ f.buf.drop 1) ∧
    (buf ≠ [] → ∃ f, fs.head? = some f ∧ f.buf = buf) := by
  obtain ⟨raw, hraw, hfs⟩ := frames_of_new hsl h
  have hbuf : fs.map (·.buf) = ((runs raw).map (·.1)).map (·.2) := by
    have := congrArg (List.map (fun x => x.2.1)) hfs
    simpa [List.map_map, Function.comp_def, shown, expected] using this
  have hsub := (runs_sublist raw).map (·.2)
  rw [← hbuf] at hsub
  obtain ⟨h1, h2, h3⟩ := frames_pairwise hraw
  refine ⟨?_, ?_, ?_⟩
  · intro f hf
    obtain ⟨x, hx, hxe⟩ := List.mem_map.mp (hsub.subset (List.mem_map_of_mem (f := (·.buf)) hf))
    rw [← hxe]
    exact h1 x hx
  · exact List.pairwise_map.mp (h2.sublist hsub)
  · intro hne
    have hh := h3 hne
    cases raw with
    | nil => simp at hh
    | cons x xs =>
      simp only [List.map_cons, List.head?_cons, Option.some.injEq] at hh
      have hr := runs_head x xs
      have hhead := congrArg List.head? hbuf
      rw [List.head?_map, List.head?_map, List.head?_map, hr] at hhead
      cases hf : fs.head? with
      | none => rw [hf] at hhead; cases hhead
      | some f =>
        rw [hf] at hhead
        simp only [Option.map_some, Option.some.injEq] at hhead
        exact ⟨f, rfl, by rw [hhead, hh]⟩

example := C46_frames_consecutive .debug [0, 0, 1] (by decide)
  [⟨.padding, [0, 0, 1], 2⟩, ⟨.ping, [1], 0⟩] (by decide +kernel)

end Verif.Props
