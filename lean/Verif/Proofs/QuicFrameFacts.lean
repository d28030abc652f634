import Verif.Proofs.QuicFrameLoop

/-! Helper lemmas: consequences of the description of `Frame::new`. -/

namespace Verif
open Spec

theorem frames_unique {buf : Buf} {raw raw' : List (UInt8 × Buf)} (h : Quic.Frames 1 buf raw)
    (h' : Quic.Frames 1 buf raw') : raw = raw' := by
  induction h generalizing raw' with
  | nil => cases h' with
    | nil => rfl
  | @cons ty parts body rest fs h1 h2 h3 h4 ih =>
    generalize hp : ty :: (body ++ rest) = p at h'
    cases h' with
    | nil => cases hp
    | @cons ty' parts' body' rest' fs' h1' h2' h3' h4' =>
      injection hp with hp1 hp2
      subst hp1
      rw [h1] at h1'; cases h1'
      rcases frame_agree ty.toNat with ⟨-, h5⟩ | ⟨k, ps, -, h5, hag⟩
      · rw [h1] at h5; cases h5
      · rw [h1] at h5; cases h5
        have r1 := (hag .debug (body ++ rest) rest).mpr ⟨⟨body, h2, rfl⟩, h3⟩
        have r2 := (hag .debug (body ++ rest) rest').mpr ⟨⟨body', h2', hp2⟩, h3'⟩
        have := reads_unique r1 r2
        subst this
        rw [ih h4']

/-- `Frame::new` on a frame sequence. -/
theorem new_of_frames (m : Mode) {buf : Buf} (hsl : SliceLen buf.length) {raw : List (UInt8 × Buf)}
    (h : Quic.Frames 1 buf raw) :
    ∃ fs, Frame.new m buf = .ok (some fs) ∧ fs.map Quic.shown = (Quic.runs raw).map Quic.expected := by
  rcases frame_loop m buf.length [] buf (Nat.le_refl _) hsl with ⟨raw', h1, h2⟩ | ⟨-, h1, -⟩ | ⟨h1, -⟩
  · rw [frames_unique h1 h] at h2
    exact ⟨_, h2, foldl_push_shown raw (frames_known h)⟩
  · exact (h1 raw h).elim
  · exact (h1 raw h).elim

/-- `Frame::new` succeeds only on frame sequences. -/
theorem frames_of_new {m : Mode} {buf : Buf} (hsl : SliceLen buf.length) {fs : List Frame}
    (h : Frame.new m buf = .ok (some fs)) :
    ∃ raw, Quic.Frames 1 buf raw ∧ fs.map Quic.shown = (Quic.runs raw).map Quic.expected := by
  unfold Frame.new at h
  rcases frame_loop m buf.length [] buf (Nat.le_refl _) hsl with ⟨raw', h1, h2⟩ | ⟨-, -, h1⟩ | ⟨-, -, h1⟩
  · rw [h2] at h
    cases h
    exact ⟨raw', h1, foldl_push_shown raw' (frames_known h1)⟩
  · rw [h] at h1; cases h1
  · rw [h] at h1; cases h1

theorem shown_inj {a b : List Frame} (h : a.map Quic.shown = b.map Quic.shown) : a = b := by
  induction a generalizing b with
  | nil => cases b with
    | nil => rfl
    | cons _ _ => cases h
  | cons x a ih => cases b with
    | nil => cases h
    | cons y b =>
      simp only [List.map_cons, List.cons.injEq] at h
      obtain ⟨h1, h2⟩ := h
      obtain ⟨k, bu, c⟩ := x
      obtain ⟨k', bu', c'⟩ := y
      simp only [Quic.shown, Prod.mk.injEq, Option.some.injEq] at h1
      obtain ⟨rfl, rfl, rfl⟩ := h1
      rw [ih h2]

/-- Frames follow each other. -/
theorem frames_pairwise {r : Nat} {buf : Buf} {raw : List (UInt8 × Buf)} (h : Quic.Frames r buf raw) :
    (∀ x ∈ raw, x.2 <:+ buf ∧ x.2 ≠ []) ∧ (raw.map (·.2)).Pairwise (fun a b => b <:+ a.drop 1) ∧
      (buf ≠ [] → (raw.map (·.2)).head? = some buf) := by
  induction h with
  | nil => simp
  | @cons ty parts body rest fs h1 h2 h3 h4 ih =>
    obtain ⟨ih1, ih2, -⟩ := ih
    have hsuf : rest <:+ ty :: (body ++ rest) := ⟨ty :: body, rfl⟩
    refine ⟨?_, ?_, fun _ => rfl⟩
    · intro x hx
      rcases List.mem_cons.mp hx with rfl | hx
      · exact ⟨List.suffix_refl _, by simp⟩
      · exact ⟨(ih1 x hx).1.trans hsuf, (ih1 x hx).2⟩
    · rw [List.map_cons, List.pairwise_cons]
      refine ⟨?_, ih2⟩
      intro b hb
      obtain ⟨x, hx, rfl⟩ := List.mem_map.mp hb
      exact (ih1 x hx).1.trans ⟨body, rfl⟩

theorem runs_sublist (raw : List (UInt8 × Buf)) :
    ((Quic.runs raw).map (·.1)).Sublist raw := by
  induction raw with
  | nil => exact List.Sublist.slnil
  | cons x xs ih =>
    obtain ⟨n, rest, h1, -⟩ := runs_cons x xs
    rw [Quic.runs]
    cases hr : Quic.runs xs with
    | nil => simp
    | cons g gs =>
      obtain ⟨g, k⟩ := g
      rw [hr] at ih
      simp only
      split
      · refine List.Sublist.cons_cons x ?_
        exact (List.sublist_cons_self _ _).trans ih
      · exact List.Sublist.cons_cons x ih

theorem runs_head (x : UInt8 × Buf) (xs : List (UInt8 × Buf)) :
    (Quic.runs (x :: xs)).head?.map (·.1) = some x := by
  obtain ⟨n, rest, h1, -⟩ := runs_cons x xs
  rw [h1]; rfl

theorem runs_no_adjacent (raw : List (UInt8 × Buf)) (i : Nat) (a b : (UInt8 × Buf) × Nat)
    (ha : (Quic.runs raw)[i]? = some a) (hb : (Quic.runs raw)[i + 1]? = some b) :
    ¬ (a.1.1 = 0 ∧ b.1.1 = 0) := by
  induction raw generalizing i a b with
  | nil => cases ha
  | cons x xs ih =>
    rw [Quic.runs] at ha hb
    cases hr : Quic.runs xs with
    | nil => rw [hr] at ha hb; simp at hb
    | cons g gs =>
      obtain ⟨g, k⟩ := g
      rw [hr] at ha hb ih
      simp only at ha hb
      by_cases hz : x.1 = 0 ∧ g.1 = 0
      · rw [if_pos hz] at ha hb
        cases i with
        | zero =>
          simp at ha hb
          have := ih 0 (g, k) b rfl (by simpa using hb)
          subst ha
          exact fun h => this ⟨hz.2, h.2⟩
        | succ i => exact ih (i + 1) a b (by simpa using ha) (by simpa using hb)
      · rw [if_neg hz] at ha hb
        cases i with
        | zero =>
          simp at ha hb
          subst ha hb
          exact hz
        | succ i => exact ih i a b (by simpa using ha) (by simpa using hb)

/-- A frame other than padding in front of others. -/
theorem new_cons {m : Mode} {ty : UInt8} {kind : FrameKind} {parts : List Quic.Part} {body rest : Buf}
    (hty : ty ≠ 0) (hk : FrameKind.ofType ty.toNat = some kind)
    (hp : Quic.frameParts ty.toNat = some parts) (hb : Quic.PartsEnc 1 parts body)
    (he : .toEnd ∈ parts → rest = []) (hsl : SliceLen (ty :: (body ++ rest)).length)
    {fs : List Frame} (h : Frame.new m rest = .ok (some fs)) :
    Frame.new m (ty :: (body ++ rest)) = .ok (some (⟨kind, ty :: (body ++ rest), 0⟩ :: fs)) := by
  have hsl' : SliceLen rest.length := by
    unfold SliceLen at *; simp only [List.length_cons, List.length_append] at hsl; omega
  obtain ⟨raw, h1, h2⟩ := frames_of_new hsl' h
  obtain ⟨fs', h3, h4⟩ := new_of_frames m hsl (.cons hp hb he h1)
  rw [h3]
  congr 2
  apply shown_inj
  have hr : Quic.runs ((ty, ty :: (body ++ rest)) :: raw) =
      ((ty, ty :: (body ++ rest)), 1) :: Quic.runs raw := by
    rw [Quic.runs]
    cases Quic.runs raw with
    | nil => rfl
    | cons g gs => simp only [hty, false_and, ite_false]
  rw [h4, hr, List.map_cons, List.map_cons, h2]
  congr 1
  simp only [Quic.expected, Quic.shown, variants_ofType, hk, hty, ite_false]

theorem frames_not_then {buf : Buf} {raw : List (UInt8 × Buf)} (h : Quic.Frames 1 buf raw) :
    ¬ Quic.FramesThen 1 GiveUp buf := by
  induction h with
  | nil =>
    intro h
    generalize hp : ([] : Buf) = p at h
    cases h with
    | here hg =>
      subst hp
      rcases hg with hg | hg
      · exact hg
      · cases hg
    | cons _ _ _ _ => cases hp
  | @cons ty parts body rest fs h1 h2 h3 h4 ih =>
    intro h
    generalize hp : ty :: (body ++ rest) = p at h
    cases h with
    | here hg =>
      subst hp
      rcases hg with hg | hg
      · change Quic.frameParts ty.toNat = none at hg
        rw [h1] at hg; cases hg
      · injection hg with hb hr
        subst hb
        have h7 : Quic.frameParts (0x18 : UInt8).toNat = some [.int, .int, .cid, .bytes 16] := rfl
        rw [h7] at h1
        cases h1
        have hbn : body = [] := (List.append_eq_nil_iff.mp hr).1
        subst hbn
        exact parts_int_ne_nil h2
    | @cons ty' parts' body' rest' h1' h2' h3' h4' =>
      injection hp with hp1 hp2
      subst hp1
      rw [h1] at h1'; cases h1'
      rcases frame_agree ty.toNat with ⟨-, h5⟩ | ⟨k, ps, -, h5, hag⟩
      · rw [h1] at h5; cases h5
      · rw [h1] at h5; cases h5
        have r1 := (hag .debug (body ++ rest) rest).mpr ⟨⟨body, h2, rfl⟩, h3⟩
        have r2 := (hag .debug (body ++ rest) rest').mpr ⟨⟨body', h2', hp2⟩, h3'⟩
        rw [← reads_unique r1 r2] at h4'
        exact ih h4'

end Verif
