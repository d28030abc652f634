import Verif.Spec.JoinedFrames
import Verif.Proofs.QuicFrameFacts
import Verif.Proofs.QuicFrameFields

/-! Helper lemmas for C129: the loop of `Frame::new` on joined payloads. -/

set_option autoImplicit false

namespace Verif
open Spec

/-- The loop of `Frame::new` on a sequence of frames, given as the list that it pushes. -/
def pushAll (acc : List Frame) (raw : List (UInt8 × Buf)) : List Frame :=
  raw.foldl (fun a x => Frame.push a (frameAt x)) acc

def extRaw (b : Buf) (x : UInt8 × Buf) : UInt8 × Buf := (x.1, x.2 ++ b)

theorem new_pushAll (m : Mode) {buf : Buf} {raw : List (UInt8 × Buf)} (hsl : SliceLen buf.length)
    (h : Quic.Frames 1 buf raw) : Frame.new m buf = .ok (some (pushAll [] raw)) := by
  unfold Frame.new
  rcases frame_loop m buf.length [] buf (Nat.le_refl _) hsl with ⟨raw', h1, h2⟩ | ⟨-, h1, -⟩ | ⟨h1, -⟩
  · rw [frames_unique h1 h] at h2; exact h2
  · exact (h1 raw h).elim
  · exact (h1 raw h).elim

theorem frames_pushAll {m : Mode} {buf : Buf} {fs : List Frame} (hsl : SliceLen buf.length)
    (h : Frame.new m buf = .ok (some fs)) : ∃ raw, Quic.Frames 1 buf raw ∧ fs = pushAll [] raw := by
  obtain ⟨raw, h1, -⟩ := frames_of_new hsl h
  refine ⟨raw, h1, ?_⟩
  rw [new_pushAll m hsl h1] at h
  exact (Option.some.inj (Except.ok.inj h)).symm

theorem toEnd_open {ty : UInt8} {parts : List Quic.Part} (hp : Quic.frameParts ty.toNat = some parts)
    (h : .toEnd ∈ parts) : Quic.openEnded ty.toNat := by
  have key : ∀ t : Fin 256, (Quic.frameParts t.val).all
      (fun ps => decide (Quic.Part.toEnd ∈ ps → t.val = 0x08 ∨ t.val = 0x09 ∨ t.val = 0x0c ∨ t.val = 0x0d)) = true := by
    decide +kernel
  have := key ⟨ty.toNat, ty.toNat_lt⟩
  rw [hp] at this
  exact of_decide_eq_true this h

/-! Pushing -/

theorem pushAll_head (k : FrameKind) (raw : List (UInt8 × Buf)) :
    ∃ (d : Nat) (t : List Frame), ∀ f : Frame, f.kind = k → pushAll [f] raw = ⟨f.kind, f.buf, f.count + d⟩ :: t := by
  induction raw with
  | nil => exact ⟨0, [], fun f _ => rfl⟩
  | cons x xs ih =>
    by_cases hz : k = .padding ∧ (frameAt x).kind = .padding
    · obtain ⟨d, t, h⟩ := ih
      refine ⟨(frameAt x).count + d, t, fun f hf => ?_⟩
      have : Frame.push [f] (frameAt x) = [⟨f.kind, f.buf, f.count + (frameAt x).count⟩] := by
        rw [← hf] at hz
        simp only [Frame.push, List.getLast?_singleton, if_pos hz]
        rfl
      unfold pushAll at h ⊢
      rw [List.foldl_cons, this, h ⟨f.kind, f.buf, f.count + (frameAt x).count⟩ hf, Nat.add_assoc]
    · refine ⟨0, pushAll [frameAt x] xs, fun f hf => ?_⟩
      have : Frame.push [f] (frameAt x) = [f] ++ [frameAt x] := by
        rw [← hf] at hz
        simp only [Frame.push, List.getLast?_singleton, if_neg hz]
      unfold pushAll
      rw [List.foldl_cons, this, foldl_push_append]
      rfl

theorem pushAll_cons (x : UInt8 × Buf) (xs : List (UInt8 × Buf)) : pushAll [] (x :: xs) = pushAll [frameAt x] xs := rfl

theorem pushAll_merged (acc : List Frame) (raw : List (UInt8 × Buf)) :
    pushAll acc raw = Quic.merged acc (pushAll [] raw) := by
  cases raw with
  | nil =>
    unfold Quic.merged
    cases h : acc.getLast? <;> simp [pushAll]
  | cons x xs =>
    rcases List.eq_nil_or_concat acc with rfl | ⟨init, l, hc⟩
    · rfl
    · rw [List.concat_eq_append] at hc
      subst hc
      obtain ⟨d, t, h⟩ := pushAll_head (frameAt x).kind xs
      rw [pushAll_cons, h _ rfl]
      unfold Quic.merged
      rw [List.getLast?_concat]
      simp only
      by_cases hz : l.kind = .padding ∧ (frameAt x).kind = .padding
      · rw [if_pos hz, List.dropLast_concat]
        have hp : Frame.push (init ++ [l]) (frameAt x) = init ++ [⟨l.kind, l.buf, l.count + (frameAt x).count⟩] := by
          rw [push_append]
          simp only [Frame.push, List.getLast?_singleton, if_pos hz]
          rfl
        unfold pushAll at h ⊢
        rw [List.foldl_cons, hp, foldl_push_append, h _ (by rw [hz.2]; exact hz.1), Nat.add_assoc]
      · rw [if_neg hz]
        have hp : Frame.push (init ++ [l]) (frameAt x) = (init ++ [l]) ++ [frameAt x] := by
          rw [push_append]
          simp only [Frame.push, List.getLast?_singleton, if_neg hz, List.append_assoc]
        unfold pushAll at h ⊢
        rw [List.foldl_cons, hp, foldl_push_append, h _ rfl]

theorem push_ext (b : Buf) (acc : List Frame) (f : Frame) :
    Frame.push (acc.map (Quic.extended b)) (Quic.extended b f) = (Frame.push acc f).map (Quic.extended b) := by
  rcases List.eq_nil_or_concat acc with rfl | ⟨init, l, hc⟩
  · rfl
  · rw [List.concat_eq_append] at hc
    subst hc
    rw [List.map_append, List.map_cons, List.map_nil, push_append, push_append, List.map_append]
    congr 1
    unfold Frame.push
    simp only [List.getLast?_singleton]
    by_cases hz : l.kind = .padding ∧ f.kind = .padding
    · rw [if_pos hz, if_pos (by exact hz)]; rfl
    · rw [if_neg hz, if_neg (by exact hz)]; rfl

theorem pushAll_ext (b : Buf) (acc : List Frame) (raw : List (UInt8 × Buf)) :
    pushAll (acc.map (Quic.extended b)) (raw.map (extRaw b)) = (pushAll acc raw).map (Quic.extended b) := by
  induction raw generalizing acc with
  | nil => rfl
  | cons x xs ih =>
    unfold pushAll at ih ⊢
    rw [List.map_cons, List.foldl_cons, List.foldl_cons, ← ih, ← push_ext]
    rfl

/-! Sequences -/

theorem frames_join {a b : Buf} {ra rb : List (UInt8 × Buf)} (ha : Quic.Frames 1 a ra)
    (hc : ∀ x ∈ ra, ¬ Quic.openEnded x.1.toNat) (hb : Quic.Frames 1 b rb) :
    Quic.Frames 1 (a ++ b) (ra.map (extRaw b) ++ rb) := by
  induction ha with
  | nil => exact hb
  | @cons ty parts body rest fs h1 h2 h3 h4 ih =>
    have := ih (fun x hx => hc x (List.mem_cons_of_mem _ hx))
    have h5 : .toEnd ∉ parts := fun h => hc _ List.mem_cons_self (toEnd_open h1 h)
    have h6 := Quic.Frames.cons h1 h2 (fun h => (h5 h).elim) this
    rw [← List.append_assoc] at h6
    rw [List.map_cons]
    exact h6

theorem then_join {a b : Buf} {ra : List (UInt8 × Buf)} {P : Buf → Prop} (ha : Quic.Frames 1 a ra)
    (hc : ∀ x ∈ ra, ¬ Quic.openEnded x.1.toNat) (hb : Quic.FramesThen 1 P b) : Quic.FramesThen 1 P (a ++ b) := by
  induction ha with
  | nil => exact hb
  | @cons ty parts body rest fs h1 h2 h3 h4 ih =>
    have := ih (fun x hx => hc x (List.mem_cons_of_mem _ hx))
    have h5 : .toEnd ∉ parts := fun h => hc _ List.mem_cons_self (toEnd_open h1 h)
    have h6 := Quic.FramesThen.cons h1 h2 (fun h => (h5 h).elim) this
    rw [← List.append_assoc] at h6
    exact h6

/-- One frame is taken off in only one way. -/
theorem frame_off {ty : UInt8} {parts parts' : List Quic.Part} {body rest body' rest' : Buf}
    (h1 : Quic.frameParts ty.toNat = some parts) (h2 : Quic.PartsEnc 1 parts body) (h3 : .toEnd ∈ parts → rest = [])
    (h1' : Quic.frameParts ty.toNat = some parts') (h2' : Quic.PartsEnc 1 parts' body')
    (h3' : .toEnd ∈ parts' → rest' = []) (h : body ++ rest = body' ++ rest') : rest = rest' := by
  rw [h1] at h1'; cases h1'
  rcases frame_agree ty.toNat with ⟨-, h5⟩ | ⟨k, ps, -, h5, hag⟩
  · rw [h1] at h5; cases h5
  · rw [h1] at h5; cases h5
    exact reads_unique ((hag .debug (body ++ rest) rest).mpr ⟨⟨body, h2, rfl⟩, h3⟩)
      ((hag .debug (body ++ rest) rest').mpr ⟨⟨body', h2', h⟩, h3'⟩)

theorem frames_unjoin {a b : Buf} {ra r : List (UInt8 × Buf)} (ha : Quic.Frames 1 a ra)
    (hc : ∀ x ∈ ra, ¬ Quic.openEnded x.1.toNat) (h : Quic.Frames 1 (a ++ b) r) : ∃ rb, Quic.Frames 1 b rb := by
  induction ha generalizing r with
  | nil => exact ⟨r, h⟩
  | @cons ty parts body rest fs h1 h2 h3 h4 ih =>
    have h5 : .toEnd ∉ parts := fun h => hc _ List.mem_cons_self (toEnd_open h1 h)
    generalize hp : ty :: (body ++ rest) ++ b = p at h
    cases h with
    | nil => cases hp
    | @cons ty' parts' body' rest' fs' h1' h2' h3' h4' =>
      rw [List.cons_append, List.append_assoc] at hp
      injection hp with hp1 hp2
      subst hp1
      have := frame_off h1 h2 (fun h => (h5 h).elim) h1' h2' h3' hp2
      rw [← this] at h4'
      exact ih (fun x hx => hc x (List.mem_cons_of_mem _ hx)) h4'

theorem then_unjoin {a b : Buf} {ra : List (UInt8 × Buf)} (ha : Quic.Frames 1 a ra)
    (hc : ∀ x ∈ ra, ¬ Quic.openEnded x.1.toNat) (h : Quic.FramesThen 1 GiveUp (a ++ b)) :
    Quic.FramesThen 1 GiveUp b := by
  induction ha with
  | nil => exact h
  | @cons ty parts body rest fs h1 h2 h3 h4 ih =>
    have h5 : .toEnd ∉ parts := fun h => hc _ List.mem_cons_self (toEnd_open h1 h)
    generalize hp : ty :: (body ++ rest) ++ b = p at h
    rw [List.cons_append, List.append_assoc] at hp
    cases h with
    | here hg =>
      subst hp
      rcases hg with hg | hg
      · change Quic.frameParts ty.toNat = none at hg
        rw [h1] at hg; cases hg
      · injection hg with hb hr
        subst hb
        have h7 : Quic.frameParts (0x18 : UInt8).toNat = some [.int, .int, .cid, .bytes 16] := rfl
        rw [h7] at h1
        cases h1
        rw [(List.append_eq_nil_iff.mp hr).1] at h2
        exact (parts_int_ne_nil h2).elim
    | @cons ty' parts' body' rest' h1' h2' h3' h4' =>
      injection hp with hp1 hp2
      subst hp1
      have := frame_off h1 h2 (fun h => (h5 h).elim) h1' h2' h3' hp2
      rw [← this] at h4'
      exact ih (fun x hx => hc x (List.mem_cons_of_mem _ hx)) h4'

theorem new_join (m : Mode) {a b : Buf} {ra : List (UInt8 × Buf)} (hsl : SliceLen (a ++ b).length)
    (ha : Quic.Frames 1 a ra) (hc : ∀ x ∈ ra, ¬ Quic.openEnded x.1.toNat) :
    Frame.new m (a ++ b) = Quic.joined ((pushAll [] ra).map (Quic.extended b)) (Frame.new m b) := by
  have hslb : SliceLen b.length := by unfold SliceLen at *; rw [List.length_append] at hsl; omega
  rcases frame_loop m b.length [] b (Nat.le_refl _) hslb with ⟨rb, h1, -⟩ | ⟨h1, -, h2⟩ | ⟨h1, h1', h2⟩
  · rw [new_pushAll m hsl (frames_join ha hc h1), new_pushAll m hslb h1]
    unfold Quic.joined
    simp only
    rw [← pushAll_ext, ← pushAll_merged]
    unfold pushAll
    rw [List.foldl_append]
    rfl
  · have hn : Frame.new m b = .ok none := h2
    rw [hn]
    have h3 := then_join ha hc h1
    unfold Frame.new
    rcases frame_loop m (a ++ b).length [] (a ++ b) (Nat.le_refl _) hsl with ⟨r, h4, -⟩ | ⟨-, -, h4⟩ | ⟨-, h4, -⟩
    · exact (frames_not_then h4 h3).elim
    · exact h4
    · exact (h4 h3).elim
  · have hn : Frame.new m b = panic := h2
    rw [hn]
    unfold Frame.new
    rcases frame_loop m (a ++ b).length [] (a ++ b) (Nat.le_refl _) hsl with ⟨r, h4, -⟩ | ⟨h4, -, -⟩ | ⟨-, -, h4⟩
    · obtain ⟨rb, h5⟩ := frames_unjoin ha hc h4
      exact (h1 rb h5).elim
    · exact (h1' (then_unjoin ha hc h4)).elim
    · exact h4

theorem parts_open {ty : UInt8} {parts : List Quic.Part} {body b : Buf} (hp : Quic.frameParts ty.toNat = some parts)
    (h : .toEnd ∈ parts) (hb : Quic.PartsEnc 1 parts body) : Quic.PartsEnc 1 parts (body ++ b) := by
  have key : ∀ (is : List Quic.Part) (bs : Buf), Quic.PartsEnc 1 (is ++ [.toEnd]) bs →
      Quic.PartsEnc 1 (is ++ [.toEnd]) (bs ++ b) := by
    intro is
    induction is with
    | nil =>
      intro bs h
      have := Quic.PartsEnc.cons (perRange := 1) (Quic.PartEnc.toEnd (bs := bs ++ b)) .nil
      rwa [List.append_nil] at this
    | cons i is ih =>
      intro bs h
      cases h with
      | cons h1 h2 => rw [List.append_assoc]; exact .cons h1 (ih _ h2)
  rcases toEnd_open hp h with h | h | h | h <;> rw [h] at hp <;> cases hp
  · exact key [.int] _ hb
  · exact key [.int] _ hb
  · exact key [.int, .int] _ hb
  · exact key [.int, .int] _ hb

theorem frames_open {a : Buf} (b : Buf) {ra : List (UInt8 × Buf)} (ha : Quic.Frames 1 a ra)
    (hc : ∃ x ∈ ra, Quic.openEnded x.1.toNat) : Quic.Frames 1 (a ++ b) (ra.map (extRaw b)) := by
  induction ha with
  | nil => obtain ⟨x, h, -⟩ := hc; cases h
  | @cons ty parts body rest fs h1 h2 h3 h4 ih =>
    by_cases ho : .toEnd ∈ parts
    · have := h3 ho
      subst this
      cases h4
      have := Quic.Frames.cons h1 (parts_open (b := b) h1 ho h2) (fun _ => rfl) Quic.Frames.nil
      rw [List.append_nil] at this
      simpa [extRaw] using this
    · obtain ⟨x, hx, hxo⟩ := hc
      rcases List.mem_cons.mp hx with rfl | hx
      · exact (ho (toEnd_of_open h1 hxo)).elim
      · have := Quic.Frames.cons h1 h2 (fun h => (ho h).elim) (ih ⟨x, hx, hxo⟩)
        rw [← List.append_assoc] at this
        rw [List.map_cons]
        exact this

/-- Frames that are not reported are PADDING. -/
theorem runs_all (raw : List (UInt8 × Buf)) : ∀ x ∈ raw, x.1 = 0 ∨ ∃ n, (x, n) ∈ Quic.runs raw := by
  induction raw with
  | nil => simp
  | cons y ys ih =>
    intro x hx
    rw [Quic.runs]
    rcases List.mem_cons.mp hx with rfl | hx
    · right
      split
      · exact ⟨1, by simp⟩
      · split
        · exact ⟨_, List.mem_cons_self⟩
        · exact ⟨1, List.mem_cons_self⟩
    · rcases ih x hx with h | ⟨n, h⟩
      · exact .inl h
      · split
        · rename_i heq; rw [heq] at h; cases h
        · rename_i g k rest heq
          rw [heq] at h
          split
          · rename_i hz
            rcases List.mem_cons.mp h with h | h
            · left
              rw [(Prod.mk.inj h).1]; exact hz.2
            · exact .inr ⟨n, List.mem_cons_of_mem _ h⟩
          · exact .inr ⟨n, List.mem_cons_of_mem _ h⟩

/-- A reported frame reaches the end iff one of the sequence does. -/
theorem reaches_iff {buf : Buf} {raw : List (UInt8 × Buf)} (h : Quic.Frames 1 buf raw) :
    (∃ f ∈ pushAll [] raw, Quic.ReachesEnd f) ↔ ∃ x ∈ raw, Quic.openEnded x.1.toNat := by
  have hs : (pushAll [] raw).map Quic.shown = (Quic.runs raw).map Quic.expected := foldl_push_shown raw (frames_known h)
  have hhead : ∀ x ∈ raw, x.2.head? = some x.1 := by
    intro x hx
    obtain ⟨_, _, _, h1, -⟩ := frames_mem h x hx
    rw [h1]; rfl
  constructor
  · rintro ⟨f, hf, ty, ht, ho⟩
    have hm := List.mem_map_of_mem (f := Quic.shown) hf
    rw [hs] at hm
    obtain ⟨⟨x, n⟩, hx, he⟩ := List.mem_map.mp hm
    have hxr : x ∈ raw := (runs_sublist raw).subset (List.mem_map_of_mem (f := (·.1)) hx)
    have hb : x.2 = f.buf := (Prod.mk.inj (Prod.mk.inj he).2).1
    have h2 := hhead x hxr
    rw [hb, ht] at h2
    cases h2
    exact ⟨x, hxr, ho⟩
  · rintro ⟨x, hx, ho⟩
    rcases runs_all raw x hx with h0 | ⟨n, hn⟩
    · rw [h0] at ho
      exact absurd ho (by unfold Quic.openEnded; decide)
    · have hm := List.mem_map_of_mem (f := Quic.expected) hn
      rw [← hs] at hm
      obtain ⟨f, hf, he⟩ := List.mem_map.mp hm
      have hb : f.buf = x.2 := (Prod.mk.inj (Prod.mk.inj he).2).1
      exact ⟨f, hf, x.1, by rw [hb]; exact hhead x hx, ho⟩

/-- The bytes of a reported frame are those of one of the sequence. -/
theorem pushAll_from {buf : Buf} {raw : List (UInt8 × Buf)} (h : Quic.Frames 1 buf raw) (f : Frame)
    (hf : f ∈ pushAll [] raw) : ∃ x ∈ raw, x.2 = f.buf := by
  have hs : (pushAll [] raw).map Quic.shown = (Quic.runs raw).map Quic.expected := foldl_push_shown raw (frames_known h)
  have hm := List.mem_map_of_mem (f := Quic.shown) hf
  rw [hs] at hm
  obtain ⟨⟨x, n⟩, hx, he⟩ := List.mem_map.mp hm
  exact ⟨x, (runs_sublist raw).subset (List.mem_map_of_mem (f := (·.1)) hx), (Prod.mk.inj (Prod.mk.inj he).2).1⟩

/-- The first reported frame has all bytes, the others have fewer. -/
theorem pushAll_bufs {buf : Buf} {raw : List (UInt8 × Buf)} (h : Quic.Frames 1 buf raw) (hne : buf ≠ []) :
    ∃ y t, pushAll [] raw = y :: t ∧ y.buf = buf ∧ ∀ g ∈ t, g.buf ≠ buf := by
  obtain ⟨-, p2, p3⟩ := frames_pairwise h
  have hs : (pushAll [] raw).map Quic.shown = (Quic.runs raw).map Quic.expected := foldl_push_shown raw (frames_known h)
  have hb : (pushAll [] raw).map (·.buf) = ((Quic.runs raw).map (·.1)).map (·.2) := by
    have := congrArg (List.map (fun z : Option FrameKind × Buf × Nat => z.2.1)) hs
    rw [List.map_map, List.map_map] at this
    rw [List.map_map]
    exact this
  have hpw : ((pushAll [] raw).map (·.buf)).Pairwise (fun a b => b <:+ a.drop 1) := by
    rw [hb]
    exact List.Pairwise.sublist ((runs_sublist raw).map (·.2)) p2
  cases raw with
  | nil => cases h; exact (hne rfl).elim
  | cons x xs =>
    obtain ⟨n, rest, hr, -⟩ := runs_cons x xs
    have hx : x.2 = buf := Option.some.inj (p3 hne)
    cases hp : pushAll [] (x :: xs) with
    | nil => rw [hp, hr] at hb; cases hb
    | cons y t =>
      rw [hp, hr] at hb
      have hy : y.buf = buf := by
        simp only [List.map_cons, List.cons.injEq] at hb
        rw [hb.1, hx]
      refine ⟨y, t, rfl, hy, fun g hg he => ?_⟩
      rw [hp, List.map_cons, List.pairwise_cons] at hpw
      have := (hpw.1 g.buf (List.mem_map_of_mem hg)).length_le
      rw [hy, he, List.length_drop] at this
      have := List.length_pos_iff.mpr hne
      omega

theorem frames_split {buf front r : Buf} {raw : List (UInt8 × Buf)} (h : Quic.Frames 1 buf raw) (hb : front ++ r = buf)
    (hx : ∃ x ∈ raw, x.2 = r) : ∃ ra rb, raw = ra.map (extRaw r) ++ rb ∧ Quic.Frames 1 front ra ∧
      Quic.Frames 1 r rb ∧ ∀ x ∈ ra, ¬ Quic.openEnded x.1.toNat := by
  induction h generalizing front with
  | nil => obtain ⟨x, hx, -⟩ := hx; cases hx
  | @cons ty parts body rest fs h1 h2 h3 h4 ih =>
    obtain ⟨x, hx, hxr⟩ := hx
    rcases List.mem_cons.mp hx with rfl | hx
    · change ty :: (body ++ rest) = r at hxr
      have hf : front = [] := by
        have := congrArg List.length hb
        rw [hxr, List.length_append] at this
        exact List.length_eq_zero_iff.mp (by omega)
      subst hf
      refine ⟨[], _, rfl, .nil, ?_, by simp⟩
      rw [← hxr]
      exact .cons h1 h2 h3 h4
    · obtain ⟨p1, -, -⟩ := frames_pairwise h4
      obtain ⟨hs, hne⟩ := p1 x hx
      rw [hxr] at hs hne
      obtain ⟨front', hfr⟩ := hs
      have hno : .toEnd ∉ parts := fun he => by
        rw [h3 he] at hfr
        exact hne (List.append_eq_nil_iff.mp hfr).2
      obtain ⟨ra, rb, e1, e2, e3, e4⟩ := ih hfr ⟨x, hx, hxr⟩
      have hf : front = ty :: (body ++ front') := by
        rw [← hfr, ← List.append_assoc, ← List.cons_append] at hb
        exact List.append_cancel_right hb
      refine ⟨(ty, ty :: (body ++ front')) :: ra, rb, ?_, ?_, e3, ?_⟩
      · rw [List.map_cons, List.cons_append, ← e1]
        simp only [extRaw, ← hfr, List.cons_append, List.append_assoc]
      · rw [hf]
        exact .cons h1 h2 (fun he => (hno he).elim) e2
      · intro z hz ho
        rcases List.mem_cons.mp hz with rfl | hz
        · exact hno (toEnd_of_open h1 ho)
        · exact e4 z hz ho

theorem frames_split_at {α : Type} {P : α → Prop} {a b c d : List α} {x y : α} (h : a ++ x :: b = c ++ y :: d) (hx : P x)
    (hc : ∀ z ∈ c, ¬ P z) (hd : ∀ z ∈ d, ¬ P z) : a = c ∧ y :: d = x :: b := by
  rcases List.append_eq_append_iff.mp h with ⟨e, h1, h2⟩ | ⟨e, h1, h2⟩
  · cases e with
    | nil => rw [List.append_nil] at h1; exact ⟨h1.symm, h2.symm⟩
    | cons z e =>
      rw [List.cons_append, List.cons.injEq] at h2
      exact absurd hx (hc x (by rw [h1, h2.1]; simp))
  · cases e with
    | nil => rw [List.append_nil] at h1; exact ⟨h1, h2⟩
    | cons z e =>
      rw [List.cons_append, List.cons.injEq] at h2
      exact absurd hx (hd x (by rw [h2.2]; simp))

end Verif
