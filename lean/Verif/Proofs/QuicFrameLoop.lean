import Verif.Proofs.QuicFrameNew
import Verif.Spec.QuicApi

/-! Helper lemmas: the loop of `Frame::new`. -/

namespace Verif
open Spec

/-- The frame made from a type byte and the bytes from there on. -/
def frameAt (x : UInt8 × Buf) : Frame :=
  ⟨(FrameKind.ofType x.1.toNat).getD .padding, x.2,
    if (FrameKind.ofType x.1.toNat).getD .padding = .padding then 1 else 0⟩

theorem new_frame (k : FrameKind) (b : UInt8) (rest : Buf)
    (h : k = .newConnectionId → rest ≠ []) : k.decl.new (b :: rest) = some (b :: rest) := by
  have hmin : k.decl.minSize = if k = .newConnectionId then 2 else 1 := by cases k <;> rfl
  rw [Decl.new, hmin, if_pos]
  by_cases hk : k = .newConnectionId
  · rw [if_pos hk]
    have := List.length_pos_iff.mpr (h hk)
    simp only [List.length_cons, ge_iff_le]; omega
  · rw [if_neg hk]; simp

theorem new_lone (b : UInt8) : FrameKind.newConnectionId.decl.new [b] = none := rfl

/-- Where `Frame::new` gives up: an unknown type, or a lone NEW_CONNECTION_ID type byte. -/
def GiveUp (rest : Buf) : Prop := Quic.UnknownType rest ∨ rest = [0x18]

theorem reads_unique {m : Mode} {is : List Item} {vals : List Val} {rest t t' : Buf}
    (h : Reads m is vals rest t) (h' : Reads m is vals rest t') : t = t' := by
  obtain ⟨v, h⟩ := h
  obtain ⟨v', h'⟩ := h'
  rw [h] at h'
  simp only [Option.some.injEq, Prod.mk.injEq] at h'
  exact h'.2

theorem ofType_nci {ty : Nat} (h : FrameKind.ofType ty = some .newConnectionId) : ty = 0x18 := by
  rcases frame_agree ty with ⟨h1, -⟩ | ⟨k, ps, h1, h2, -⟩
  · rw [h1] at h; simp at h
  · by_cases hty : 0x1e < ty
    · unfold FrameKind.ofType at h
      repeat rw [if_neg (by omega)] at h
      simp at h
    · have hall : ∀ t : Fin 31, FrameKind.ofType t.val = some .newConnectionId → t.val = 0x18 := by decide
      exact hall ⟨ty, by omega⟩ h

theorem parts_int_ne_nil {r : Nat} {ps : List Quic.Part} : ¬ Quic.PartsEnc r (.int :: ps) [] := by
  intro h4
  generalize hq : ([] : Buf) = q at h4
  cases h4 with
  | @cons _ _ bs rest2 h8 _ =>
    have hbs : bs = [] := (List.append_eq_nil_iff.mp hq.symm).1
    subst hbs
    generalize hz : ([] : Buf) = z at h8
    cases h8 with
    | int hv => subst hz; exact varint_ne_nil hv

theorem frame_loop (m : Mode) (fuel : Nat) (acc : List Frame) (packet : Buf)
    (hf : packet.length ≤ fuel) (hsl : SliceLen packet.length) :
    (∃ raw, Quic.Frames 1 packet raw ∧
      Frame.loop m fuel acc packet = .ok (some (raw.foldl (fun a x => Frame.push a (frameAt x)) acc))) ∨
    (Quic.FramesThen 1 GiveUp packet ∧ (∀ raw, ¬ Quic.Frames 1 packet raw) ∧
      Frame.loop m fuel acc packet = .ok none) ∨
    ((∀ raw, ¬ Quic.Frames 1 packet raw) ∧ ¬ Quic.FramesThen 1 GiveUp packet ∧
      Frame.loop m fuel acc packet = panic) := by
  induction fuel generalizing acc packet with
  | zero =>
    have : packet = [] := List.length_eq_zero_iff.mp (by omega)
    subst this
    exact .inl ⟨[], .nil, rfl⟩
  | succ fuel ih =>
    cases packet with
    | nil => exact .inl ⟨[], .nil, rfl⟩
    | cons b rest =>
      have hidx : index (b :: rest) 0 = .ok b := rfl
      have hne : List.isEmpty (b :: rest) = false := rfl
      rcases frame_agree b.toNat with ⟨h1, h2⟩ | ⟨k, ps, h1, h2, hag⟩
      · right; left
        refine ⟨.here (.inl h2), ?_, ?_⟩
        · rintro raw h
          cases h with
          | cons h3 => rw [h2] at h3; cases h3
        · simp only [Frame.loop, hne, Bool.false_eq_true, ite_false, hidx, ok_bind, h1]
      · by_cases hlone : k = .newConnectionId ∧ rest = []
        · obtain ⟨rfl, rfl⟩ := hlone
          right; left
          have hb : b = 0x18 := by
            have := ofType_nci h1
            exact UInt8.toNat_inj.mp this
          subst hb
          refine ⟨.here (.inr rfl), ?_, ?_⟩
          · intro raw h
            generalize hp : ([0x18] : Buf) = p at h
            cases h with
            | nil => cases hp
            | @cons ty parts body rest fs h3 h4 h5 h6 =>
              injection hp with hp1 hp2
              subst hp1
              have : parts = [.int, .int, .cid, .bytes 16] := by
                have h7 : Quic.frameParts (0x18 : UInt8).toNat = some [.int, .int, .cid, .bytes 16] := rfl
                rw [h7] at h3; exact (Option.some.inj h3).symm
              subst this
              have hbn : body = [] := (List.append_eq_nil_iff.mp hp2.symm).1
              subst hbn
              exact parts_int_ne_nil h4
          · simp only [Frame.loop, hne, Bool.false_eq_true, ite_false, hidx, ok_bind, h1, new_lone]
        · have hnew := new_frame k b rest (fun hk hr => hlone ⟨hk, hr⟩)
          have hrem := frame_remaining m k b rest (if k = .padding then 1 else 0) hsl
          have hloop : Frame.loop m (fuel + 1) acc (b :: rest) =
              (Frame.remaining m ⟨k, b :: rest, if k = .padding then 1 else 0⟩ >>= fun r =>
                Frame.loop m fuel (Frame.push acc ⟨k, b :: rest, if k = .padding then 1 else 0⟩) r) := by
            simp only [Frame.loop, hne, Bool.false_eq_true, ite_false, hidx, ok_bind, h1, hnew]
          have hat : frameAt (b, b :: rest) = ⟨k, b :: rest, if k = .padding then 1 else 0⟩ := by
            simp only [frameAt, h1, Option.getD_some]
          rw [hloop, hrem]
          -- decomposition of a frame sequence starting with `b`
          have hinv : ∀ body rest', Quic.PartsEnc 1 ps body → rest = body ++ rest' →
              (.toEnd ∈ ps → rest' = []) → Reads m (frameItems k) [.nums [b.toNat]] rest rest' :=
            fun body rest' h3 h4 h5 => (hag m rest rest').mpr ⟨⟨body, h3, h4⟩, h5⟩
          cases hs : scan m (frameItems k) [.nums [b.toNat]] rest with
          | none =>
            right; right
            have hno : ∀ t, ¬ Reads m (frameItems k) [.nums [b.toNat]] rest t := by
              rintro t ⟨v, hv⟩; rw [hs] at hv; cases hv
            refine ⟨?_, ?_, rfl⟩
            · intro raw h
              cases h with
              | @cons ty parts body rest' fs h3 h4 h5 h6 =>
                rw [h2] at h3; cases h3
                exact hno _ (hinv body rest' h4 rfl h5)
            · intro h
              generalize hp : b :: rest = p at h
              cases h with
              | here hg =>
                subst hp
                rcases hg with hg | hg
                · change Quic.frameParts b.toNat = none at hg
                  rw [h2] at hg; cases hg
                · injection hg with hb hr
                  subst hb
                  apply hlone
                  refine ⟨?_, hr⟩
                  have : FrameKind.ofType (0x18 : UInt8).toNat = some .newConnectionId := rfl
                  rw [this] at h1; exact (Option.some.inj h1).symm
              | @cons ty parts body rest' h3 h4 h5 h6 =>
                injection hp with hp1 hp2
                subst hp1
                rw [h2] at h3; cases h3
                exact hno _ (hinv body rest' h4 hp2 h5)
          | some r =>
            obtain ⟨vals', t⟩ := r
            have hr : Reads m (frameItems k) [.nums [b.toNat]] rest t := ⟨vals', hs⟩
            obtain ⟨⟨body, hb, hrest⟩, hend⟩ := (hag m rest t).mp hr
            have htl : t.length ≤ rest.length := by rw [hrest]; simp
            simp only [List.length_cons] at hf hsl
            unfold SliceLen at hsl
            simp only [ok_bind]
            rw [← hat]
            have hinvF : ∀ raw, Quic.Frames 1 (b :: rest) raw → ∃ raw', Quic.Frames 1 t raw' := by
              intro raw h
              generalize hp : b :: rest = p at h
              cases h with
              | nil => cases hp
              | @cons ty parts body' rest' fs h3 h4 h5 h6 =>
                injection hp with hp1 hp2
                subst hp1
                rw [h2] at h3; cases h3
                rw [reads_unique hr (hinv body' rest' h4 hp2 h5)]
                exact ⟨fs, h6⟩
            rcases ih (Frame.push acc (frameAt (b, b :: rest))) t (by omega) (by unfold SliceLen; omega)
              with ⟨raw, h3, h4⟩ | ⟨h3, h4, h5⟩ | ⟨h3, h4, h5⟩
            · left
              refine ⟨(b, b :: rest) :: raw, ?_, h4⟩
              rw [hrest]
              exact .cons h2 hb hend h3
            · right; left
              refine ⟨?_, ?_, h5⟩
              · rw [hrest]; exact .cons h2 hb hend h3
              · intro raw h
                obtain ⟨raw', h⟩ := hinvF raw h
                exact h4 raw' h
            · right; right
              refine ⟨?_, ?_, h5⟩
              · intro raw h
                obtain ⟨raw', h⟩ := hinvF raw h
                exact h3 raw' h
              · intro h
                generalize hp : b :: rest = p at h
                cases h with
                | here hg =>
                  subst hp
                  rcases hg with hg | hg
                  · change Quic.frameParts b.toNat = none at hg
                    rw [h2] at hg; cases hg
                  · injection hg with hb' hr'
                    subst hb'
                    apply hlone
                    refine ⟨?_, hr'⟩
                    have : FrameKind.ofType (0x18 : UInt8).toNat = some .newConnectionId := rfl
                    rw [this] at h1; exact (Option.some.inj h1).symm
                | @cons ty parts body' rest' h6 h7 h8 h9 =>
                  injection hp with hp1 hp2
                  subst hp1
                  rw [h2] at h6; cases h6
                  rw [← reads_unique hr (hinv body' rest' h7 hp2 h8)] at h9
                  exact h4 h9

/-! Merging of padding -/

theorem variants_ofType (ty : UInt8) : Quic.variants.lookup ty.toNat = FrameKind.ofType ty.toNat := by
  have h : ∀ t : Fin 256, Quic.variants.lookup t.val = FrameKind.ofType t.val := by decide +kernel
  exact h ⟨ty.toNat, ty.toNat_lt⟩

theorem ofType_padding (ty : UInt8) : FrameKind.ofType ty.toNat = some .padding ↔ ty = 0 := by
  have h : ∀ t : Fin 256, FrameKind.ofType t.val = some .padding ↔ t.val = 0 := by decide +kernel
  rw [h ⟨ty.toNat, ty.toNat_lt⟩]
  exact ⟨fun h => UInt8.toNat_inj.mp h, fun h => by rw [h]; rfl⟩

theorem runs_cons (x : UInt8 × Buf) (xs : List (UInt8 × Buf)) :
    ∃ n rest, Quic.runs (x :: xs) = (x, n) :: rest ∧
      ∀ y : UInt8 × Buf, y.1 = x.1 → Quic.runs (y :: xs) = (y, n) :: rest := by
  simp only [Quic.runs]
  cases h : Quic.runs xs with
  | nil => exact ⟨1, [], rfl, fun y _ => rfl⟩
  | cons g gs =>
    obtain ⟨g, n⟩ := g
    by_cases hz : x.1 = 0 ∧ g.1 = 0
    · refine ⟨n + 1, gs, by simp only [if_pos hz], fun y hy => ?_⟩
      rw [← hy] at hz
      simp only [if_pos hz]
    · refine ⟨1, (g, n) :: gs, by simp only [if_neg hz], fun y hy => ?_⟩
      rw [← hy] at hz
      simp only [if_neg hz]

theorem push_append (acc : List Frame) (f g : Frame) :
    Frame.push (acc ++ [f]) g = acc ++ Frame.push [f] g := by
  unfold Frame.push
  simp only [List.getLast?_append, List.getLast?_singleton, Option.some_or]
  split <;> simp

theorem push_ne_nil (acc : List Frame) (g : Frame) : ∃ acc' g', Frame.push acc g = acc' ++ [g'] := by
  unfold Frame.push
  split
  · split <;> exact ⟨_, _, rfl⟩
  · exact ⟨_, _, rfl⟩

theorem foldl_push_append (acc : List Frame) (f : Frame) (raw : List (UInt8 × Buf)) :
    raw.foldl (fun a x => Frame.push a (frameAt x)) (acc ++ [f]) =
      acc ++ raw.foldl (fun a x => Frame.push a (frameAt x)) [f] := by
  induction raw generalizing acc f with
  | nil => rfl
  | cons x xs ih =>
    simp only [List.foldl_cons, push_append]
    obtain ⟨a, g, h⟩ := push_ne_nil [f] (frameAt x)
    rw [h, ← List.append_assoc, ih, ih, List.append_assoc]

/-- Add `k` to the count of the first run. -/
def addHead (k : Nat) : List ((UInt8 × Buf) × Nat) → List ((UInt8 × Buf) × Nat)
  | [] => []
  | (x, n) :: rest => (x, n + k) :: rest

/-- A frame counting `c` padding frames. -/
def frameCount (x : UInt8 × Buf) (c : Nat) : Frame :=
  ⟨(FrameKind.ofType x.1.toNat).getD .padding, x.2,
    if (FrameKind.ofType x.1.toNat).getD .padding = .padding then c else 0⟩

theorem kind_padding {x : UInt8 × Buf} (h : (FrameKind.ofType x.1.toNat).isSome) :
    (FrameKind.ofType x.1.toNat).getD .padding = .padding ↔ x.1 = 0 := by
  rw [← ofType_padding]
  cases hk : FrameKind.ofType x.1.toNat with
  | none => rw [hk] at h; cases h
  | some k => simp

theorem shown_frameCount {x : UInt8 × Buf} (h : (FrameKind.ofType x.1.toNat).isSome) (c : Nat) :
    Quic.shown (frameCount x c) = Quic.expected (x, c) := by
  have hp := kind_padding h
  simp only [Quic.shown, frameCount, Quic.expected, variants_ofType, hp]
  cases hk : FrameKind.ofType x.1.toNat with
  | none => rw [hk] at h; cases h
  | some k => rfl

theorem foldl_push_runs (raw : List (UInt8 × Buf))
    (hraw : ∀ x ∈ raw, (FrameKind.ofType x.1.toNat).isSome) :
    ∀ (y : UInt8 × Buf) (k : Nat), (FrameKind.ofType y.1.toNat).isSome →
      (y.1 = 0 ∨ k = 0) →
      (raw.foldl (fun a x => Frame.push a (frameAt x)) [frameCount y (1 + k)]).map Quic.shown =
        (addHead k (Quic.runs (y :: raw))).map Quic.expected := by
  induction raw with
  | nil =>
    intro y k hy _
    simp only [List.foldl_nil, List.map_cons, List.map_nil, Quic.runs, addHead]
    rw [shown_frameCount hy]
  | cons x xs ih =>
    intro y k hy hk
    have hx := hraw x (by simp)
    have hxs : ∀ z ∈ xs, (FrameKind.ofType z.1.toNat).isSome := fun z hz => hraw z (by simp [hz])
    have hkx := kind_padding hx
    have hky := kind_padding hy
    simp only [List.foldl_cons]
    by_cases hz : y.1 = 0 ∧ x.1 = 0
    · have hpush : Frame.push [frameCount y (1 + k)] (frameAt x) = [frameCount y (1 + (k + 1))] := by
        have h1 := hky.mpr hz.1
        have h2 := hkx.mpr hz.2
        simp only [Frame.push, List.getLast?_singleton, frameCount, frameAt, h1, h2, and_self, ite_true]
        simp; omega
      rw [hpush, ih hxs y (k + 1) hy (.inl hz.1)]
      obtain ⟨n, rest, h1, h2⟩ := runs_cons x xs
      rw [h2 y (by rw [hz.1, hz.2])]
      have h3 : Quic.runs (y :: x :: xs) = (y, n + 1) :: rest := by
        rw [Quic.runs, h1]; simp only [if_pos hz]
      rw [h3]
      simp only [addHead]
      rw [show n + (k + 1) = n + 1 + k by omega]
    · have hpush : Frame.push [frameCount y (1 + k)] (frameAt x) = [frameCount y (1 + k)] ++ [frameAt x] := by
        have : ¬ ((frameCount y (1 + k)).kind = .padding ∧ (frameAt x).kind = .padding) := by
          rw [show (frameCount y (1 + k)).kind = (FrameKind.ofType y.1.toNat).getD .padding from rfl,
            show (frameAt x).kind = (FrameKind.ofType x.1.toNat).getD .padding from rfl, hkx, hky]
          exact hz
        simp only [Frame.push, List.getLast?_singleton, if_neg this]
      rw [hpush, foldl_push_append]
      have hih := ih hxs x 0 hx (.inr rfl)
      rw [show frameCount x (1 + 0) = frameAt x from rfl] at hih
      rw [List.map_append, hih]
      obtain ⟨n, rest, h1, h2⟩ := runs_cons x xs
      have h3 : Quic.runs (y :: x :: xs) = (y, 1) :: (x, n) :: rest := by
        rw [Quic.runs, h1]; simp only [if_neg hz]
      rw [h3, h1]
      simp only [addHead, List.map_cons, List.map_nil, Nat.add_zero, shown_frameCount hy]
      rfl

theorem foldl_push_shown (raw : List (UInt8 × Buf))
    (hraw : ∀ x ∈ raw, (FrameKind.ofType x.1.toNat).isSome) :
    (raw.foldl (fun a x => Frame.push a (frameAt x)) []).map Quic.shown =
      (Quic.runs raw).map Quic.expected := by
  cases raw with
  | nil => rfl
  | cons x xs =>
    have h := foldl_push_runs xs (fun z hz => hraw z (by simp [hz])) x 0 (hraw x (by simp)) (.inr rfl)
    obtain ⟨n, rest, h1, -⟩ := runs_cons x xs
    rw [h1] at h ⊢
    exact h

theorem frames_known {r : Nat} {buf : Buf} {raw : List (UInt8 × Buf)} (h : Quic.Frames r buf raw) :
    ∀ x ∈ raw, (FrameKind.ofType x.1.toNat).isSome := by
  induction h with
  | nil => simp
  | @cons ty parts body rest fs h1 _ _ _ ih =>
    intro x hx
    rcases List.mem_cons.mp hx with rfl | hx
    · rcases frame_agree ty.toNat with ⟨-, h2⟩ | ⟨k, ps, h2, -⟩
      · rw [h1] at h2; cases h2
      · simp [h2]
    · exact ih x hx

end Verif
