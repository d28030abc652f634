import Verif.Spec.Memory

/-! # Slices with addresses behave as their bytes -/

namespace Verif
open Spec

theorem load_length {mem : Mem} {s : Slice} {b : Buf} (h : mem.load s = some b) : b.length = s.len := by
  unfold Mem.load at h
  split at h
  · cases h
  · split at h
    · cases h; rw [List.length_take, List.length_drop]; omega
    · cases h

theorem load_live {mem : Mem} {s : Slice} : (∃ b, mem.load s = some b) ↔ Live mem s := by
  unfold Mem.load Live
  cases mem s.base with
  | none => simp
  | some b =>
    by_cases hl : s.off + s.len ≤ b.length
    · simp [hl]
    · simp [hl]

theorem Spec.Within.refl (s : Slice) : Within s s := ⟨rfl, by omega, by omega⟩

theorem Spec.Within.trans {s t r : Slice} (h : Within s t) (h' : Within t r) : Within s r := by
  obtain ⟨h1, h2, h3⟩ := h
  obtain ⟨h4, h5, h6⟩ := h'
  exact ⟨h1.trans h4, by omega, by omega⟩

theorem Spec.Within.live {mem : Mem} {s t : Slice} (h : Within s t) (ht : Live mem t) : Live mem s := by
  obtain ⟨h1, h2, h3⟩ := h
  obtain ⟨b, h4, h5⟩ := ht
  exact ⟨b, by rw [h1, h4], by omega⟩

/-- Two memories that agree on a slice agree on the slices inside. -/
theorem Spec.Within.load {mem mem' : Mem} {s t : Slice} {b : Buf} (h : Within s t) (h1 : mem.load t = some b)
    (h2 : mem'.load t = some b) : mem'.load s = mem.load s := by
  obtain ⟨hb, ho, hl⟩ := h
  unfold Mem.load at h1 h2 ⊢
  rw [hb]
  cases hm : mem t.base with
  | none => rw [hm] at h1; cases h1
  | some x =>
    cases hm' : mem' t.base with
    | none => rw [hm'] at h2; cases h2
    | some y =>
      rw [hm] at h1
      rw [hm'] at h2
      simp only at h1 h2 ⊢
      split at h1
      · split at h2
        · rename_i hx hy
          cases h1
          simp only [Option.some.injEq] at h2
          rw [if_pos (by omega), if_pos (by omega)]
          have : ∀ z : Buf, (z.drop s.off).take s.len =
              ((((z.drop t.off).take t.len).drop (s.off - t.off)).take s.len) := by
            intro z
            rw [List.drop_take, List.take_take, List.drop_drop, Nat.min_eq_left (by omega),
              show t.off + (s.off - t.off) = s.off by omega]
          rw [this y, this x, h2]
        · cases h2
      · cases h1

/-- Slicing an address gives the address of the slice. -/
theorem sub_load {mem : Mem} {s : Slice} {buf : Buf} (h : mem.load s = some buf) (a c : Nat) :
    (s.sub a c = panic ∧ slice buf a c = panic) ∨
    ∃ t b, s.sub a c = .ok t ∧ slice buf a c = .ok b ∧ mem.load t = some b ∧ Within t s := by
  have hlen := load_length h
  unfold Slice.sub slice
  by_cases hc : a ≤ c ∧ c ≤ s.len
  · refine .inr ⟨⟨s.base, s.off + a, c - a⟩, (buf.take c).drop a, by rw [if_pos hc],
      by rw [if_pos (by omega)], ?_, rfl, by simp, by simp; omega⟩
    unfold Mem.load at h ⊢
    cases hm : mem s.base with
    | none => rw [hm] at h; cases h
    | some x =>
      rw [hm] at h
      simp only at h ⊢
      split at h
      · cases h
        rw [if_pos (by omega), List.drop_take, List.drop_take, List.take_take, List.drop_drop,
          Nat.min_eq_left (by omega)]
      · cases h
  · exact .inl ⟨by rw [if_neg hc], by rw [if_neg (by omega)]⟩

theorem getRaw_bounds (d : Decl) (m : Mode) (buf : Buf) (k : Nat) :
    d.getRaw m buf k = (do let (a, b) ← d.rawBounds m buf k; slice buf a b) := by
  unfold Decl.getRaw Decl.rawBounds varSlice
  cases d.fields[k]? with
  | none => rfl
  | some f =>
    simp only
    cases curOff m (d.before m buf k).bit (d.before m buf k).lens with
    | error e => rfl
    | ok a =>
      cases fieldLen m buf (d.before m buf k) f with
      | error e => rfl
      | ok l =>
        cases hu : uadd m a l with
        | error e => simp [bind, Except.bind, hu]
        | ok b => simp [bind, Except.bind, hu]

/-- A raw getter gives an address inside the packet, holding the bytes that the getter gives. -/
theorem getRawRef_load {mem : Mem} {data : DataRef} {buf : Buf} (h : mem.load data.asSlice = some buf)
    (d : Decl) (m : Mode) (k : Nat) :
    (∃ e, d.getRawRef m mem data k = some (.error e) ∧ d.getRaw m buf k = .error e) ∨
    ∃ t b, d.getRawRef m mem data k = some (.ok t) ∧ d.getRaw m buf k = .ok b ∧
      mem.load t = some b ∧ Within t data.asSlice := by
  unfold Decl.getRawRef
  rw [h, getRaw_bounds]
  simp only
  cases d.rawBounds m buf k with
  | error e => exact .inl ⟨e, rfl, rfl⟩
  | ok ab =>
    obtain ⟨a, c⟩ := ab
    rcases sub_load h a c with ⟨h1, h2⟩ | ⟨t, b, h1, h2, h3, h4⟩
    · exact .inl ⟨.panic, congrArg some h1, h2⟩
    · exact .inr ⟨t, b, congrArg some h1, h2, h3, h4⟩

theorem newRef_eq (d : Decl) {mem : Mem} {s : Slice} {buf : Buf} (h : mem.load s = some buf) :
    (d.newRef s = none ∧ d.new buf = none) ∨ (d.newRef s = some (.borrowed s) ∧ d.new buf = some buf) := by
  have := load_length h
  unfold Decl.newRef Decl.new
  by_cases hc : s.len ≥ d.minSize
  · exact .inr ⟨by rw [if_pos hc], by rw [if_pos (by omega)]⟩
  · exact .inl ⟨by rw [if_neg hc], by rw [if_neg (by omega)]⟩

/-! ## `QuicPacket::new` -/

theorem quic_remaining_load {mem : Mem} {s : Slice} {buf : Buf} (hs : (mem .static).isSome)
    (h : mem.load s = some buf) (m : Mode) (kind : QuicKind) :
    (∃ e, QuicRef.remaining m mem ⟨kind, .borrowed s⟩ = some (.error e) ∧
      QuicPacket.remaining m ⟨kind, buf⟩ = .error e) ∨
    ∃ t b, QuicRef.remaining m mem ⟨kind, .borrowed s⟩ = some (.ok t) ∧
      QuicPacket.remaining m ⟨kind, buf⟩ = .ok b ∧ mem.load t = some b ∧ (Within t s ∨ t.len = 0) := by
  have hraw : ∀ (d : Decl) (k : Nat), (∃ e, d.getRawRef m mem (.borrowed s) k = some (.error e) ∧
      d.getRaw m buf k = .error e) ∨ ∃ t b, d.getRawRef m mem (.borrowed s) k = some (.ok t) ∧
      d.getRaw m buf k = .ok b ∧ mem.load t = some b ∧ (Within t s ∨ t.len = 0) := by
    intro d k
    rcases getRawRef_load (data := .borrowed s) h d m k with h1 | ⟨t, b, h1, h2, h3, h4⟩
    · exact .inl h1
    · exact .inr ⟨t, b, h1, h2, h3, .inl h4⟩
  have hempty : mem.load .empty = some [] := by
    unfold Mem.load Slice.empty
    obtain ⟨b, hb⟩ := Option.isSome_iff_exists.mp hs
    simp [hb]
  cases kind
  · exact .inr ⟨.empty, [], rfl, rfl, hempty, .inr rfl⟩
  · exact hraw Verif.initial 15
  · exact hraw Verif.zeroRtt 13
  · exact hraw Verif.handshake 13
  · exact .inr ⟨.empty, [], rfl, rfl, hempty, .inr rfl⟩
  · exact .inr ⟨.empty, [], rfl, rfl, hempty, .inr rfl⟩

/-- The two loops, with and without addresses. -/
def QuicMemAgree (mem : Mem) (s : Slice) (r : Res (Option (List QuicRef)))
    (v : Res (Option (List QuicPacket))) : Prop :=
  r.map (Option.map (List.map (quicView mem))) =
      v.map (Option.map (List.map fun p => (p.kind, some p.buf))) ∧
    ∀ refs, r = .ok (some refs) → ∀ q ∈ refs, ∃ t, q.data = .borrowed t ∧ Within t s

theorem quic_loop_agrees (m : Mode) (mem : Mem) (hs : (mem .static).isSome) :
    ∀ (fuel : Nat) (s : Slice) (buf : Buf), mem.load s = some buf →
      ∃ r, QuicRef.loop m mem fuel s = some r ∧ QuicMemAgree mem s r (QuicPacket.loop m fuel buf) := by
  have hnil : ∀ s, QuicMemAgree mem s (.ok (some [])) (.ok (some [])) := fun s =>
    ⟨rfl, fun refs h q hq => by cases h; cases hq⟩
  have hnone : ∀ s, QuicMemAgree mem s (.ok none) (.ok none) := fun s => ⟨rfl, fun refs h => by cases h⟩
  have herr : ∀ s e, QuicMemAgree mem s (.error e) (.error e) := fun s e => ⟨rfl, fun refs h => by cases h⟩
  intro fuel
  induction fuel with
  | zero =>
    intro s buf h
    have hlen := load_length h
    cases buf with
    | nil =>
      refine ⟨.ok (some []), ?_, hnil s⟩
      rw [QuicRef.loop, if_pos (by simpa using hlen.symm)]
    | cons b bs =>
      refine ⟨.error .hang, ?_, herr s _⟩
      rw [QuicRef.loop, if_neg (by simp at hlen; omega)]
  | succ fuel ih =>
    intro s buf h
    have hlen := load_length h
    rw [QuicRef.loop, QuicPacket.loop]
    by_cases h0 : s.len = 0
    · have : buf = [] := List.length_eq_zero_iff.mp (by omega)
      subst this
      exact ⟨_, by rw [if_pos h0], hnil s⟩
    rw [if_neg h0]
    have hne : buf.isEmpty = false := by
      cases buf with
      | nil => simp at hlen; omega
      | cons => rfl
    rw [hne]
    simp only [Bool.false_eq_true, ↓reduceIte, hlen]
    by_cases h5 : s.len < 5
    · rw [if_pos h5, if_pos h5]; exact ⟨_, rfl, hnone s⟩
    rw [if_neg h5, if_neg h5, h]
    simp only
    cases hcl : QuicPacket.classify buf with
    | error e => exact ⟨_, rfl, herr s e⟩
    | ok o =>
      cases o with
      | none => exact ⟨_, rfl, hnone s⟩
      | some kind =>
        simp only [bind, Except.bind]
        rcases newRef_eq kind.decl h with ⟨h1, h2⟩ | ⟨h1, h2⟩
        · rw [h1, h2]; exact ⟨_, rfl, hnone s⟩
        rw [h1, h2]
        simp only
        rcases quic_remaining_load hs h m kind with ⟨e, h3, h4⟩ | ⟨t, b, h3, h4, h5, h6⟩
        · rw [h3, h4]; exact ⟨_, rfl, herr s e⟩
        rw [h3, h4]
        simp only
        obtain ⟨r, h7, h8, h9⟩ := ih t b h5
        rw [h7]
        generalize QuicPacket.loop m fuel b = v at h8
        cases r with
        | error e =>
          cases v with
          | error e' => cases h8; exact ⟨_, rfl, herr s e⟩
          | ok v => cases h8
        | ok r =>
          cases v with
          | error e' => cases h8
          | ok v =>
            cases r with
            | none =>
              cases v with
              | none => exact ⟨_, rfl, hnone s⟩
              | some v => cases h8
            | some refs =>
              cases v with
              | none => cases h8
              | some ps =>
                simp only [Except.map, Option.map, Except.ok.injEq, Option.some.injEq] at h8
                refine ⟨_, rfl, ?_, ?_⟩
                · simp only [Except.map, Option.map, List.map_cons, h8, quicView, DataRef.asSlice, h]
                · intro refs' hr q hq
                  cases hr
                  rcases List.mem_cons.mp hq with rfl | hq
                  · exact ⟨s, rfl, Within.refl s⟩
                  · obtain ⟨t', h10, h11⟩ := h9 refs rfl q hq
                    refine ⟨t', h10, ?_⟩
                    rcases h6 with h6 | h6
                    · exact h11.trans h6
                    · exfalso
                      rw [QuicRef.loop.eq_def] at h7
                      cases fuel <;> simp [h6] at h7 <;> subst h7 <;> cases hq

/-! ## `Frame::new` -/

/-- The two frame loops, with and without addresses; the memory stays the same. -/
def FrameMemAgree (mem : Mem) (s : Slice) (r : Res (Option (List FrameRef) × Mem))
    (v : Res (Option (List Frame))) : Prop :=
  r.map (fun x => x.1.map (List.map (frameView mem))) =
      v.map (Option.map (List.map fun f => (f.kind, some f.buf, f.count))) ∧
    ∀ o mem', r = .ok (o, mem') → mem' = mem ∧
      ∀ refs, o = some refs → ∀ f ∈ refs, ∃ t, f.data = .borrowed t ∧ Within t s

theorem frame_push_agrees {mem : Mem} {s : Slice} {refs : List FrameRef} {fs : List Frame}
    {fr : FrameRef} {f : Frame} (h : refs.map (frameView mem) = fs.map fun f => (f.kind, some f.buf, f.count))
    (hf : frameView mem fr = (f.kind, some f.buf, f.count))
    (hw : ∀ g ∈ refs, ∃ t, g.data = .borrowed t ∧ Within t s)
    (hfr : ∃ t, fr.data = .borrowed t ∧ Within t s) :
    (FrameRef.push mem refs fr).2 = mem ∧
    (FrameRef.push mem refs fr).1.map (frameView mem) =
      (Frame.push fs f).map (fun f => (f.kind, some f.buf, f.count)) ∧
    ∀ g ∈ (FrameRef.push mem refs fr).1, ∃ t, g.data = .borrowed t ∧ Within t s := by
  have happ : (refs ++ [fr]).map (frameView mem) = (fs ++ [f]).map fun f => (f.kind, some f.buf, f.count) := by
    rw [List.map_append, List.map_append, h]
    simp [hf]
  have happw : ∀ g ∈ refs ++ [fr], ∃ t, g.data = .borrowed t ∧ Within t s := by
    intro g hg
    rcases List.mem_append.mp hg with hg | hg
    · exact hw g hg
    · simp only [List.mem_singleton] at hg; subst hg; exact hfr
  have hlast := congrArg List.getLast? h
  rw [List.getLast?_map, List.getLast?_map] at hlast
  unfold FrameRef.push Frame.push
  cases hl : refs.getLast? with
  | none =>
    rw [hl] at hlast
    cases hl' : fs.getLast? with
    | none => exact ⟨rfl, happ, happw⟩
    | some x => rw [hl'] at hlast; cases hlast
  | some x =>
    rw [hl] at hlast
    cases hl' : fs.getLast? with
    | none => rw [hl'] at hlast; cases hlast
    | some y =>
      rw [hl'] at hlast
      simp only [Option.map_some, Option.some.injEq, frameView, Prod.mk.injEq] at hlast hf
      obtain ⟨hk, hb, hc⟩ := hlast
      obtain ⟨hfk, hfb, hfc⟩ := hf
      simp only [hk, hfk]
      split
      · obtain ⟨t, ht, htw⟩ := hfr
        refine ⟨by rw [ht]; rfl, ?_, ?_⟩
        · rw [List.map_append, List.map_append, List.map_dropLast, List.map_dropLast, h]
          simp [frameView, hb, hc, hfc]
        · intro g hg
          rcases List.mem_append.mp hg with hg | hg
          · exact hw g ((List.dropLast_sublist refs).subset hg)
          · simp only [List.mem_singleton] at hg
            subst hg
            exact hw x (List.mem_of_getLast? hl)
      · exact ⟨rfl, happ, happw⟩

theorem frame_loop_agrees (m : Mode) (mem : Mem) (s0 : Slice) :
    ∀ (fuel : Nat) (s : Slice) (buf : Buf) (refs : List FrameRef) (fs : List Frame),
      mem.load s = some buf → Within s s0 →
      refs.map (frameView mem) = fs.map (fun f => (f.kind, some f.buf, f.count)) →
      (∀ g ∈ refs, ∃ t, g.data = .borrowed t ∧ Within t s0) →
      ∃ r, FrameRef.loop m fuel mem refs s = some r ∧ FrameMemAgree mem s0 r (Frame.loop m fuel fs buf) := by
  have hdone : ∀ (refs : List FrameRef) (fs : List Frame),
      refs.map (frameView mem) = fs.map (fun f => (f.kind, some f.buf, f.count)) →
      (∀ g ∈ refs, ∃ t, g.data = .borrowed t ∧ Within t s0) →
      FrameMemAgree mem s0 (.ok (some refs, mem)) (.ok (some fs)) := fun refs fs h hw =>
    ⟨by simp [Except.map, h], fun o mem' ho => by
      cases ho; exact ⟨rfl, fun refs' hr g hg => by cases hr; exact hw g hg⟩⟩
  have hnone : FrameMemAgree mem s0 (.ok (none, mem)) (.ok none) :=
    ⟨rfl, fun o mem' ho => by cases ho; exact ⟨rfl, fun refs' hr => by cases hr⟩⟩
  have herr : ∀ e, FrameMemAgree mem s0 (.error e) (.error e) := fun e =>
    ⟨rfl, fun o mem' ho => by cases ho⟩
  intro fuel
  induction fuel with
  | zero =>
    intro s buf refs fs h hs0 hv hw
    have hlen := load_length h
    cases buf with
    | nil =>
      refine ⟨_, ?_, hdone refs fs hv hw⟩
      rw [FrameRef.loop, if_pos (by simpa using hlen.symm)]
    | cons b bs =>
      refine ⟨.error .hang, ?_, herr _⟩
      rw [FrameRef.loop, if_neg (by simp at hlen; omega)]
  | succ fuel ih =>
    intro s buf refs fs h hs0 hv hw
    have hlen := load_length h
    rw [FrameRef.loop, Frame.loop]
    by_cases h0 : s.len = 0
    · have : buf = [] := List.length_eq_zero_iff.mp (by omega)
      subst this
      exact ⟨_, by rw [if_pos h0], hdone refs fs hv hw⟩
    rw [if_neg h0]
    have hne : buf.isEmpty = false := by
      cases buf with
      | nil => simp at hlen; omega
      | cons => rfl
    rw [hne, h]
    simp only [Bool.false_eq_true, ↓reduceIte]
    cases hi : index buf 0 with
    | error e => exact ⟨_, rfl, herr e⟩
    | ok b0 =>
      simp only [bind, Except.bind]
      cases FrameKind.ofType b0.toNat with
      | none => exact ⟨_, rfl, hnone⟩
      | some kind =>
        simp only
        rcases newRef_eq kind.decl h with ⟨h1, h2⟩ | ⟨h1, h2⟩
        · rw [h1, h2]; exact ⟨_, rfl, hnone⟩
        rw [h1, h2]
        simp only [FrameRef.remaining, Frame.remaining]
        rcases getRawRef_load (data := .borrowed s) h kind.decl m (kind.decl.fields.length - 1) with
          ⟨e, h3, h4⟩ | ⟨t, b, h3, h4, h5, h6⟩
        · rw [h3, h4]; exact ⟨_, rfl, herr e⟩
        rw [h3, h4]
        simp only
        obtain ⟨p1, p2, p3⟩ := frame_push_agrees (s := s0) (fr := ⟨kind, .borrowed s, if kind = .padding then 1 else 0⟩)
          (f := ⟨kind, buf, if kind = .padding then 1 else 0⟩) hv
          (by simp [frameView, DataRef.asSlice, h]) hw ⟨s, rfl, hs0⟩
        rw [p1]
        exact ih t b _ _ h5 (h6.trans hs0) p2 p3

end Verif
