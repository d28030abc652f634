import Verif.Proofs.QuicOthers
import Verif.Proofs.QuicFrameLoop

/-! Helper lemmas: parsing a QUIC datagram or frames again after a field of the first was set. -/

namespace Verif
open Spec Spec.Quic

theorem bytes_map_inj {x y : Res Buf}
    (h : (fun r : Buf => Val.nums (r.map (·.toNat))) <$> x = (fun r : Buf => Val.nums (r.map (·.toNat))) <$> y) : x = y := by
  cases x with
  | error e => cases y with
    | error e' => exact congrArg Except.error (Except.error.inj h)
    | ok b => cases h
  | ok a => cases y with
    | error e' => cases h
    | ok b =>
      have := Val.nums.inj (Except.ok.inj h)
      rw [List.map_inj_right (fun a b h => UInt8.toNat_inj.mp h)] at this
      rw [this]

theorem raw_of_get {d : Decl} {m : Mode} {a b : Buf} {k : Nat} {f : Field} (hf : d.fields[k]? = some f)
    (hty : f.ty = .vecPrim (u 8)) (h : d.get m a k = d.get m b k) : d.getRaw m a k = d.getRaw m b k := by
  rw [get_bytes_raw hf hty, get_bytes_raw hf hty] at h
  exact bytes_map_inj h

/-- Bytes that the choice of the packet type looks at. -/
def headBytes : QuicKind → Nat
  | .oneRtt => 1
  | _ => 5

theorem headBytes_before (q : QuicKind) : ∀ k, k < q.decl.fields.length →
    (q.decl.fields[k]?.bind (·.len)).isSome = true → headBytes q ≤ bitsSum (q.decl.fields.take k) / 8 := by
  cases q <;> decide +kernel

theorem frame_before (q : FrameKind) : ∀ k, k < q.decl.fields.length →
    (q.decl.fields[k]?.bind (·.len)).isSome = true → 1 ≤ bitsSum (q.decl.fields.take k) / 8 := by
  cases q <;> decide +kernel

theorem index_congr {a b : Buf} {i : Nat} (h : b[i]? = a[i]?) : index b i = index a i := by rw [index, index, h]

theorem classify_congr {a b : Buf} (hl : b.length = a.length) {q : QuicKind}
    (h : QuicPacket.classify a = .ok (some q)) (heq : ∀ i, i < headBytes q → b[i]? = a[i]?) :
    QuicPacket.classify b = .ok (some q) := by
  have h0 : index b 0 = index a 0 := index_congr (heq 0 (by cases q <;> decide))
  unfold QuicPacket.classify at h ⊢
  rw [h0]
  cases hb : index a 0 with
  | error e => rw [hb] at h; simp at h
  | ok b0 =>
    rw [hb] at h
    simp only [ok_bind] at h ⊢
    split
    · rename_i hc
      rw [if_pos hc] at h
      exact h
    · rename_i hc
      rw [if_neg hc] at h
      have hs : slice b 1 5 = slice a 1 5 := by
        have hq : headBytes q = 5 := by
          cases q <;> first | rfl | skip
          rw [bind_eq_ok] at h
          obtain ⟨v, -, h⟩ := h
          split at h
          · cases h
          · simp only [Except.ok.injEq] at h
            repeat' split at h
            all_goals cases h
        rw [slice, slice, hl]
        congr 3
        apply List.ext_getElem?
        intro i
        rw [List.getElem?_take, List.getElem?_take]
        split
        · exact heq i (by omega)
        · rfl
      rw [hs]
      exact h

theorem quicLoop_inv {m : Mode} {buf : Buf} {p : QuicPacket} {ps : List QuicPacket} {fuel : Nat}
    (h : QuicPacket.loop m fuel buf = .ok (some (p :: ps))) :
    ∃ n rest, fuel = n + 1 ∧ buf.isEmpty = false ∧ 5 ≤ buf.length ∧ QuicPacket.classify buf = .ok (some p.kind) ∧
      p.kind.decl.minSize ≤ buf.length ∧ p.buf = buf ∧ QuicPacket.remaining m ⟨p.kind, buf⟩ = .ok rest ∧
      QuicPacket.loop m n rest = .ok (some ps) := by
  cases fuel with
  | zero =>
    rw [QuicPacket.loop] at h
    split at h <;> cases h
  | succ n =>
    rw [QuicPacket.loop] at h
    split at h
    · cases h
    · rename_i he
      split at h
      · cases h
      · rename_i h5
        rw [bind_eq_ok] at h
        obtain ⟨c, hc, h⟩ := h
        cases c with
        | none => cases h
        | some q =>
          simp only [Decl.new] at h
          by_cases hmin : buf.length ≥ q.decl.minSize
          · rw [if_pos hmin] at h
            simp only [bind_eq_ok] at h
            obtain ⟨rest, hr, o, ho, h⟩ := h
            cases o with
            | none => cases h
            | some l =>
              simp only [Except.ok.injEq, Option.some.injEq, List.cons.injEq] at h
              obtain ⟨rfl, rfl⟩ := h
              exact ⟨n, rest, rfl, by simpa using he, by omega, hc, hmin, rfl, hr, ho⟩
          · rw [if_neg hmin] at h
            cases h

theorem quicLoop_intro {m : Mode} {buf rest : Buf} {q : QuicKind} {ps : List QuicPacket} {n : Nat}
    (h1 : buf.isEmpty = false) (h2 : 5 ≤ buf.length) (h3 : QuicPacket.classify buf = .ok (some q))
    (h4 : q.decl.minSize ≤ buf.length) (h5 : QuicPacket.remaining m ⟨q, buf⟩ = .ok rest)
    (h6 : QuicPacket.loop m n rest = .ok (some ps)) :
    QuicPacket.loop m (n + 1) buf = .ok (some (⟨q, buf⟩ :: ps)) := by
  rw [QuicPacket.loop, if_neg (by simp [h1]), if_neg (by omega), h3, ok_bind]
  simp only [Decl.new, if_pos (show buf.length ≥ q.decl.minSize from h4), h5, ok_bind, h6]

/-- `remaining` follows from the last field. -/
theorem remaining_congr {m : Mode} {q : QuicKind} {a b : Buf}
    (h : ∀ j, j + 1 = q.decl.fields.length → q.decl.get m b j = q.decl.get m a j) :
    QuicPacket.remaining m ⟨q, b⟩ = QuicPacket.remaining m ⟨q, a⟩ := by
  cases q with
  | initial => exact raw_of_get (d := Verif.initial) rfl rfl (h 15 rfl)
  | zeroRtt => exact raw_of_get (d := Verif.zeroRtt) rfl rfl (h 13 rfl)
  | handshake => exact raw_of_get (d := Verif.handshake) rfl rfl (h 13 rfl)
  | versionNegotiation => rfl
  | retry => rfl
  | oneRtt => rfl

/-- The last field has no length. -/
theorem quicType_last (q : QuicKind) : q.decl.fields[q.decl.fields.length - 1]?.bind (·.len) = none := by
  cases q <;> rfl

theorem frameType_last (q : FrameKind) : q.decl.fields[q.decl.fields.length - 1]?.bind (·.len) = none := by
  cases q <;> rfl

/-! ## Frames -/

theorem frame_remaining_congr {m : Mode} {q : FrameKind} {a b : Buf} (c : Nat)
    (h : ∀ j, j + 1 = q.decl.fields.length → q.decl.get m b j = q.decl.get m a j) :
    Frame.remaining m ⟨q, b, c⟩ = Frame.remaining m ⟨q, a, c⟩ := by
  cases q <;> exact raw_of_get rfl rfl (h _ rfl)

theorem push_cons {f : Frame} (hf : f.kind ≠ .padding) (acc : List Frame) (g : Frame) :
    Frame.push (f :: acc) g = f :: Frame.push acc g := by
  rcases List.eq_nil_or_concat acc with rfl | ⟨acc, x, rfl⟩
  · simp [Frame.push, hf]
  · rw [List.concat_eq_append, ← List.cons_append, push_append, push_append, List.cons_append]

theorem frameLoop_cons {m : Mode} {f : Frame} (hf : f.kind ≠ .padding) (fuel : Nat) (acc : List Frame) (buf : Buf) :
    Frame.loop m fuel (f :: acc) buf = (Option.map (f :: ·)) <$> Frame.loop m fuel acc buf := by
  induction fuel generalizing acc buf with
  | zero =>
    rw [Frame.loop, Frame.loop]
    split <;> rfl
  | succ n ih =>
    rw [Frame.loop, Frame.loop]
    split
    · rfl
    · cases index buf 0 with
      | error e => rfl
      | ok b0 =>
        simp only [ok_bind]
        cases FrameKind.ofType b0.toNat with
        | none => rfl
        | some q =>
          simp only
          cases q.decl.new buf with
          | none => rfl
          | some b =>
            simp only
            cases Frame.remaining m ⟨q, b, if q = .padding then 1 else 0⟩ with
            | error e => rfl
            | ok rest => simp only [ok_bind, push_cons hf, ih]

/-- The kind of the first frame does not change. -/
theorem push_head (f : Frame) (acc : List Frame) (g : Frame) :
    ∃ f' acc', Frame.push (f :: acc) g = f' :: acc' ∧ f'.kind = f.kind := by
  rcases List.eq_nil_or_concat acc with rfl | ⟨acc, x, rfl⟩
  · simp only [Frame.push, List.getLast?_singleton]
    split
    · exact ⟨_, _, rfl, rfl⟩
    · exact ⟨_, _, rfl, rfl⟩
  · rw [List.concat_eq_append, ← List.cons_append, push_append, List.cons_append]
    exact ⟨_, _, rfl, rfl⟩

theorem frameLoop_head {m : Mode} (fuel : Nat) (f : Frame) (acc : List Frame) (buf : Buf) {g : Frame} {fs : List Frame}
    (h : Frame.loop m fuel (f :: acc) buf = .ok (some (g :: fs))) : g.kind = f.kind := by
  induction fuel generalizing f acc buf with
  | zero =>
    rw [Frame.loop] at h
    split at h
    · cases h; rfl
    · cases h
  | succ n ih =>
    rw [Frame.loop] at h
    split at h
    · cases h; rfl
    · rw [bind_eq_ok] at h
      obtain ⟨b0, -, h⟩ := h
      cases ht : FrameKind.ofType b0.toNat with
      | none => rw [ht] at h; cases h
      | some q =>
        rw [ht] at h
        simp only at h
        cases hd : q.decl.new buf with
        | none => rw [hd] at h; cases h
        | some b =>
          rw [hd] at h
          simp only [bind_eq_ok] at h
          obtain ⟨rest, -, h⟩ := h
          obtain ⟨f', acc', hp, hk⟩ := push_head f acc ⟨q, b, if q = .padding then 1 else 0⟩
          rw [hp] at h
          rw [ih _ _ _ h, hk]

theorem frameNew_inv {m : Mode} {buf : Buf} {f : Frame} {fs : List Frame} {k : Nat} {g : Field}
    (hg : f.kind.decl.fields[k]? = some g) (hsome : g.len.isSome = true)
    (h : Frame.new m buf = .ok (some (f :: fs))) :
    ∃ n rest b0, buf.length = n + 1 ∧ index buf 0 = .ok b0 ∧ FrameKind.ofType b0.toNat = some f.kind ∧
      f.kind ≠ .padding ∧ f.kind.decl.minSize ≤ buf.length ∧ f = ⟨f.kind, buf, 0⟩ ∧
      Frame.remaining m ⟨f.kind, buf, 0⟩ = .ok rest ∧ Frame.loop m n [] rest = .ok (some fs) := by
  have hnp : f.kind ≠ .padding := by
    intro hk
    rw [hk] at hg
    match k with
    | 0 => cases hg; cases hsome
    | 1 => cases hg; cases hsome
    | k + 2 => simp [FrameKind.decl, frameBare] at hg
  rw [Frame.new] at h
  cases hn : buf.length with
  | zero =>
    rw [hn, Frame.loop] at h
    split at h <;> cases h
  | succ n =>
    rw [hn, Frame.loop] at h
    split at h
    · cases h
    · rw [bind_eq_ok] at h
      obtain ⟨b0, hb, h⟩ := h
      cases ht : FrameKind.ofType b0.toNat with
      | none => rw [ht] at h; cases h
      | some q =>
        rw [ht] at h
        simp only [Decl.new] at h
        by_cases hmin : buf.length ≥ q.decl.minSize
        · rw [if_pos hmin] at h
          simp only [bind_eq_ok] at h
          obtain ⟨rest, hr, h⟩ := h
          have hp : Frame.push [] ⟨q, buf, if q = .padding then 1 else 0⟩ =
            [⟨q, buf, if q = .padding then 1 else 0⟩] := rfl
          rw [hp] at h
          by_cases hq : q = .padding
          · exfalso
            refine hnp ?_
            exact hq ▸ frameLoop_head n _ _ _ h
          · rw [if_neg hq] at h hr
            rw [frameLoop_cons hq] at h
            obtain ⟨o, ho, hf⟩ := map_eq_ok h
            obtain ⟨l, rfl, hfl⟩ := Option.map_eq_some_iff.mp hf.symm
            obtain ⟨rfl, rfl⟩ := List.cons.inj hfl
            exact ⟨n, rest, b0, rfl, hb, ht, hq, hn ▸ hmin, rfl, hr, ho⟩
        · rw [if_neg hmin] at h
          cases h

theorem frameNew_intro {m : Mode} {buf rest : Buf} {q : FrameKind} {fs : List Frame} {n : Nat} {b0 : UInt8}
    (h0 : buf.length = n + 1) (h1 : index buf 0 = .ok b0) (h2 : FrameKind.ofType b0.toNat = some q)
    (h3 : q ≠ .padding) (h4 : q.decl.minSize ≤ buf.length) (h5 : Frame.remaining m ⟨q, buf, 0⟩ = .ok rest)
    (h6 : Frame.loop m n [] rest = .ok (some fs)) : Frame.new m buf = .ok (some (⟨q, buf, 0⟩ :: fs)) := by
  have he : buf.isEmpty = false := by cases buf with
    | nil => simp at h0
    | cons _ _ => rfl
  have hp : Frame.push [] ⟨q, buf, 0⟩ = [⟨q, buf, 0⟩] := rfl
  rw [Frame.new, h0, Frame.loop, if_neg (by simp [he]), h1, ok_bind, h2]
  simp only [Decl.new, if_pos (show buf.length ≥ q.decl.minSize from h4), if_neg h3, h5, ok_bind, hp]
  rw [frameLoop_cons h3, h6]
  rfl

theorem frame_not_long (q : FrameKind) : ¬ LongHeader q.decl := by
  have h : q.decl.fields.length < 10 := by cases q <;> decide
  rintro (h' | h' | h') <;> (rw [h'] at h; exact absurd h (by decide))

/-- The same frames are found when only a field of the first frame changed. -/
theorem frames_again {m : Mode} {buf new : Buf} {x : Frame} {xs : List Frame} {k : Nat} {f : Field}
    (hnew : Frame.new m buf = .ok (some (x :: xs)))
    (hf : x.kind.decl.fields[k]? = some f) (hsome : f.len.isSome = true)
    (hw : ∃ (sizes : List Nat) (len : Nat), Sizes x.kind.decl m buf k sizes ∧ HasLength x.kind.decl m buf k sizes f len ∧
      new.length = buf.length ∧ ∀ i, i < startOf x.kind.decl k sizes ∨ startOf x.kind.decl k sizes + len ≤ i →
        new[i]? = buf[i]?)
    (hoth : ∀ j, j ≠ k → x.kind.decl.get m new j = x.kind.decl.get m buf j) :
    Frame.new m new = .ok (some (⟨x.kind, new, 0⟩ :: xs)) := by
  have hkl : k < x.kind.decl.fields.length := (List.getElem?_eq_some_iff.mp hf).1
  obtain ⟨sizes, len, -, -, hlen, hout⟩ := hw
  have hlast : k + 1 ≠ x.kind.decl.fields.length := by
    intro hl
    have := frameType_last x.kind
    rw [show x.kind.decl.fields.length - 1 = k by omega, hf] at this
    rw [Option.bind_some] at this
    rw [this] at hsome
    cases hsome
  obtain ⟨n, rest, b0, h0, h1, h2, h3, h4, -, h6, h7⟩ := frameNew_inv hf hsome hnew
  have hb : index new 0 = index buf 0 := by
    refine index_congr (hout 0 (.inl ?_))
    have := frame_before x.kind k hkl (by rw [hf, Option.bind_some]; exact hsome)
    rw [startOf_eq]
    omega
  refine frameNew_intro (by omega) (hb.trans h1) h2 h3 (by omega) (rest := rest) ?_ h7
  rw [← h6]
  exact frame_remaining_congr 0 fun j hj => hoth j (by omega)

theorem packets_again {m : Mode} {buf new : Buf} {p : QuicPacket} {ps : List QuicPacket} {k : Nat} {f : Field}
    (hnew : QuicPacket.new m buf = .ok (some (p :: ps)))
    (hf : p.kind.decl.fields[k]? = some f) (hsome : f.len.isSome = true)
    (hw : ∃ (sizes : List Nat) (len : Nat), Sizes p.kind.decl m buf k sizes ∧ HasLength p.kind.decl m buf k sizes f len ∧
      new.length = buf.length ∧ ∀ i, i < startOf p.kind.decl k sizes ∨ startOf p.kind.decl k sizes + len ≤ i →
        new[i]? = buf[i]?)
    (hoth : ∀ j, j ≠ k → p.kind.decl.get m new j = p.kind.decl.get m buf j) :
    QuicPacket.new m new = .ok (some (⟨p.kind, new⟩ :: ps)) := by
  have hkl : k < p.kind.decl.fields.length := (List.getElem?_eq_some_iff.mp hf).1
  obtain ⟨sizes, len, -, -, hlen, hout⟩ := hw
  have hlast : k + 1 ≠ p.kind.decl.fields.length := by
    intro hl
    have := quicType_last p.kind
    rw [show p.kind.decl.fields.length - 1 = k by omega, hf] at this
    rw [Option.bind_some] at this
    rw [this] at hsome
    cases hsome
  obtain ⟨n, rest, h0, h1, h2, h3, h4, -, h6, h7⟩ := quicLoop_inv hnew
  rw [QuicPacket.new, hlen, h0]
  refine quicLoop_intro ?_ (by omega) (classify_congr hlen h3 ?_) (by omega) (rest := rest) ?_ h7
  · rw [List.isEmpty_eq_false_iff_exists_mem] at h1 ⊢
    cases new with
    | nil => rw [List.length_nil] at hlen; omega
    | cons x _ => exact ⟨x, by simp⟩
  · intro i hi
    refine hout i (.inl ?_)
    have := headBytes_before p.kind k hkl (by rw [hf, Option.bind_some]; exact hsome)
    rw [startOf_eq]
    omega
  · rw [← h6]
    exact remaining_congr fun j hj => hoth j (by omega)

theorem long_of {q : QuicKind} (h : LongHeader q.decl) : q.long = true := by
  cases q with
  | initial => rfl
  | zeroRtt => rfl
  | handshake => rfl
  | versionNegotiation =>
    rcases h with h | h | h <;> exact absurd (congrArg (fun d => d.fields.length) h) (by decide)
  | retry => rcases h with h | h | h <;> exact absurd (congrArg (fun d => d.fields.length) h) (by decide)
  | oneRtt => rcases h with h | h | h <;> exact absurd (congrArg (fun d => d.fields.length) h) (by decide)

theorem pos_of {q : QuicKind} (h : q.long = true) {pos : Nat}
    (hpos : (q.decl.fields[pos]?).map (·.name) = some "length") : pos = q.lengthPos := by
  have hlt : pos < q.decl.fields.length := by
    cases hf : q.decl.fields[pos]? with
    | none => rw [hf] at hpos; cases hpos
    | some f => exact (List.getElem?_eq_some_iff.mp hf).1
  have h0 : ∀ p < q.decl.fields.length, (q.decl.fields[p]?).map (·.name) = some "length" → p = q.lengthPos := by
    cases q <;> first | exact absurd h (by decide) | decide +kernel
  exact h0 pos hlt hpos

end Verif
