import Verif.Spec.Loops
import Verif.Model.Loops
import Verif.Proofs.Template
import Verif.Proofs.Generic

/-! # Lemmas on loops -/

namespace Verif
open Spec

variable {σ β : Type} {round : σ → Res (σ ⊕ β)}

theorem rounds_add (n k : Nat) (s : σ) :
    rounds round (n + k) s =
      match rounds round n s with
      | .ok (.inl s') => rounds round k s'
      | .ok (.inr b) => .ok (.inr b)
      | .error e => .error e := by
  induction n generalizing s with
  | zero => rw [Nat.zero_add]; rfl
  | succ n ih =>
    rw [Nat.succ_add, rounds, rounds]
    cases round s with
    | error e => rfl
    | ok r =>
      cases r with
      | inl s' => exact ih s'
      | inr b => rfl

/-- The outcome of a loop that has ended does not change. -/
theorem rounds_stable {n : Nat} {s : σ} (h : ∀ s', rounds round n s ≠ .ok (.inl s')) (k : Nat) :
    rounds round (n + k) s = rounds round n s := by
  rw [rounds_add]
  cases hr : rounds round n s with
  | error e => rfl
  | ok r =>
    cases r with
    | inl s' => exact absurd hr (h s')
    | inr b => rfl

theorem rounds_agree {n k : Nat} {s : σ} (h : ∀ s', rounds round n s ≠ .ok (.inl s'))
    (h' : ∀ s', rounds round k s ≠ .ok (.inl s')) : rounds round n s = rounds round k s := by
  rcases Nat.le_total n k with hle | hle
  · obtain ⟨j, rfl⟩ := Nat.exists_eq_add_of_le hle
    exact (rounds_stable h j).symm
  · obtain ⟨j, rfl⟩ := Nat.exists_eq_add_of_le hle
    exact rounds_stable h' j

theorem gives_done {s : σ} {b : β} (h : round s = .ok (.inr b)) : LoopGives round s (.ok b) :=
  ⟨1, by rw [rounds, h]⟩

theorem gives_error {s : σ} {e : Fail} (h : round s = .error e) : LoopGives round s (.error e) := by
  cases e with
  | panic => exact ⟨1, by rw [rounds, h]⟩
  | hang => exact .inr ⟨1, by rw [rounds, h]⟩

theorem gives_next {s s' : σ} {r : Res β} (h : round s = .ok (.inl s')) (hr : LoopGives round s' r) :
    LoopGives round s r := by
  have hs : ∀ n, rounds round (n + 1) s = rounds round n s' := fun n => by rw [rounds, h]
  cases r with
  | ok b =>
    obtain ⟨n, hn⟩ := hr
    exact ⟨n + 1, (hs n).trans hn⟩
  | error e =>
    cases e with
    | panic =>
      obtain ⟨n, hn⟩ := hr
      exact ⟨n + 1, (hs n).trans hn⟩
    | hang =>
      rcases hr with hr | ⟨n, hn⟩
      · left
        intro n
        cases n with
        | zero => exact ⟨s, rfl⟩
        | succ n =>
          obtain ⟨t, ht⟩ := hr n
          exact ⟨t, (hs n).trans ht⟩
      · exact .inr ⟨n + 1, (hs n).trans hn⟩

/-- A loop that keeps an invariant and goes on does not end. -/
theorem gives_hang {P : σ → Prop} (h : ∀ s, P s → ∃ s', round s = .ok (.inl s') ∧ P s') {s : σ} (hs : P s) :
    LoopGives round s (.error .hang) := by
  left
  intro n
  induction n generalizing s with
  | zero => exact ⟨s, rfl⟩
  | succ n ih =>
    obtain ⟨s', h1, h2⟩ := h s hs
    obtain ⟨t, ht⟩ := ih h2
    exact ⟨t, by rw [rounds, h1]; exact ht⟩

theorem gives_unique {s : σ} {a b : Res β} (ha : LoopGives round s a) (hb : LoopGives round s b) : a = b := by
  have key : ∀ {r : Res β}, LoopGives round s r →
      (r = .error .hang ∧ ∀ n, ∃ s', rounds round n s = .ok (.inl s')) ∨
      ∃ n, (∀ s', rounds round n s ≠ .ok (.inl s')) ∧ rounds round n s = r.map .inr := by
    intro r h
    cases r with
    | ok b =>
      obtain ⟨n, hn⟩ := h
      exact .inr ⟨n, fun s' h' => (by rw [hn] at h'; cases h'), hn⟩
    | error e =>
      cases e with
      | panic =>
        obtain ⟨n, hn⟩ := h
        exact .inr ⟨n, fun s' h' => (by rw [hn] at h'; cases h'), hn⟩
      | hang =>
        rcases h with h | ⟨n, hn⟩
        · exact .inl ⟨rfl, h⟩
        · exact .inr ⟨n, fun s' h' => (by rw [hn] at h'; cases h'), hn⟩
  rcases key ha with ⟨ha, ha'⟩ | ⟨n, hn, ha⟩ <;> rcases key hb with ⟨hb, hb'⟩ | ⟨k, hk, hb⟩
  · rw [ha, hb]
  · obtain ⟨s', h⟩ := ha' k
    exact absurd h (hk s')
  · obtain ⟨s', h⟩ := hb' n
    exact absurd h (hn s')
  · have := rounds_agree hn hk
    rw [ha, hb] at this
    cases a with
    | ok x =>
      cases b with
      | ok y => cases this; rfl
      | error f => cases this
    | error e =>
      cases b with
      | ok y => cases this
      | error f => cases this; rfl

theorem gives_total (round : σ → Res (σ ⊕ β)) (s : σ) : ∃ r, LoopGives round s r := by
  by_cases h : ∀ n, ∃ s', rounds round n s = .ok (.inl s')
  · exact ⟨.error .hang, .inl h⟩
  · obtain ⟨n, hn⟩ := Classical.not_forall.mp h
    cases hr : rounds round n s with
    | ok r =>
      cases r with
      | inl s' => exact absurd ⟨s', hr⟩ hn
      | inr b => exact ⟨.ok b, n, hr⟩
    | error e =>
      cases e with
      | panic => exact ⟨.error .panic, n, hr⟩
      | hang => exact ⟨.error .hang, .inr ⟨n, hr⟩⟩

/-! ## Iterators -/

theorem gives_done_nil {α : Type} {round : List α × Buf → Res ((List α × Buf) ⊕ List α)} {acc : List α} {buf : Buf}
    (h : round (acc, buf) = .ok (.inr acc)) :
    LoopGives round (acc, buf) ((Except.ok [] : Res (List α)).map (acc ++ ·)) := by
  show LoopGives round (acc, buf) (.ok (acc ++ []))
  rw [List.append_nil]
  exact gives_done h


theorem next_stuck {c : Codec} {m : Mode} {buf p rest : Buf} (h : c.next m buf = .ok (some (p, rest)))
    (hlen : ¬ rest.length < buf.length) : rest = buf := by
  rw [Codec.next] at h
  split at h
  · rw [bind_eq_ok] at h
    obtain ⟨size, -, h⟩ := h
    rw [bind_eq_ok] at h
    obtain ⟨r, hr, h⟩ := h
    cases h
    rw [sliceFrom, if_pos (by omega)] at hr
    cases hr
    rw [List.length_drop] at hlen
    rw [show min size buf.length = 0 by omega, List.drop_zero]
  · cases h

theorem iterRound_eq (W : RustWorld) (items : List Buf) (buf : Buf) :
    iterRound W (items, buf) = (W.inner.next W.mode buf).map fun
      | some (p, rest) => .inl (items ++ [p], rest)
      | none => .inr items := by
  rw [iterRound, run_next]
  cases W.inner.next W.mode buf with
  | error e => rfl
  | ok r => cases r <;> rfl

theorem iter_gives (W : RustWorld) : ∀ (fuel : Nat) (buf : Buf) (acc : List Buf), buf.length ≤ fuel →
    LoopGives (iterRound W) (acc, buf) ((W.inner.items W.mode fuel buf).map (acc ++ ·)) := by
  intro fuel
  induction fuel with
  | zero =>
    intro buf acc h
    refine gives_done_nil ?_
    rw [iterRound_eq, Codec.next, if_neg (by omega)]
    rfl
  | succ fuel ih =>
    intro buf acc h
    rw [Codec.items]
    cases hn : W.inner.next W.mode buf with
    | error e => exact gives_error (by rw [iterRound_eq, hn]; rfl)
    | ok r =>
      cases r with
      | none => exact gives_done_nil (by rw [iterRound_eq, hn]; rfl)
      | some pr =>
        obtain ⟨p, rest⟩ := pr
        simp only [ok_bind]
        by_cases hlt : rest.length < buf.length
        · refine gives_next (s' := (acc ++ [p], rest)) (by rw [iterRound_eq, hn]; rfl) ?_
          have := ih rest (acc ++ [p]) (by omega)
          rw [if_pos hlt]
          cases hi : W.inner.items W.mode fuel rest with
          | error e => rw [hi] at this; exact this
          | ok vs =>
            rw [hi] at this
            have e : acc ++ [p] ++ vs = acc ++ p :: vs := by rw [List.append_assoc]; rfl
            show LoopGives (iterRound W) (acc ++ [p], rest) (.ok (acc ++ p :: vs))
            exact e ▸ this
        · rw [if_neg hlt]
          have hr := next_stuck hn hlt
          rw [hr] at hn
          refine gives_hang (P := fun s => s.2 = buf) ?_ rfl
          rintro ⟨a, b⟩ (hb : b = buf)
          rw [hb]
          exact ⟨(a ++ [p], buf), by rw [iterRound_eq, hn]; rfl, rfl⟩

theorem collectRound_eq (W : RustWorld) (vals : List Val) (buf : Buf) :
    collectRound W (vals, buf) = (W.inner.next W.mode buf).bind fun
      | some (p, rest) => (W.inner.fromPacket W.mode p).map fun v => .inl (vals ++ [v], rest)
      | none => .ok (.inr vals) := by
  rw [collectRound, run_next]
  cases W.inner.next W.mode buf with
  | error e => rfl
  | ok r =>
    cases r with
    | none => rfl
    | some pr =>
      show (W.inner.fromPacket W.mode pr.1 >>= _) = Except.map _ _
      cases W.inner.fromPacket W.mode pr.1 <;> rfl

theorem collect_gives (W : RustWorld) : ∀ (fuel : Nat) (buf : Buf) (acc : List Val), buf.length ≤ fuel →
    LoopGives (collectRound W) (acc, buf) ((W.inner.collect W.mode fuel buf).map (acc ++ ·)) := by
  intro fuel
  induction fuel with
  | zero =>
    intro buf acc h
    refine gives_done_nil ?_
    rw [collectRound_eq, Codec.next, if_neg (by omega)]
    rfl
  | succ fuel ih =>
    intro buf acc h
    rw [Codec.collect]
    cases hn : W.inner.next W.mode buf with
    | error e => exact gives_error (by rw [collectRound_eq, hn]; rfl)
    | ok r =>
      cases r with
      | none => exact gives_done_nil (by rw [collectRound_eq, hn]; rfl)
      | some pr =>
        obtain ⟨p, rest⟩ := pr
        simp only [ok_bind]
        cases hv : W.inner.fromPacket W.mode p with
        | error e =>
          refine gives_error ?_
          rw [collectRound_eq, hn]
          show Except.map _ (W.inner.fromPacket W.mode p) = _
          rw [hv]
          rfl
        | ok v =>
          have hround : ∀ a, collectRound W (a, buf) = .ok (.inl (a ++ [v], rest)) := by
            intro a
            rw [collectRound_eq, hn]
            show Except.map _ (W.inner.fromPacket W.mode p) = _
            rw [hv]
            rfl
          simp only [ok_bind]
          by_cases hlt : rest.length < buf.length
          · refine gives_next (hround acc) ?_
            have := ih rest (acc ++ [v]) (by omega)
            rw [if_pos hlt]
            cases hi : W.inner.collect W.mode fuel rest with
            | error e => rw [hi] at this; exact this
            | ok vs =>
              rw [hi] at this
              have e : acc ++ [v] ++ vs = acc ++ v :: vs := by rw [List.append_assoc]; rfl
              show LoopGives (collectRound W) (acc ++ [v], rest) (.ok (acc ++ v :: vs))
              exact e ▸ this
          · rw [if_neg hlt]
            have hr := next_stuck hn hlt
            rw [hr] at hround
            refine gives_hang (P := fun s => s.2 = buf) ?_ rfl
            rintro ⟨a, b⟩ (hb : b = buf)
            rw [hb]
            exact ⟨(a ++ [v], buf), hround a, rfl⟩

/-! ## Checksums -/

theorem sum_gives (m : Mode) (skipword : Nat) : ∀ (n : Nat) (data : Buf) (i sum : Nat), data.length ≤ n →
    i + data.length < 2 ^ 64 →
    LoopGives (sumRound m skipword) (data, i, sum) (sumLoop m skipword data i sum) := by
  intro n
  induction n with
  | zero =>
    intro data i sum h _
    rw [List.eq_nil_of_length_eq_zero (Nat.le_zero.mp h)]
    exact gives_done rfl
  | succ n ih =>
    intro data i sum h hi
    match data with
    | [] => exact gives_done rfl
    | [a] => exact gives_done rfl
    | a :: b :: rest =>
      simp only [List.length_cons] at h hi
      have hround : sumRound m skipword (a :: b :: rest, i, sum) =
          ((if i ≠ skipword then u32add m sum (u16FromBe a b) else .ok sum : Res Nat)).map
            fun s => .inl (rest, i + 1, s) := by
        rw [sumRound, if_pos (by simp only [List.length_cons]; omega)]
        by_cases hs : i ≠ skipword
        · rw [if_pos hs, if_pos hs]
          simp only [index, List.getElem?_cons_zero, List.getElem?_cons_succ, ok_bind]
          cases u32add m sum (u16FromBe a b) with
          | error e => rfl
          | ok s =>
            simp only [ok_bind, sliceFrom]
            rw [if_pos (by simp only [List.length_cons]; omega), ok_bind, uadd_ok (by unfold usizeCard; omega)]
            rfl
        · rw [if_neg hs, if_neg hs]
          simp only [pure_bind', sliceFrom]
          rw [if_pos (by simp only [List.length_cons]; omega), ok_bind, uadd_ok (by unfold usizeCard; omega)]
          rfl
      rw [sumLoop]
      by_cases hs : i ≠ skipword
      · rw [if_pos hs] at hround ⊢
        cases hu : u32add m sum (u16FromBe a b) with
        | error e => exact gives_error (by rw [hround, hu]; rfl)
        | ok s =>
          exact gives_next (by rw [hround, hu]; rfl) (ih rest (i + 1) s (by omega) (by omega))
      · rw [if_neg hs] at hround ⊢
        exact gives_next (by rw [hround]; rfl) (ih rest (i + 1) sum (by omega) (by omega))

theorem fold_gives (m : Mode) : ∀ (fuel sum : Nat), foldCarry m fuel sum ≠ .error .hang →
    LoopGives (foldRound m) sum (foldCarry m fuel sum) := by
  intro fuel
  induction fuel with
  | zero =>
    intro sum h
    unfold foldCarry at h ⊢
    by_cases hs : sum >>> 16 ≠ 0
    · rw [if_pos hs] at h; exact absurd rfl h
    · rw [if_neg hs]
      exact gives_done (by rw [foldRound, if_neg hs])
  | succ fuel ih =>
    intro sum h
    unfold foldCarry at h ⊢
    by_cases hs : sum >>> 16 ≠ 0
    · rw [if_pos hs] at h ⊢
      dsimp only at h ⊢
      cases hu : u32add m (sum >>> 16) (sum &&& 0xFFFF) with
      | error e => exact gives_error (by rw [foldRound, if_pos hs, hu]; rfl)
      | ok s =>
        rw [hu, ok_bind] at h
        rw [ok_bind]
        exact gives_next (by rw [foldRound, if_pos hs, hu]; rfl) (ih s h)
    · rw [if_neg hs]
      exact gives_done (by rw [foldRound, if_neg hs])

/-! ## QUIC -/

theorem quic_gives (m : Mode) : ∀ (fuel : Nat) (packet : Buf) (acc : List QuicPacket),
    QuicPacket.loop m fuel packet ≠ .error .hang →
    LoopGives (quicRound m) (acc, packet) ((QuicPacket.loop m fuel packet).map (Option.map (acc ++ ·))) := by
  intro fuel
  induction fuel with
  | zero =>
    intro packet acc h
    rw [QuicPacket.loop] at h ⊢
    by_cases he : packet.isEmpty = true
    · rw [if_pos he]
      show LoopGives (quicRound m) (acc, packet) (.ok (some (acc ++ [])))
      rw [List.append_nil]
      exact gives_done (by rw [quicRound, if_pos he])
    · rw [if_neg he] at h; exact absurd rfl h
  | succ fuel ih =>
    intro packet acc h
    rw [QuicPacket.loop] at h ⊢
    by_cases he : packet.isEmpty = true
    · rw [if_pos he]
      show LoopGives (quicRound m) (acc, packet) (.ok (some (acc ++ [])))
      rw [List.append_nil]
      exact gives_done (by rw [quicRound, if_pos he])
    · rw [if_neg he] at h ⊢
      by_cases h5 : packet.length < 5
      · rw [if_pos h5]
        exact gives_done (by rw [quicRound, if_neg he, if_pos h5]; rfl)
      · rw [if_neg h5] at h ⊢
        cases hc : QuicPacket.classify packet with
        | error e => exact gives_error (by rw [quicRound, if_neg he, if_neg h5, hc]; rfl)
        | ok k =>
          rw [hc, ok_bind] at h
          rw [ok_bind]
          cases k with
          | none => exact gives_done (by rw [quicRound, if_neg he, if_neg h5, hc]; rfl)
          | some kind =>
            dsimp only at h ⊢
            cases hd : kind.decl.new packet with
            | none =>
              refine gives_done ?_
              rw [quicRound, if_neg he, if_neg h5, hc, ok_bind]
              simp only [hd]
              rfl
            | some buf =>
              rw [hd] at h
              dsimp only at h ⊢
              have hround : quicRound m (acc, packet) =
                  (QuicPacket.remaining m ⟨kind, buf⟩).map fun r => .inl (acc ++ [⟨kind, buf⟩], r) := by
                rw [quicRound, if_neg he, if_neg h5, hc, ok_bind]
                simp only [hd]
                cases QuicPacket.remaining m ⟨kind, buf⟩ <;> rfl
              cases hr : QuicPacket.remaining m ⟨kind, buf⟩ with
              | error e => exact gives_error (by rw [hround, hr]; rfl)
              | ok rest =>
                rw [hr, ok_bind] at h
                rw [ok_bind]
                refine gives_next (by rw [hround, hr]; rfl) ?_
                have := ih rest (acc ++ [⟨kind, buf⟩]) (by
                  intro hh; rw [hh] at h; exact h rfl)
                cases hl : QuicPacket.loop m fuel rest with
                | error e => rw [hl] at this; exact this
                | ok o =>
                  rw [hl] at this
                  cases o with
                  | none => exact this
                  | some ps =>
                    have e : acc ++ [⟨kind, buf⟩] ++ ps = acc ++ ⟨kind, buf⟩ :: ps := by
                      rw [List.append_assoc]; rfl
                    show LoopGives (quicRound m) (acc ++ [⟨kind, buf⟩], rest) (.ok (some (acc ++ ⟨kind, buf⟩ :: ps)))
                    exact e ▸ this

theorem frame_gives (m : Mode) : ∀ (fuel : Nat) (packet : Buf) (acc : List Frame),
    Frame.loop m fuel acc packet ≠ .error .hang →
    LoopGives (frameRound m) (acc, packet) (Frame.loop m fuel acc packet) := by
  intro fuel
  have hemp : ∀ packet : Buf, packet.isEmpty = true → ¬ packet.length > 0 := by
    intro packet h
    rw [List.isEmpty_iff] at h
    rw [h]
    decide
  have hne : ∀ packet : Buf, ¬ packet.isEmpty = true → packet.length > 0 := by
    intro packet h
    rw [List.isEmpty_iff] at h
    exact List.length_pos_iff.mpr h
  induction fuel with
  | zero =>
    intro packet acc h
    rw [Frame.loop] at h ⊢
    by_cases he : packet.isEmpty = true
    · rw [if_pos he]
      exact gives_done (by rw [frameRound, if_neg (hemp _ he)])
    · rw [if_neg he] at h; exact absurd rfl h
  | succ fuel ih =>
    intro packet acc h
    rw [Frame.loop] at h ⊢
    by_cases he : packet.isEmpty = true
    · rw [if_pos he]
      exact gives_done (by rw [frameRound, if_neg (hemp _ he)])
    · rw [if_neg he] at h ⊢
      cases hi : index packet 0 with
      | error e => exact gives_error (by rw [frameRound, if_pos (hne _ he), hi]; rfl)
      | ok b0 =>
        rw [hi, ok_bind] at h
        rw [ok_bind]
        cases hk : FrameKind.ofType b0.toNat with
        | none =>
          refine gives_done ?_
          rw [frameRound, if_pos (hne _ he), hi, ok_bind]
          simp only [hk]
        | some kind =>
          rw [hk] at h
          dsimp only at h ⊢
          cases hd : kind.decl.new packet with
          | none =>
            refine gives_done ?_
            rw [frameRound, if_pos (hne _ he), hi, ok_bind]
            simp only [hk, hd]
          | some buf =>
            rw [hd] at h
            dsimp only at h ⊢
            have hround : frameRound m (acc, packet) =
                (Frame.remaining m ⟨kind, buf, if kind = .padding then 1 else 0⟩).map fun r =>
                  .inl (Frame.push acc ⟨kind, buf, if kind = .padding then 1 else 0⟩, r) := by
              rw [frameRound, if_pos (hne _ he), hi, ok_bind]
              simp only [hk, hd]
              cases Frame.remaining m ⟨kind, buf, if kind = .padding then 1 else 0⟩ <;> rfl
            cases hr : Frame.remaining m ⟨kind, buf, if kind = .padding then 1 else 0⟩ with
            | error e => exact gives_error (by rw [hround, hr]; rfl)
            | ok rest =>
              rw [hr, ok_bind] at h
              rw [ok_bind]
              exact gives_next (by rw [hround, hr]; rfl) (ih rest _ h)

/-! ## The macro -/

theorem mask_gives (offset : Nat) : ∀ (n mask : Nat), offset + n ≤ 8 →
    LoopGives (maskRound offset) (n, mask) (.ok (maskLoop offset n mask)) := by
  intro n
  induction n with
  | zero => intro mask _; exact gives_done rfl
  | succ n ih =>
    intro mask h
    refine gives_next ?_ (ih (mask ||| (0x80 >>> (offset + (n + 1) - 1))) (by omega))
    rw [maskRound, if_pos (by omega), if_pos (by omega)]
    rfl

theorem high_gives : ∀ (n mask : Nat), n ≤ 64 → LoopGives highRound (n, mask) (.ok (mask ||| maskHighBits n)) := by
  intro n
  induction n with
  | zero =>
    intro mask _
    refine gives_done ?_
    rw [highRound, if_neg (by omega), maskHighBits, Nat.or_zero]
  | succ n ih =>
    intro mask h
    have := ih (mask ||| (1 <<< n)) (by omega)
    rw [Nat.or_assoc] at this
    refine gives_next ?_ this
    rw [highRound, if_pos (by omega), if_pos (by omega)]
    rfl

theorem radix_gives : ∀ (n val : Nat) (ret : List Char), val < 16 ^ n →
    LoopGives radixRound (val, ret) (.ok (CodeText.radix16From n val ret)) := by
  intro n
  induction n with
  | zero =>
    intro val ret h
    refine gives_done ?_
    rw [radixRound, if_neg (by simp at h; omega)]
    rfl
  | succ n ih =>
    intro val ret h
    rw [CodeText.radix16From]
    by_cases hv : val > 0
    · rw [if_pos hv]
      have hlt : val % 16 < "0123456789abcdef".toList.length :=
        Nat.lt_of_lt_of_le (Nat.mod_lt _ (by decide)) (by decide)
      have hc := List.getElem?_eq_getElem hlt
      refine gives_next ?_ (ih (val / 16) _ (by
        rw [Nat.pow_succ] at h
        exact Nat.div_lt_of_lt_mul (by rw [Nat.mul_comm]; exact h)))
      rw [radixRound, if_pos hv]
      simp only [hc, Option.getD_some]
    · rw [if_neg hv]
      exact gives_done (by rw [radixRound, if_neg hv])

end Verif
