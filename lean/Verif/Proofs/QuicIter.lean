import Verif.Proofs.ModesLong
import Verif.Proofs.QuicLoop

/-! Helper lemmas: iterating over QUIC packet and frame types. -/

namespace Verif
open Spec

theorem items_not_hang_len {c : Codec} {m : Mode} {N : Nat}
    (hp : ∀ buf n, buf.length ≤ N → c.minSize ≤ buf.length → c.packetSize m buf = .ok n → 0 < n)
    (hsz : ∀ buf, c.packetSize m buf ≠ .error .hang) (fuel : Nat) (buf : Buf) (hl : buf.length ≤ N) :
    c.items m fuel buf ≠ .error .hang := by
  induction fuel generalizing buf with
  | zero => simp [Codec.items]
  | succ fuel ih =>
    rw [Codec.items, next_eq]
    split
    · rename_i hc
      cases hn : c.packetSize m buf with
      | error e =>
        have := hsz buf
        rw [hn] at this
        simpa using this
      | ok n =>
        have h0 := hp buf n hl (by omega) hn
        simp only [ok_map, ok_bind]
        rw [if_pos (by rw [List.length_drop]; omega)]
        have := ih (buf.drop n) (by rw [List.length_drop]; omega)
        cases hi : c.items m fuel (buf.drop n) with
        | error e => rw [hi] at this; simpa using this
        | ok l => simp
    · simp

theorem quic_endFields (k : QuicKind) (m : Mode) : endFields m k.decl.fields := by
  cases hk : k.long with
  | true =>
    intro f hf
    rw [long_fields k hk] at hf
    rcases List.mem_append.mp hf with hf | hf
    · rcases List.mem_append.mp hf with hf | hf
      · exact head_ends (long_head k hk).1 (long_head k hk).2 m f hf
      · exact items_endFields m (quic_mid k) f hf
    · exact long_endFields k m f hf
  | false =>
    have hfields : ∃ l, k.decl.fields = k.decl.fields.take k.head.length ++ k.mid ++ [l] ∧ l.len = none ∧
        l.ty = .vecPrim (u 8) := by
      cases k <;> first | exact ⟨_, rfl, rfl, rfl⟩ | cases hk
    obtain ⟨l, hfields, hl, hlt⟩ := hfields
    have hh : HeadOk (k.decl.fields.take k.head.length) ∧
        ∀ f ∈ k.decl.fields.take k.head.length, ∀ c, f.ty ≠ .vecPkt c := by
      cases k <;> first
        | (refine ⟨⟨?_, ?_, by decide +kernel⟩, ?_⟩ <;>
            (repeat' first | exact List.forall_mem_nil _ | refine List.forall_mem_cons.mpr ⟨?_, ?_⟩) <;>
            first | rfl | exact fun _ h => nomatch h)
        | cases hk
    intro f hf
    rw [hfields] at hf
    rcases List.mem_append.mp hf with hf | hf
    · rcases List.mem_append.mp hf with hf | hf
      · exact head_ends hh.1 hh.2 m f hf
      · exact items_endFields m (quic_mid k) f hf
    · rw [List.mem_singleton] at hf
      subst hf
      exact ⟨fun e he => (by rw [hl] at he; cases he), fun c hc => (by rw [hlt] at hc; cases hc)⟩

theorem frame_endFields (k : FrameKind) (m : Mode) : endFields m k.decl.fields := by
  intro f hf
  rw [frame_fields k] at hf
  rcases List.mem_append.mp hf with hf | hf
  · rcases List.mem_append.mp hf with hf | hf
    · simp only [List.mem_singleton] at hf
      subst hf
      exact ⟨fun e he => (by cases he), fun c hc => (by cases hc)⟩
    · exact items_endFields m (frame_items k) f hf
  · simp only [List.mem_singleton] at hf
    subst hf
    exact ⟨fun e he => (by cases he), fun c hc => (by cases hc)⟩

theorem packetSize_NH {d : Decl} {m : Mode} (hs : endFields m d.fields) (buf : Buf) :
    d.packetSize m buf ≠ .error .hang :=
  curOff_NH (run_NH d.fields hs .init (by simp [St.init]) (by simp [St.init])).1

theorem debug_pos {d : Decl} (hs : endFields .debug d.fields) (hb : 8 ≤ d.bits) {buf : Buf} {n : Nat}
    (h : d.packetSize .debug buf = .ok n) : 0 < n :=
  (codec_ends hs (.inl rfl) hb).pos buf n h

theorem quic_pos (k : QuicKind) (m : Mode) {buf : Buf} (hsl : SliceLen buf.length)
    (hmin : k.decl.minSize ≤ buf.length) {n : Nat} (h : k.decl.packetSize m buf = .ok n) : 0 < n := by
  have hdeb : k.decl.packetSize .debug buf = .ok n → 0 < n := debug_pos (quic_endFields k .debug) (by cases k <;> decide)
  cases m with
  | debug => exact hdeb h
  | release =>
    cases hk : k.long with
    | false => exact hdeb (((quic_fits k hk hsl).packetSize hsl).trans h)
    | true =>
      apply Nat.pos_of_ne_zero
      intro h0
      subst h0
      have hr : QuicPacket.remaining .release ⟨k, buf⟩ = .ok buf := by
        have hlen : (k.decl.fields.take k.head.length ++ k.mid).length = k.lengthPos := by
          cases k <;> first | rfl | cases hk
        have hfields : k.decl.fields = (k.decl.fields.take k.head.length ++ k.mid ++
            [fbytes "length" lenVarintLength, fbytes "packet_number" (lenPn 4),
              fbytes "frames" (lenFrames k.lengthPos (k.lengthPos + 1))]) ++ [frest "remaining"] := by
          rw [List.append_assoc (_ ++ _)]
          exact long_fields k hk
        rw [long_remaining k hk, getRaw_last hfields rfl (by rw [List.length_append, hlen]; rfl)]
        have hfin : k.decl.final .release buf = (St.run .release buf .init
            (k.decl.fields.take k.head.length ++ k.mid ++
              [fbytes "length" lenVarintLength, fbytes "packet_number" (lenPn 4),
                fbytes "frames" (lenFrames k.lengthPos (k.lengthPos + 1))])).step .release buf
              (frest "remaining") := by
          rw [Decl.final]
          conv => lhs; rw [hfields]
          rw [run_snoc]
        rw [Decl.packetSize, hfin] at h
        have h' : curOff .release (St.run .release buf .init
            (k.decl.fields.take k.head.length ++ k.mid ++
              [fbytes "length" lenVarintLength, fbytes "packet_number" (lenPn 4),
                fbytes "frames" (lenFrames k.lengthPos (k.lengthPos + 1))])).bit (St.run .release buf .init
            (k.decl.fields.take k.head.length ++ k.mid ++
              [fbytes "length" lenVarintLength, fbytes "packet_number" (lenPn 4),
                fbytes "frames" (lenFrames k.lengthPos (k.lengthPos + 1))])).lens = .ok 0 := h
        rw [h', varSlice, ok_bind, ok_bind]
        unfold SliceLen at hsl
        rw [uadd_ok (by unfold usizeCard; omega), ok_bind, slice, Nat.zero_add, Nat.min_self,
          if_pos ⟨Nat.zero_le _, Nat.le_refl _⟩]
        simp
      have := (remaining_suffix .release buf hmin hsl hr).length_le
      rw [List.length_drop] at this
      rw [quic_minSize] at hmin
      have : 7 ≤ buf.length := by cases k <;> first | exact hmin | cases hk
      omega

theorem frame_pos (k : FrameKind) (m : Mode) {buf : Buf} (hsl : SliceLen buf.length) {n : Nat}
    (h : k.decl.packetSize m buf = .ok n) : 0 < n := by
  have hdeb : k.decl.packetSize .debug buf = .ok n → 0 < n :=
    debug_pos (frame_endFields k .debug) (by cases k <;> decide)
  cases m with
  | debug => exact hdeb h
  | release => exact hdeb (((frame_fits k hsl).packetSize hsl).trans h)

end Verif
