import Verif.Proofs.Loops
import Verif.Props.Template
import Verif.Props.Checksum
import Verif.Props.QuicPackets
import Verif.Props.QuicFrames

/-!
# Loops (C117)

`Spec/Loops` says what comes out of a loop of which one round is given, however many rounds it takes.
`Model/Loops` has one round of each loop of the crate.
-/

namespace Verif.Props
open Spec

/-- **C117**, what comes out of a loop: every loop has exactly one outcome. (So the other theorems of C117 give
the outcome of the loops, not one of several.) -/
theorem C117_one_outcome {σ β : Type} (round : σ → Res (σ ⊕ β)) (s : σ) :
    ∃ r, LoopGives round s r ∧ ∀ r', LoopGives round s r' → r' = r := by
  obtain ⟨r, h⟩ := gives_total round s
  exact ⟨r, h, fun r' h' => gives_unique h' h⟩

/-- A loop that ends, one that panics, and one that runs forever. -/
example : LoopGives (fun n => if n = 0 then .ok (.inr "done") else .ok (.inl (n - 1))) 3 (.ok "done") := ⟨4, rfl⟩
example : LoopGives (β := Nat) (fun n => if n = 0 then panic else .ok (.inl (n - 1))) 3 panic := ⟨4, rfl⟩
example : LoopGives (β := Nat) (fun n => .ok (.inl (n + 1))) 0 (.error .hang) :=
  gives_hang (P := fun _ => True) (fun n _ => ⟨n + 1, rfl, trivial⟩) trivial

/-- **C117**, iterators: a `for` over the generated iterator of any packet type, with the generated `next` run
statement by statement, visits the packets that `Codec.items` says, panics when it does, and runs forever
exactly when it says so. -/
theorem C117_iterators (W : RustWorld) (buf : Buf) :
    LoopGives (iterRound W) ([], buf) (W.inner.items W.mode buf.length buf) := by
  have := iter_gives W buf.length buf [] (Nat.le_refl _)
  cases h : W.inner.items W.mode buf.length buf with
  | error e => rw [h] at this; exact this
  | ok ps => rw [h] at this; exact this

/-- Two options of an IPv4 packet; a packet type of 4 bits, which is iterated forever (C15). -/
example := C117_iterators (fieldWorld ipv4 .debug id 13 ipv4.fields[13]) [1, 1]
example : LoopGives (iterRound { fieldWorld ipv4 .debug id 13 ipv4.fields[13] with
    inner := (⟨[fprim "x" 4]⟩ : Decl).codec }) ([], [0]) (.error .hang) := by
  have := C117_iterators { fieldWorld ipv4 .debug id 13 ipv4.fields[13] with
    inner := (⟨[fprim "x" 4]⟩ : Decl).codec } [0]
  rwa [show Codec.items _ _ _ _ = .error .hang by decide +kernel] at this

/-- **C117**, getters of vectors of packets: the statements of `get_<field>_iter`, and then rounds of `next`
and `from_packet` as long as `next` returns a packet, give what `Decl.get` says. -/
theorem C117_packets (d : Decl) (m : Mode) (cap : Capacity) (buf : Buf) (k : Nat) (f : Field) (c : Codec)
    (hf : d.fields[k]? = some f) (hty : f.ty = .vecPkt c) :
    (∃ raw vals, runMethod (fieldWorld d m cap k f) rawBody buf none = .ok (.bytes raw, buf) ∧
      LoopGives (collectRound (fieldWorld d m cap k f)) ([], raw) vals ∧ d.get m buf k = vals.map .list) ∨
    (∃ e, runMethod (fieldWorld d m cap k f) rawBody buf none = .error e ∧ d.get m buf k = .error e) := by
  rw [C116_raw d m cap buf k f hf]
  have hget : d.get m buf k = (do
      let packet ← d.getRaw m buf k
      .list <$> c.collect m packet.length packet) := by
    simp only [Decl.get, Decl.getRaw, hf, hty, getField]
  rw [hget]
  cases hr : d.getRaw m buf k with
  | error e => exact .inr ⟨e, rfl, rfl⟩
  | ok raw =>
    refine .inl ⟨raw, c.collect m raw.length raw, rfl, ?_, ?_⟩
    · have := collect_gives (fieldWorld d m cap k f) raw.length raw [] (Nat.le_refl _)
      simp only [fieldWorld, hty] at this ⊢
      cases h : c.collect m raw.length raw with
      | error e => rw [h] at this; exact this
      | ok vs => rw [h] at this; exact this
    · rw [ok_bind]
      cases c.collect m raw.length raw <;> rfl

/-- The options of an IPv4 packet. -/
example := C117_packets ipv4 .debug id (0x46 :: List.replicate 19 0 ++ [1, 1, 1, 1]) 13 ipv4.fields[13] _ rfl rfl

/-- **C117**, checksums: the loop of `sum_be_words` gives what `sumLoop` says for data that a slice can hold, and
the loop of `finalize_checksum` what `foldCarry` says for every `u32`. -/
theorem C117_checksums (m : Mode) :
    (∀ (data : Buf) (skipword : Nat), SliceLen data.length →
      LoopGives (sumRound m skipword) (data, 0, 0) (sumLoop m skipword data 0 0)) ∧
    (∀ sum, sum < 2 ^ 32 → LoopGives (foldRound m) sum (foldCarry m 64 sum) ∧
      ∃ n, n ≤ 3 ∧ ∃ r, rounds (foldRound m) n sum = .ok (.inr r)) := by
  refine ⟨fun data skipword h => sum_gives m skipword _ data 0 0 (Nat.le_refl _) (by
    unfold SliceLen at h; omega), fun sum h => ?_⟩
  obtain ⟨r, h2, hall, -⟩ := C25_folding m sum h
  refine ⟨fold_gives m 64 sum (by rw [hall 64 (by decide)]; exact fun h => by cases h), 3, Nat.le_refl _, r, ?_⟩
  have step : ∀ (fuel s : Nat), foldCarry m fuel s = .ok r → rounds (foldRound m) (fuel + 1) s = .ok (.inr r) := by
    intro fuel
    induction fuel with
    | zero =>
      intro s hs
      unfold foldCarry at hs
      by_cases h0 : s >>> 16 ≠ 0
      · rw [if_pos h0] at hs; cases hs
      · rw [if_neg h0] at hs
        cases hs
        rw [rounds, foldRound, if_neg h0]
    | succ fuel ih =>
      intro s hs
      unfold foldCarry at hs
      by_cases h0 : s >>> 16 ≠ 0
      · rw [if_pos h0] at hs
        dsimp only at hs
        cases hu : u32add m (s >>> 16) (s &&& 0xFFFF) with
        | error e => rw [hu] at hs; cases hs
        | ok t =>
          rw [hu, ok_bind] at hs
          rw [rounds, foldRound, if_pos h0, hu]
          exact ih t hs
      · rw [if_neg h0] at hs
        cases hs
        rw [rounds, foldRound, if_neg h0]
  exact step 2 sum h2

example := (C117_checksums .debug).1 [1, 2, 3] 5 (by decide)
example := (C117_checksums .debug).2 0x1FFFF (by decide)

/-- **C117**, QUIC: the loops of `QuicPacket::new` and `Frame::new` give what the model's functions say. -/
theorem C117_quic (m : Mode) (buf : Buf) (hsl : SliceLen buf.length) :
    LoopGives (quicRound m) ([], buf) (QuicPacket.new m buf) ∧
    LoopGives (frameRound m) ([], buf) (Frame.new m buf) := by
  constructor
  · have := quic_gives m buf.length buf [] (C46_packet_new_terminates m buf hsl)
    have e : (QuicPacket.loop m buf.length buf).map (Option.map (([] : List QuicPacket) ++ ·)) =
        QuicPacket.new m buf := by
      rw [QuicPacket.new]
      cases QuicPacket.loop m buf.length buf with
      | error e => rfl
      | ok o => cases o <;> rfl
    exact e ▸ this
  · exact frame_gives m buf.length buf [] (C46_frame_new_terminates m buf hsl)

example := C117_quic .debug sampleDatagram (by decide)

/-- **C117**, the macro: the loops of `get_mask`, `mask_high_bits` and `radix_fn!` give what the model's functions
say, for all offsets and bits of a byte, for all numbers of bits of a `u64`, and for every `u64`. -/
theorem C117_macro :
    (∀ offset n, offset + n ≤ 8 → LoopGives (maskRound offset) (n, 0) (.ok (maskLoop offset n 0))) ∧
    (∀ bits, bits ≤ 64 → LoopGives highRound (bits, 0) (.ok (maskHighBits bits))) ∧
    (∀ val, val < 2 ^ 64 → LoopGives radixRound (val, []) (.ok (CodeText.radix16 val))) := by
  refine ⟨fun offset n h => mask_gives offset n 0 h, fun bits h => ?_, fun val h => ?_⟩
  · have := high_gives bits 0 h
    rwa [Nat.zero_or] at this
  · exact radix_gives 16 val [] h

example := C117_macro.1 2 3 (by decide)
example : maskLoop 2 3 0 = 0b00111000 ∧ maskHighBits 3 = 0b111 ∧ CodeText.radix16 0x1f0 = "1f0".toList := by
  decide +kernel

end Verif.Props
