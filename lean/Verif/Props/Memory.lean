import Verif.Proofs.Memory

/-! # The `unsafe` blocks (C80) -/

namespace Verif.Props
open Spec

/-! ## `clone_from` -/

/-- What safe Rust guarantees about the slices in `clone_from`: they are live, and the one behind the
`&mut` overlaps none of those obtained from the other packet while both are in use. -/
def BorrowRules (mem : Mem) (c : CloneCalls) : Prop :=
  Live mem c.selfPacket ∧ Live mem c.other1 ∧ Live mem c.other2 ∧ Live mem c.selfMut ∧
    Live mem c.other3 ∧ Disjoint c.other2 c.selfMut ∧ Disjoint c.other3 c.selfMut

/-- **C80**, full claim for `clone_from`: no undefined behaviour, whatever (safe) implementation of
`Packet` and `MutablePacket` it is used with. -/
def C80_statement : Prop := ∀ (mem : Mem) (c : CloneCalls), BorrowRules mem c → cloneFromMem mem c ≠ none

/-- Static data of four bytes and an object of two. -/
def smallMem : Mem := fun
  | .static => some [1, 2, 3, 4]
  | .object 0 => some [0, 0]
  | .object _ => none

/-- An implementation whose `packet()` gives four bytes and whose `packet_mut()` gives two. -/
def shortMut : CloneCalls :=
  ⟨⟨.static, 0, 4⟩, ⟨.static, 0, 4⟩, ⟨.static, 0, 4⟩, ⟨.object 0, 0, 2⟩, ⟨.static, 0, 4⟩⟩

/-- Another packet whose `packet()` gives two bytes when its length is checked, four when it is
copied. -/
def growing : CloneCalls :=
  ⟨⟨.object 0, 0, 2⟩, ⟨.static, 0, 2⟩, ⟨.static, 0, 4⟩, ⟨.object 0, 0, 2⟩, ⟨.static, 0, 4⟩⟩

/-- C80 is false: safe implementations of the two traits make `clone_from` write outside its buffer,
in two ways. -/
theorem C80_false : ¬ C80_statement ∧
    ∀ c ∈ [shortMut, growing], BorrowRules smallMem c ∧ cloneFromMem smallMem c = none := by
  have hc : ∀ c ∈ [shortMut, growing], BorrowRules smallMem c ∧ cloneFromMem smallMem c = none := by
    intro c hc
    simp only [List.mem_cons, List.not_mem_nil, or_false] at hc
    rcases hc with rfl | rfl
    · exact ⟨⟨⟨_, rfl, by decide⟩, ⟨_, rfl, by decide⟩, ⟨_, rfl, by decide⟩, ⟨_, rfl, by decide⟩,
        ⟨_, rfl, by decide⟩, .inl (by decide), .inl (by decide)⟩, rfl⟩
    · exact ⟨⟨⟨_, rfl, by decide⟩, ⟨_, rfl, by decide⟩, ⟨_, rfl, by decide⟩, ⟨_, rfl, by decide⟩,
        ⟨_, rfl, by decide⟩, .inl (by decide), .inl (by decide)⟩, rfl⟩
  exact ⟨fun h => h smallMem shortMut (hc shortMut (by simp)).1 (hc shortMut (by simp)).2, hc⟩

/-- **C80**, what holds of `clone_from`: when `packet_mut()` is the slice `packet()` gives and the other
packet always gives the same slice, as in all generated types, there is no undefined behaviour. The
function panics exactly when the other packet is longer; otherwise it stores its bytes at the start of
the slice and changes no other memory. Missing: implementations whose slices differ (`C80_false`). -/
theorem C80_clone_from_partial (mem : Mem) (dst src : DataRef) (d s : Buf)
    (hd : mem.load dst.asSlice = some d) (hs : mem.load src.asSlice = some s)
    (hdis : Disjoint src.asSlice dst.asSlice) :
    let calls : CloneCalls := ⟨dst.asSlice, src.asSlice, src.asSlice, dst.asSlice, src.asSlice⟩
    (dst.asSlice.len < src.asSlice.len → cloneFromMem mem calls = some panic ∧ cloneFrom d s = panic) ∧
    (src.asSlice.len ≤ dst.asSlice.len → ∃ mem', cloneFromMem mem calls = some (.ok mem') ∧
      mem'.load dst.asSlice = (cloneFrom d s).toOption ∧ mem'.load dst.asSlice = some (s ++ d.drop s.length) ∧
      ∀ t, Disjoint t dst.asSlice → mem'.load t = mem.load t) := by
  have hdl := load_length hd
  have hsl := load_length hs
  generalize dst.asSlice = D at *
  generalize src.asSlice = S at *
  simp only
  constructor
  · intro h
    exact ⟨by simp only [cloneFromMem]; rw [if_neg (by omega)], by unfold cloneFrom; rw [if_neg (by omega)]⟩
  · intro h
    obtain ⟨b, hb, hbl⟩ := load_live.mp ⟨d, hd⟩
    have hov : ¬ (S.base = D.base ∧ S.off < D.off + S.len ∧ D.off < S.off + S.len) := by
      rintro ⟨h1, h2, h3⟩
      rcases hdis with h4 | h4 | h4
      · exact h4 h1
      · omega
      · omega
    have hcopy : mem.copyNonoverlapping S D S.len =
        some fun x => if x = D.base then some (b.take D.off ++ s ++ b.drop (D.off + s.length)) else mem x := by
      unfold Mem.copyNonoverlapping
      rw [if_neg hov]
      have : mem.load ⟨S.base, S.off, S.len⟩ = some s := hs
      rw [this]
      simp only [Mem.store, hb]
      rw [if_pos (by omega)]
    have hd' : d = (b.drop D.off).take D.len := by
      unfold Mem.load at hd
      rw [hb] at hd
      simp only at hd
      rw [if_pos hbl] at hd
      cases hd; rfl
    have hlen : (b.take D.off ++ s ++ b.drop (D.off + s.length)).length = b.length := by
      simp only [List.length_append, List.length_take, List.length_drop]; omega
    have hnew : ((b.take D.off ++ s ++ b.drop (D.off + s.length)).drop D.off).take D.len =
        s ++ d.drop s.length := by
      have h1 : (b.take D.off).length = D.off := by rw [List.length_take]; omega
      rw [List.append_assoc, List.drop_append_of_le_length (by omega),
        List.drop_eq_nil_of_le (by omega), List.nil_append, List.take_append,
        List.take_of_length_le (by omega), hd', List.drop_take, List.drop_drop]
    refine ⟨fun x => if x = D.base then some (b.take D.off ++ s ++ b.drop (D.off + s.length)) else mem x,
      ?_, ?_, ?_, ?_⟩
    · simp only [cloneFromMem]
      rw [if_pos (by omega), hcopy]
    · unfold Mem.load cloneFrom
      rw [if_pos (by omega)]
      simp only [↓reduceIte]
      rw [if_pos (by omega), hnew]; rfl
    · unfold Mem.load
      simp only [↓reduceIte]
      rw [if_pos (by omega), hnew]
    · intro t ht
      unfold Mem.load
      by_cases hbase : t.base = D.base
      · rw [hbase]
        simp only [↓reduceIte, hb, hlen]
        by_cases hl : t.off + t.len ≤ b.length
        · rw [if_pos hl, if_pos hl]
          congr 1
          rcases ht with h1 | h1 | h1
          · exact absurd hbase h1
          · have h2 : (b.take D.off).length = D.off := by rw [List.length_take]; omega
            rw [List.append_assoc, List.drop_append_of_le_length (by omega),
              List.take_append_of_le_length (by rw [List.length_drop]; omega), List.drop_take,
              List.take_take, Nat.min_eq_left (by omega)]
          · have h2 : (b.take D.off ++ s).length = D.off + s.length := by
              rw [List.length_append, List.length_take]; omega
            rw [List.drop_append, List.drop_eq_nil_of_le (by omega), List.nil_append, h2, List.drop_drop]
            congr 2
            omega
        · rw [if_neg hl, if_neg hl]
      · simp only [if_neg hbase]

/-- Two packets in memory, the hypotheses met: the copy overwrites the start of the object. -/
example : smallMem.load (DataRef.owned 0 2).asSlice = some [0, 0] ∧
    smallMem.load (DataRef.borrowed ⟨.static, 1, 2⟩).asSlice = some [2, 3] ∧
    Disjoint ⟨.static, 1, 2⟩ ⟨.object 0, 0, 2⟩ := ⟨rfl, rfl, .inl (by decide)⟩

example : (cloneFromMem smallMem ⟨⟨.object 0, 0, 2⟩, ⟨.static, 1, 2⟩, ⟨.static, 1, 2⟩, ⟨.object 0, 0, 2⟩,
    ⟨.static, 1, 2⟩⟩).map (·.map (· (.object 0))) = some (.ok (some [2, 3])) := rfl

/-! ## The lifetime extensions -/

/-- **C80**: `QuicPacket::new` on a live slice has no undefined behaviour. It gives the packets of the
slice's bytes, and each packet borrows a part of that slice. -/
theorem C80_quic_packets (m : Mode) (mem : Mem) (s : Slice) (buf : Buf) (hstatic : (mem .static).isSome)
    (h : mem.load s = some buf) :
    ∃ r, QuicRef.new m mem s = some r ∧
      r.map (Option.map (List.map (quicView mem))) =
        (QuicPacket.new m buf).map (Option.map (List.map fun p => (p.kind, some p.buf))) ∧
      ∀ refs, r = .ok (some refs) → ∀ q ∈ refs, ∃ t, q.data = .borrowed t ∧ Within t s := by
  have := quic_loop_agrees m mem hstatic s.len s buf h
  rw [← load_length h] at this
  obtain ⟨r, h1, h2, h3⟩ := this
  exact ⟨r, by rw [QuicRef.new, ← load_length h, h1], h2, h3⟩

/-- A live slice of 25 bytes: a 1-RTT packet at offset 2 of an object. -/
example := C80_quic_packets .debug (fun b => if b = .static then some [] else
    if b = .object 3 then some ([9, 9, 0x41] ++ List.replicate 24 5) else none) ⟨.object 3, 2, 25⟩
  (0x41 :: List.replicate 24 5) (by decide) (by decide +kernel)

/-- **C80**: `Frame::new` on a live slice has no undefined behaviour and frees nothing, although merged
padding frames are dropped. It gives the frames of the slice's bytes, and each frame borrows a part of
that slice. -/
theorem C80_frames (m : Mode) (mem : Mem) (s : Slice) (buf : Buf) (h : mem.load s = some buf) :
    ∃ r, FrameRef.new m mem s = some r ∧
      r.map (fun x => x.1.map (List.map (frameView mem))) =
        (Frame.new m buf).map (Option.map (List.map fun f => (f.kind, some f.buf, f.count))) ∧
      ∀ o mem', r = .ok (o, mem') → mem' = mem ∧
        ∀ refs, o = some refs → ∀ f ∈ refs, ∃ t, f.data = .borrowed t ∧ Within t s := by
  have := frame_loop_agrees m mem s s.len s buf [] [] h (Spec.Within.refl s) rfl (fun g hg => by cases hg)
  obtain ⟨r, h1, h2, h3⟩ := this
  refine ⟨r, h1, ?_, h3⟩
  rw [h2, Frame.new, load_length h]

example := C80_frames .debug (fun b => if b = .object 7 then some [9, 0, 0, 0, 1, 9] else none) ⟨.object 7, 1, 4⟩
  [0, 0, 0, 1] (by decide +kernel)

/-- **C80**: the lifetime `'a` is right. As long as the caller's slice is live, so is every part of it,
and as long as the caller's slice holds the same bytes, so does every part. -/
theorem C80_lifetime (mem mem' : Mem) (s t : Slice) (h : Within t s) :
    (Live mem' s → Live mem' t) ∧
    ∀ buf, mem.load s = some buf → mem'.load s = some buf → mem'.load t = mem.load t :=
  ⟨h.live, fun _ h1 h2 => h.load h1 h2⟩

/-- Three padding bytes and a PING, at offset 1 of an object: merged padding, then the PING. -/
example : let mem : Mem := fun b => if b = .object 7 then some [9, 0, 0, 0, 1, 9] else none
    mem.load ⟨.object 7, 1, 4⟩ = some [0, 0, 0, 1] ∧
    (FrameRef.new .debug mem ⟨.object 7, 1, 4⟩).map (·.map (·.1)) =
      some (.ok (some [⟨.padding, .borrowed ⟨.object 7, 1, 4⟩, 3⟩, ⟨.ping, .borrowed ⟨.object 7, 4, 1⟩, 0⟩])) := by
  decide +kernel

/-- A 1-RTT packet at offset 2 of an object. -/
example : let mem : Mem := fun b => if b = .static then some [] else
      if b = .object 3 then some ([9, 9, 0x41] ++ List.replicate 24 5) else none
    (mem .static).isSome ∧ (mem.load ⟨.object 3, 2, 25⟩).isSome ∧
    QuicRef.new .debug mem ⟨.object 3, 2, 25⟩ =
      some (.ok (some [⟨.oneRtt, .borrowed ⟨.object 3, 2, 25⟩⟩])) := by
  decide +kernel

/-- The theorem depends on `new` borrowing: dropping a merged frame that owns its bytes frees them. -/
example : let mem : Mem := fun b => if b = .object 0 then some [0, 0] else if b = .object 1 then some [0, 1] else none
    ((FrameRef.push mem [⟨.padding, .owned 0 2, 1⟩] ⟨.padding, .owned 1 2, 1⟩).2.load ⟨.object 1, 1, 1⟩) = none := by
  decide +kernel

/-- **C80**, constructors: `new` and `owned` accept the same bytes, those of at least the minimum size,
and the packet then has exactly these bytes. -/
theorem C80_constructors (d : Decl) (mem : Mem) (s : Slice) (id : Nat) (buf : Buf) (h : mem.load s = some buf)
    (hid : mem (.object id) = some buf) :
    (d.newRef s).map (fun r => mem.load r.asSlice) = (if d.minSize ≤ buf.length then some (some buf) else none) ∧
    (d.ownedRef id buf.length).map (fun r => mem.load r.asSlice) =
      (if d.minSize ≤ buf.length then some (some buf) else none) := by
  have hl := load_length h
  unfold Decl.newRef Decl.ownedRef
  by_cases hm : d.minSize ≤ buf.length
  · rw [if_pos (by omega), if_pos hm, if_pos hm]
    exact ⟨by simp [DataRef.asSlice, h], by simp [DataRef.asSlice, Mem.load, hid]⟩
  · rw [if_neg (by omega), if_neg hm, if_neg hm]
    exact ⟨rfl, rfl⟩

example : let mem : Mem := fun b => if b = .object 3 then some [1, 2, 3, 4, 5, 6, 7, 8] else none
    mem.load ⟨.object 3, 0, 8⟩ = some [1, 2, 3, 4, 5, 6, 7, 8] ∧ udp.minSize = 8 := by decide +kernel

/-- C80, dropping a packet: one that owns its bytes makes slices of its vector invalid and leaves all
others as they are; one that borrows them changes nothing. -/
theorem C80_drop (mem : Mem) (id len : Nat) (s t : Slice) :
    (t.base = .object id → ((DataRef.owned id len).drop mem).load t = none) ∧
    (t.base ≠ .object id → ((DataRef.owned id len).drop mem).load t = mem.load t) ∧
    (DataRef.borrowed s).drop mem = mem := by
  refine ⟨fun h => ?_, fun h => ?_, rfl⟩
  · simp only [DataRef.drop, Mem.load, Mem.free, h, ↓reduceIte]
  · simp only [DataRef.drop, Mem.load, Mem.free, h, ↓reduceIte]

example : let mem : Mem := fun b => if b = .object 0 then some [0, 1] else if b = .static then some [7] else none
    ((DataRef.owned 0 2).drop mem).load ⟨.object 0, 1, 1⟩ = none ∧
    ((DataRef.owned 0 2).drop mem).load ⟨.static, 0, 1⟩ = some [7] ∧ mem.load ⟨.object 0, 1, 1⟩ = some [1] := by
  decide +kernel

end Verif.Props
