import Verif.Proofs.QuicOthers
import Verif.Props.QuicSet

/-! # The other fields when a field of a QUIC packet or frame is set -/

namespace Verif.Props
open Spec Spec.Quic

/-- The claim that setting a field with a length leaves all other fields as they were. -/
def C105_statement : Prop := ∀ (d : Decl) (_ : QuicType d) (m : Mode) (buf new : Buf) (k : Nat) (f : Field) (v : Val),
    SliceLen buf.length → d.fields[k]? = some f → f.len.isSome = true → d.set m buf k v = .ok new →
    ∀ j, j ≠ k → d.get m new j = d.get m buf j

/-- Setting the offset of a crypto frame to a shorter integer changes its length and its payload. -/
theorem C105_false : ¬ C105_statement := by
  intro h
  have := h FrameKind.crypto.decl (.inr ⟨.crypto, rfl⟩) .debug [6, 0x40, 2, 1, 7, 8] [6, 5, 2, 1, 7, 8] 1
    (fbytes "offset" lenVarintLength) (bytesOf [5]) (by unfold SliceLen; decide) rfl rfl (by decide +kernel) 3
    (by decide)
  have h1 : FrameKind.crypto.decl.get .debug [6, 5, 2, 1, 7, 8] 3 = .ok (bytesOf [1, 7]) := by decide +kernel
  have h2 : FrameKind.crypto.decl.get .debug [6, 0x40, 2, 1, 7, 8] 3 = .ok (bytesOf [7]) := by decide +kernel
  rw [h1, h2] at this
  exact absurd this (by decide)

/-- An initial packet whose length (0) is less than that of its packet number (1). -/
def shortLength : Buf := [0xc0, 0, 0, 0, 1, 0, 0, 0, 0, 9, 1, 2]

/-- In a release build, setting the packet number of such a packet changes `remaining`. -/
theorem C105_release_false : Verif.initial.get .release shortLength 13 = .ok (bytesOf [9]) ∧
    ∃ new, Verif.initial.set .release shortLength 13 (bytesOf [5]) = .ok new ∧
      Verif.initial.get .release new 13 = .ok (bytesOf [5]) ∧
      Verif.initial.get .release new 15 ≠ Verif.initial.get .release shortLength 15 :=
  ⟨by decide +kernel, [0xc0, 0, 0, 0, 1, 0, 0, 0, 0, 5, 1, 2], by decide +kernel, by decide +kernel, by decide +kernel⟩

/-- The fields before the one set are as they were. -/
theorem C105_earlier (d : Decl) (hd : QuicType d) (m : Mode) (buf new : Buf) (k j : Nat) (f : Field) (old bs : Buf)
    (hsl : SliceLen buf.length) (hf : d.fields[k]? = some f) (hsome : f.len.isSome = true)
    (hg : d.get m buf k = .ok (bytesOf old)) (hset : d.set m buf k (bytesOf bs) = .ok new) (hj : j < k) :
    d.get m new j = d.get m buf j := by
  obtain ⟨e, he⟩ := Option.isSome_iff_exists.mp hsome
  obtain ⟨s, n, sizes, hs, hle, -, -, hn, -, ho⟩ := quic_get_inv hd hsl hf he hg
  have hbs := (C103_returns d hd m buf k f old bs hsl hf hsome hg).mp ⟨new, hset⟩
  have heq := quic_set_eq hd hsl hf he hs hle (T := buf.drop s) (by rw [List.length_drop]) bs
  rw [ho, List.length_take] at hbs
  rw [List.take_append_drop, hn, ok_bind, if_pos (by omega), if_pos (by omega)] at heq
  rw [heq] at hset
  cases hset
  rw [List.length_drop] at hbs
  exact quic_earlier hd hsl hf he hs hle (by rw [List.length_append, List.length_drop, List.length_drop]; omega) hj

example : FrameKind.crypto.decl.get .debug [6, 0x40, 2, 0, 7, 8] 1 =
    FrameKind.crypto.decl.get .debug [6, 0x40, 2, 1, 7, 8] 1 :=
  C105_earlier FrameKind.crypto.decl (.inr ⟨.crypto, rfl⟩) .debug [6, 0x40, 2, 1, 7, 8] [6, 0x40, 2, 0, 7, 8] 2 1 _ [1] [0]
    (by unfold SliceLen; decide) rfl rfl (by decide +kernel) (by decide +kernel) (by decide)

/-- A field of bytes: setting it leaves all other fields, and the size of the packet, as they were. In
a release build this is claimed for the types without `varint(&length) - packet_number.len()`. -/
theorem C105_bytes_partial (d : Decl) (hd : QuicType d) (m : Mode) (hm : m = .debug ∨ ¬ LongHeader d) (buf new : Buf)
    (k : Nat) (f : Field) (old bs : Buf)
    (hsl : SliceLen buf.length) (hf : d.fields[k]? = some f) (hsome : f.len.isSome = true)
    (hname : f.name ∈ byteFields) (hg : d.get m buf k = .ok (bytesOf old))
    (hset : d.set m buf k (bytesOf bs) = .ok new) :
    (∀ j, j ≠ k → d.get m new j = d.get m buf j) ∧ d.packetSize m new = d.packetSize m buf := by
  obtain ⟨e, he⟩ := Option.isSome_iff_exists.mp hsome
  have hflat : e.flat := by
    rcases quicType_kinded hd f (List.mem_of_getElem? hf) e he with h | h
    · exact h.2
    · exact absurd hname h.1
  have hnl : f.name ∉ lengthFields := fun h =>
    (by decide : ∀ x ∈ byteFields, x ∉ lengthFields) f.name hname h
  refine others_of_length hd hm hsl hf he hnl hg hset ?_
  rintro s n T - hn - - - hbl rfl
  rw [hflat m _ (buf.drop s) _ (by rw [List.length_append, List.length_drop]; omega), hn]

example := C105_bytes_partial Verif.initial (.inl ⟨.initial, rfl⟩) .debug (.inl rfl) initialPacket
  ([0xc0, 0, 0, 0, 1, 3, 5, 6, 3] ++ initialPacket.drop 9) 7 _ [1, 2, 3] [5, 6]
  (by unfold SliceLen; decide) rfl rfl (by decide) (by decide +kernel)
  (by decide +kernel)

example := C105_bytes_partial FrameKind.crypto.decl (.inr ⟨.crypto, rfl⟩) .release
  (.inr fun h => by rcases h with h | h | h <;> exact absurd (congrArg (fun d => d.fields.length) h) (by decide))
  [6, 0x40, 5, 1, 7, 8] [6, 0x40, 5, 1, 9, 8] 3 _ [7] [9] (by unfold SliceLen; decide) rfl rfl (by decide)
  (by decide +kernel) (by decide +kernel)

/-- In a release build, whatever the debug build would read of the other fields is left as it was. -/
theorem C105_release_partial (d : Decl) (hd : QuicType d) (buf new : Buf) (k j : Nat) (f : Field) (old bs : Buf) (v : Val)
    (hsl : SliceLen buf.length) (hf : d.fields[k]? = some f) (hsome : f.len.isSome = true)
    (hname : f.name ∈ byteFields) (hg : d.get .debug buf k = .ok (bytesOf old))
    (hset : d.set .debug buf k (bytesOf bs) = .ok new) (hj : j ≠ k) (hv : d.get .debug buf j = .ok v) :
    d.set .release buf k (bytesOf bs) = .ok new ∧ d.get .release buf j = .ok v ∧ d.get .release new j = .ok v := by
  have hb : DeclBelow d := by
    rcases hd with ⟨q, rfl⟩ | ⟨q, rfl⟩
    · exact quicKind_below q
    · exact frameKind_below q
  have := (C105_bytes_partial d hd .debug (.inl rfl) buf new k f old bs hsl hf hsome hname hg hset).1 j hj
  exact ⟨set_below hb _ _ _ _ hset, get_below hb _ _ _ hv, get_below hb _ _ _ (this.trans hv)⟩

example := C105_release_partial Verif.initial (.inl ⟨.initial, rfl⟩) initialPacket
  ([0xc0, 0, 0, 0, 1, 3, 5, 6, 3] ++ initialPacket.drop 9) 7 14 _ [1, 2, 3] [5, 6] (bytesOf [1, 1, 1])
  (by unfold SliceLen; decide) rfl rfl (by decide) (by decide +kernel)
  (by decide +kernel) (by decide) (by decide +kernel)

/-- A field of variable-length integers that no length uses: setting it to as many integers with as many
bytes leaves all other fields, and the size, as they were. -/
theorem C105_ints_partial (d : Decl) (hd : QuicType d) (m : Mode) (hm : m = .debug ∨ ¬ LongHeader d) (buf new : Buf)
    (k : Nat) (f : Field) (old bs : Buf) (c : Nat)
    (hsl : SliceLen buf.length) (hf : d.fields[k]? = some f) (hsome : f.len.isSome = true)
    (hname : f.name ∉ byteFields) (hname' : f.name ∉ lengthFields) (hg : d.get m buf k = .ok (bytesOf old))
    (hc : Ints c old) (hc' : Ints c bs) (hlen : bs.length = old.length)
    (hset : d.set m buf k (bytesOf bs) = .ok new) :
    (∀ j, j ≠ k → d.get m new j = d.get m buf j) ∧ d.packetSize m new = d.packetSize m buf := by
  obtain ⟨e, he⟩ := Option.isSome_iff_exists.mp hsome
  have hcnt : e.counted := by
    rcases quicType_kinded hd f (List.mem_of_getElem? hf) e he with h | h
    · exact absurd h.1 hname
    · exact h.2
  refine others_of_length hd hm hsl hf he hname' hg hset ?_
  rintro s n T hs hn ho hle hbn hbl rfl
  obtain ⟨hnl, hiff⟩ := counted_ints hcnt hn ho hc
  have hol : old.length = n := by rw [ho, List.length_take]; omega
  refine (hiff _ n (by rw [List.length_append, List.length_drop]; omega)).mpr ?_
  rw [List.take_append, List.take_of_length_le (l := bs) (by omega),
    show n - bs.length = 0 by omega, List.take_zero, List.append_nil]
  exact hc'

example := C105_ints_partial FrameKind.crypto.decl (.inr ⟨.crypto, rfl⟩) .debug (.inl rfl) [6, 0x40, 5, 1, 7, 8]
  [6, 0x41, 2, 1, 7, 8] 1 _ [0x40, 5] [0x41, 2] 1 (by unfold SliceLen; decide) rfl rfl (by decide) (by decide)
  (by decide +kernel)
  ⟨[[0x40, 5]], rfl, by simpa using ⟨5, by unfold Varint; decide⟩, rfl⟩
  ⟨[[0x41, 2]], rfl, by simpa using ⟨258, by unfold Varint; decide⟩, rfl⟩ rfl (by decide +kernel)

end Verif.Props
