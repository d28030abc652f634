import Verif.Proofs.QuicSet
import Verif.Props.Vectors

/-! # Setting the fields of QUIC packets and frames -/

namespace Verif.Props
open Spec Spec.Quic

/-- **C20**, QUIC packets and frames: a setter of a field with a length writes only within the extent
that the declared length, evaluated on the packet before the call, gives the field. -/
theorem C20_quic (d : Decl) (hd : QuicType d) (m : Mode) (buf new : Buf) (k : Nat) (f : Field)
    (v : Val) (hsl : SliceLen buf.length) (hf : d.fields[k]? = some f)
    (hsome : f.len.isSome = true) (hset : d.set m buf k v = .ok new) :
    ∃ (sizes : List Nat) (len : Nat), Sizes d m buf k sizes ∧ HasLength d m buf k sizes f len ∧
      new.length = buf.length ∧ ∀ i, i < startOf d k sizes ∨ startOf d k sizes + len ≤ i →
        new[i]? = buf[i]? := by
  obtain ⟨e, he⟩ := Option.isSome_iff_exists.mp hsome
  have hty := quicType_bytes hd hf he
  have hkl : k < d.fields.length := (List.getElem?_eq_some_iff.mp hf).1
  have hset' := hset
  rw [Decl.set, hf] at hset'
  simp only [hty, he] at hset'
  cases v with
  | nums ns =>
    simp only [bind_eq_ok] at hset'
    obtain ⟨s, hs, n, hn, -⟩ := hset'
    obtain ⟨sizes, h1, h2, h3, h4⟩ := quic_set hd hsl hf he hs
    have hov : startOf d k sizes < 2 ^ 64 := by omega
    rw [lenExpr_eq (by omega) h1 hov] at hn
    refine ⟨sizes, n, h4, by unfold HasLength; rw [he]; exact hn, ?_⟩
    exact (C20_bytes_partial d m buf new k f e .big (.nums ns) sizes n hf hty he h4 hn hov hset).2
  | num _ => simp at hset'
  | list _ => simp at hset'

example := C20_quic FrameKind.crypto.decl (.inr ⟨.crypto, rfl⟩) .debug [6, 0x40, 5, 1, 7, 8] [6, 0x41, 2, 1, 7, 8] 1
  (fbytes "offset" lenVarintLength) (bytesOf [0x41, 2]) (by unfold SliceLen; decide) rfl rfl (by decide +kernel)

/-- The claim that a value as long as the field can be set and is read back. -/
def C103_statement : Prop := ∀ (d : Decl) (_ : QuicType d) (m : Mode) (buf : Buf) (k : Nat) (f : Field)
    (old bs : Buf), SliceLen buf.length → d.fields[k]? = some f → f.len.isSome = true →
    d.get m buf k = .ok (bytesOf old) → bs.length = old.length →
    ∃ new, d.set m buf k (bytesOf bs) = .ok new ∧ d.get m new k = .ok (bytesOf bs)

/-- A two-byte integer overwritten with bytes that start a one-byte integer is read back as one byte. -/
theorem C103_false : ¬ C103_statement := by
  intro h
  obtain ⟨new, h1, h2⟩ := h FrameKind.crypto.decl (.inr ⟨.crypto, rfl⟩) .debug [6, 0x40, 5, 0, 0] 1
    (fbytes "offset" lenVarintLength) [0x40, 5] [0, 1] (by unfold SliceLen; decide) rfl rfl
    (by decide +kernel) rfl
  have : FrameKind.crypto.decl.set .debug [6, 0x40, 5, 0, 0] 1 (bytesOf [0, 1]) = .ok [6, 0, 1, 0, 0] := by
    decide +kernel
  rw [this] at h1
  cases h1
  have : FrameKind.crypto.decl.get .debug [6, 0, 1, 0, 0] 1 = .ok (bytesOf [0]) := by decide +kernel
  rw [this] at h2
  exact absurd h2 (by decide)

/-- Setting an integer a second time can panic: the first call made the field shorter. -/
theorem C103_again_false : ∃ new, FrameKind.crypto.decl.set .debug [6, 0x80, 0, 0, 5, 0] 1 (bytesOf [1, 2]) = .ok new ∧
    FrameKind.crypto.decl.set .debug new 1 (bytesOf [1, 2]) = panic :=
  ⟨[6, 1, 2, 0, 5, 0], by decide +kernel, by decide +kernel⟩

/-- An initial packet with a three-byte destination id. -/
def initialPacket : Buf := [0xc0, 0, 0, 0, 1, 3, 1, 2, 3, 0, 0x40, 2, 0xaa, 0xbb, 4, 9, 1, 1, 1, 0]

/-- When a field with a length can be read, its setter returns exactly for values not longer than what
is read. -/
theorem C103_returns (d : Decl) (hd : QuicType d) (m : Mode) (buf : Buf) (k : Nat) (f : Field) (old bs : Buf)
    (hsl : SliceLen buf.length) (hf : d.fields[k]? = some f) (hsome : f.len.isSome = true)
    (hg : d.get m buf k = .ok (bytesOf old)) :
    (∃ new, d.set m buf k (bytesOf bs) = .ok new) ↔ bs.length ≤ old.length := by
  obtain ⟨e, he⟩ := Option.isSome_iff_exists.mp hsome
  obtain ⟨s, n, sizes, hs, hle, -, -, hn, -, ho⟩ := quic_get_inv hd hsl hf he hg
  have hset := quic_set_eq hd hsl hf he hs hle (T := buf.drop s) (by rw [List.length_drop]) bs
  rw [List.take_append_drop, hn, ok_bind] at hset
  rw [hset, ho, List.length_take]
  by_cases h1 : bs.length ≤ n
  · rw [if_pos h1]
    by_cases h2 : bs.length ≤ (buf.drop s).length
    · rw [if_pos h2]
      exact ⟨fun _ => by omega, fun _ => ⟨_, rfl⟩⟩
    · rw [if_neg h2]
      exact ⟨fun ⟨_, h⟩ => by simp at h, fun h => by omega⟩
  · rw [if_neg h1]
    exact ⟨fun ⟨_, h⟩ => by simp at h, fun h => by omega⟩

example : (∃ new, Verif.initial.set .debug initialPacket 7 (bytesOf [5, 6]) = .ok new) :=
  (C103_returns Verif.initial (.inl ⟨.initial, rfl⟩) .debug initialPacket 7 _ [1, 2, 3] [5, 6]
    (by unfold SliceLen; decide) rfl rfl (by decide +kernel)).mpr (by decide)

/-- A field of bytes: the value set replaces the first bytes of the field, the other bytes of the field
stay, and setting the value again changes nothing. -/
theorem C103_bytes (d : Decl) (hd : QuicType d) (m : Mode) (buf new : Buf) (k : Nat) (f : Field) (old bs : Buf)
    (hsl : SliceLen buf.length) (hf : d.fields[k]? = some f) (hsome : f.len.isSome = true)
    (hname : f.name ∈ byteFields) (hg : d.get m buf k = .ok (bytesOf old))
    (hset : d.set m buf k (bytesOf bs) = .ok new) :
    d.get m new k = .ok (bytesOf (bs ++ old.drop bs.length)) ∧ d.set m new k (bytesOf bs) = .ok new := by
  obtain ⟨e, he⟩ := Option.isSome_iff_exists.mp hsome
  have hflat : e.flat := by
    rcases quicType_kinded hd f (List.mem_of_getElem? hf) e he with h | h
    · exact h.2
    · exact absurd hname h.1
  obtain ⟨s, n, sizes, hs, hle, -, -, hn, hov, ho⟩ := quic_get_inv hd hsl hf he hg
  have hbs := (C103_returns d hd m buf k f old bs hsl hf hsome hg).mp ⟨new, hset⟩
  have heq := quic_set_eq hd hsl hf he hs hle (T := buf.drop s) (by rw [List.length_drop]) bs
  rw [ho, List.length_take] at hbs
  rw [List.take_append_drop, hn, ok_bind, if_pos (by omega), if_pos (by omega)] at heq
  rw [heq] at hset
  cases hset
  have hT : (bs ++ (buf.drop s).drop bs.length).length = (buf.drop s).length := by
    rw [List.length_append, List.length_drop]; omega
  have hT' := hT
  rw [List.length_drop (l := buf)] at hT'
  have hn' := hflat m (d.before m buf k).get _ _ hT
  rw [hn] at hn'
  refine ⟨(quic_get_eq hd hsl hf he hs hle hT' _).mpr ⟨n, hn', hov, ?_⟩, ?_⟩
  · rw [ho, List.drop_take, List.take_append, List.take_of_length_le (l := bs) (by omega)]
  · rw [quic_set_eq hd hsl hf he hs hle hT', hn', ok_bind, if_pos (by omega), if_pos (by omega),
      List.drop_left]

example := C103_bytes Verif.initial (.inl ⟨.initial, rfl⟩) .debug initialPacket
  ([0xc0, 0, 0, 0, 1, 3, 5, 6, 3] ++ initialPacket.drop 9) 7 _ [1, 2, 3] [5, 6]
  (by unfold SliceLen; decide) rfl rfl (by decide) (by decide +kernel)
  (by decide +kernel)

/-- A field of variable-length integers: a value that consists of as many integers as there were is read
back and can be set again; and if the value does not reach the end of the buffer, it is read back only
then. -/
theorem C103_ints_partial (d : Decl) (hd : QuicType d) (m : Mode) (buf new : Buf) (k : Nat) (f : Field)
    (old bs : Buf) (c : Nat)
    (hsl : SliceLen buf.length) (hf : d.fields[k]? = some f) (hsome : f.len.isSome = true)
    (hname : f.name ∉ byteFields) (hg : d.get m buf k = .ok (bytesOf old))
    (hc : Ints c old) (hset : d.set m buf k (bytesOf bs) = .ok new) :
    (Ints c bs → d.get m new k = .ok (bytesOf bs) ∧ d.set m new k (bytesOf bs) = .ok new) ∧
      ∀ sizes, Sizes d m buf k sizes → startOf d k sizes + bs.length < buf.length →
        d.get m new k = .ok (bytesOf bs) → Ints c bs := by
  obtain ⟨e, he⟩ := Option.isSome_iff_exists.mp hsome
  have hcnt : e.counted := by
    rcases quicType_kinded hd f (List.mem_of_getElem? hf) e he with h | h
    · exact absurd h.1 hname
    · exact h.2
  obtain ⟨s, n, sizes', hs, hle, hsz', hst, hn, hov, ho⟩ := quic_get_inv hd hsl hf he hg
  obtain ⟨hnl, hiff⟩ := counted_ints hcnt hn ho hc
  have hbs := (C103_returns d hd m buf k f old bs hsl hf hsome hg).mp ⟨new, hset⟩
  have hdl : (buf.drop s).length = buf.length - s := List.length_drop
  have hol : old.length = n := by rw [ho, List.length_take]; omega
  have heq := quic_set_eq hd hsl hf he hs hle (T := buf.drop s) (by rw [List.length_drop]) bs
  rw [List.take_append_drop, hn, ok_bind, if_pos (by omega), if_pos (by omega)] at heq
  rw [heq] at hset
  cases hset
  have hT : (bs ++ (buf.drop s).drop bs.length).length = (buf.drop s).length := by
    rw [List.length_append, List.length_drop]; omega
  have hT' := hT.trans hdl
  have hb := hiff (bs ++ (buf.drop s).drop bs.length) bs.length (by omega)
  rw [List.take_left] at hb
  refine ⟨fun h => ⟨?_, ?_⟩, ?_⟩
  · rw [quic_get_eq hd hsl hf he hs hle hT']
    exact ⟨bs.length, hb.mpr h, by unfold SliceLen at hsl; omega, by rw [List.take_left]⟩
  · rw [quic_set_eq hd hsl hf he hs hle hT', hb.mpr h, ok_bind, if_pos (by omega), if_pos (by omega),
      List.drop_left]
  · intro sizes hsizes hafter hget
    obtain rfl := sizes_unique hsizes hsz'
    rw [← hst] at hafter
    rw [quic_get_eq hd hsl hf he hs hle hT'] at hget
    obtain ⟨l, hl, -, hbl⟩ := hget
    have hbl' := congrArg List.length hbl
    rw [List.length_take] at hbl'
    exact hb.mp (by rw [hl]; congr 1; omega)

example := C103_ints_partial FrameKind.crypto.decl (.inr ⟨.crypto, rfl⟩) .release [6, 0x40, 5, 1, 7, 8]
  [6, 0x41, 2, 1, 7, 8] 1 _ [0x40, 5] [0x41, 2] 1 (by unfold SliceLen; decide) rfl rfl (by decide)
  (by decide +kernel)
  ⟨[[0x40, 5]], rfl, by simpa using ⟨5, by unfold Varint; decide⟩, rfl⟩ (by decide +kernel)

/-- The integer need not be complete when it reaches the end of the buffer: four bytes that start an
eight-byte integer are read back. -/
theorem C103_end : FrameKind.maxData.decl.get .debug [0x10, 0x80, 0, 0, 1] 1 = .ok (bytesOf [0x80, 0, 0, 1]) ∧
    FrameKind.maxData.decl.set .debug [0x10, 0x80, 0, 0, 1] 1 (bytesOf [0xc0, 0, 0, 1]) = .ok [0x10, 0xc0, 0, 0, 1] ∧
    FrameKind.maxData.decl.get .debug [0x10, 0xc0, 0, 0, 1] 1 = .ok (bytesOf [0xc0, 0, 0, 1]) := by
  decide +kernel

end Verif.Props
