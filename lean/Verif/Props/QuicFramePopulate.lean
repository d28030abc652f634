import Verif.Proofs.QuicFramePopulate
import Verif.Props.QuicPopulate
import Verif.Props.QuicFrameFields

/-!
# C99: populating QUIC frames

`Fields` of `Spec/QuicApi` lists the fields of each frame and its bytes. The length of an integer field is
taken from the byte that stands where the field begins, so what `populate` does depends on the bytes that
are there before.
-/

namespace Verif.Props
open Spec Spec.Quic

/-- **C99** as claimed: a frame can be populated into a buffer of zeroes. -/
def C99_statement : Prop := ∀ (m : Mode) (ty : UInt8) (body rest : Buf) (fields : List (String × Val))
  (k : FrameKind), Fields 1 ty.toNat body fields → (openEnded ty.toNat → rest = []) →
  variants.lookup ty.toNat = some k → SliceLen (ty :: (body ++ rest)).length →
  k.decl.populate m (zeroes (ty :: (body ++ rest)).length) (frameStruct ty fields rest) =
    .ok (ty :: (body ++ rest))

/-- **C99**, exactly: over zeroes, `populate` writes the bytes of the frame if all its variable-length
integers take one byte (values up to 63), and panics otherwise. Missing: longer integers, for which the
claim is false. -/
theorem C99_zeroed_partial (m : Mode) (ty : UInt8) (body rest : Buf) (fields : List (String × Val))
    (h : Fields 1 ty.toNat body fields) (hopen : openEnded ty.toNat → rest = [])
    (k : FrameKind) (hk : variants.lookup ty.toNat = some k)
    (hsl : SliceLen (ty :: (body ++ rest)).length) :
    (OneByteInts fields →
      k.decl.populate m (zeroes (ty :: (body ++ rest)).length) (frameStruct ty fields rest) =
        .ok (ty :: (body ++ rest))) ∧
    (¬ OneByteInts fields →
      k.decl.populate m (zeroes (ty :: (body ++ rest)).length) (frameStruct ty fields rest) = panic) := by
  rw [variants_ofType] at hk
  obtain ⟨k', bss, hk', hbody, hvals, hp⟩ := fields_put h
  rw [hk] at hk'; cases hk'
  subst hbody
  have hz := hp m (bss.flatten ++ rest).length (by rw [List.length_append]; omega)
    (fun ho => by rw [hopen ho, List.append_nil])
  have hput := frame_put m k ty 0 (rest := rest) (T := zeroes (bss.flatten ++ rest).length)
    (bss := bss) (by simpa [zeroes] using hsl) (by simpa only [zeroes, List.length_replicate] using hz.1)
    (by simp [zeroes])
  rw [hvals] at hput
  have hd : (zeroes (bss.flatten ++ rest).length).drop (bss.flatten.length + rest.length) = [] := by
    simp [zeroes]
  rw [hd, List.append_nil] at hput
  have hroom := hz.2
  exact ⟨fun ho => hput.1 (hroom.mpr ho), fun ho => hput.2 fun hr => ho (hroom.mp hr)⟩

/-- C99 is false: a MAX_DATA frame with the value 64. -/
theorem C99_false : ¬ C99_statement := by
  intro hall
  have hf : Fields 1 (0x10 : UInt8).toNat [0x40, 0x40] [("max_data", bytesOf [0x40, 0x40])] :=
    .maxData (a := 64) ⟨1, by decide, by decide, by decide, by decide⟩
  have h1 := hall .release 0x10 [0x40, 0x40] [] _ .maxData hf (fun _ => rfl) rfl (by unfold SliceLen; decide)
  have h2 : FrameKind.maxData.decl.populate .release (zeroes 3)
      (frameStruct 0x10 [("max_data", bytesOf [0x40, 0x40])] []) = panic := by decide +kernel
  change FrameKind.maxData.decl.populate .release (zeroes 3)
      (frameStruct 0x10 [("max_data", bytesOf [0x40, 0x40])] []) = _ at h1
  rw [h2] at h1
  cases h1

/-- **C99**, over the bytes of the frame itself, after any first byte and with any bytes behind them:
`populate` succeeds, whatever the sizes of the integers. So what is read from a packet can be written back,
and doing it again changes nothing. -/
theorem C99_over_frame (m : Mode) (ty c : UInt8) (body rest tail : Buf) (fields : List (String × Val))
    (h : Fields 1 ty.toNat body fields) (hopen : openEnded ty.toNat → rest = [] ∧ tail = [])
    (k : FrameKind) (hk : variants.lookup ty.toNat = some k)
    (hsl : SliceLen (ty :: (body ++ tail)).length) (hfit : rest.length ≤ tail.length) :
    k.decl.populate m (c :: (body ++ tail)) (frameStruct ty fields rest) =
      .ok (ty :: (body ++ rest ++ tail.drop rest.length)) := by
  rw [variants_ofType] at hk
  obtain ⟨k', bss, hk', hbody, hvals, hp⟩ := fields_put h
  rw [hk] at hk'; cases hk'
  subst hbody
  have hz := hp m (bss.flatten ++ tail).length (by rw [List.length_append]; omega)
    (fun ho => by rw [(hopen ho).2, List.append_nil])
  have hput := frame_put m k ty c (rest := rest) (T := bss.flatten ++ tail)
    (bss := bss) (by simpa using hsl) hz.1 (by rw [List.length_append]; omega)
  rw [hvals] at hput
  have := hput.1 (room_self _ rfl hz.1)
  rw [← List.drop_drop, List.drop_left] at this
  exact this

/-- A STREAM frame with identifier 4, offset 9 and two bytes of data, and a PING frame behind it. -/
def streamFields : List (String × Val) :=
  [("stream_id", bytesOf [4]), ("offset", bytesOf [9]), ("length", bytesOf [2]),
    ("stream_data", bytesOf [0xAA, 0xBB])]

theorem streamFields_ok : Fields 1 (0x0e : UInt8).toNat [4, 9, 2, 0xAA, 0xBB] streamFields :=
  .streamOffLen (id := [4]) (offset := [9]) (length := [2]) (data := [0xAA, 0xBB]) (a := 4) (b := 9) (.inl rfl)
    ⟨0, by decide, by decide, by decide, by decide⟩ ⟨0, by decide, by decide, by decide, by decide⟩
    ⟨0, by decide, by decide, by decide, by decide⟩

example : OneByteInts streamFields ∧
    FrameKind.stream.decl.populate .debug (zeroes 7) (frameStruct 0x0e streamFields [1]) =
      .ok [0x0e, 4, 9, 2, 0xAA, 0xBB, 1] := by
  have h1 : OneByteInts streamFields := by
    simp [OneByteInts, streamFields, dataFields, bytesOf]
  exact ⟨h1, (C99_zeroed_partial .debug 0x0e [4, 9, 2, 0xAA, 0xBB] [1] streamFields streamFields_ok
    (fun h => by simp [openEnded] at h) .stream rfl (by unfold SliceLen; decide)).1 h1⟩

/-- An ACK frame for packets 0 to 100: the number 100 takes two bytes. `populate` panics on zeroes, and
succeeds over the frame. -/
def ackFields : List (String × Val) :=
  [("largest_acknowledged", bytesOf [0x40, 100]), ("ack_delay", bytesOf [5]),
    ("ack_range_count", bytesOf [0]), ("first_ack_range", bytesOf [0x40, 100]),
    ("ack_range", bytesOf []), ("ecn_counts", bytesOf [])]

theorem ackFields_ok : Fields 1 (0x02 : UInt8).toNat [0x40, 100, 5, 0, 0x40, 100] ackFields :=
  .ack (largest := [0x40, 100]) (delay := [5]) (count := [0]) (first := [0x40, 100]) (ranges := [])
    (a := 100) (b := 5) (n := 0) (c := 100)
    ⟨1, by decide, by decide, by decide, by decide⟩ ⟨0, by decide, by decide, by decide, by decide⟩
    ⟨0, by decide, by decide, by decide, by decide⟩ ⟨1, by decide, by decide, by decide, by decide⟩
    rfl (by simp)

example : ¬ OneByteInts ackFields ∧
    FrameKind.ack.decl.populate .debug (zeroes 7) (frameStruct 0x02 ackFields []) = panic := by
  have h1 : ¬ OneByteInts ackFields := by
    simp [OneByteInts, ackFields, dataFields, bytesOf]
  exact ⟨h1, (C99_zeroed_partial .debug 0x02 [0x40, 100, 5, 0, 0x40, 100] [] ackFields ackFields_ok
    (fun h => by simp [openEnded] at h) .ack rfl (by unfold SliceLen; decide)).2 h1⟩

example : FrameKind.ack.decl.populate .debug [0xFF, 0x40, 100, 5, 0, 0x40, 100, 7, 8]
      (frameStruct 0x02 ackFields [1]) = .ok [0x02, 0x40, 100, 5, 0, 0x40, 100, 1, 8] :=
  C99_over_frame .debug 0x02 0xFF [0x40, 100, 5, 0, 0x40, 100] [1] [7, 8] ackFields ackFields_ok
    (fun h => by simp [openEnded] at h) .ack rfl (by unfold SliceLen; decide) (by decide)

/-- The model agrees. -/
example : FrameKind.stream.decl.populate .debug (zeroes 7) (frameStruct 0x0e streamFields [1]) =
      .ok [0x0e, 4, 9, 2, 0xAA, 0xBB, 1] ∧
    FrameKind.ack.decl.populate .debug (zeroes 7) (frameStruct 0x02 ackFields []) = panic := by
  decide +kernel

end Verif.Props
