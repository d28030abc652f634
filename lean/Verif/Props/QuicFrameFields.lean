import Verif.Proofs.QuicFrameFields
import Verif.Props.Generated

/-!
# Contents of QUIC frames (C64)

`Fields` of `Spec/QuicApi` lists, for each frame of RFC 9000, its bytes and the names and values of the
fields of the crate's struct.
-/

namespace Verif.Props
open Spec Spec.Quic

/-- What the accessors of a frame return: `ty()` the type, `remaining()` the bytes behind the frame,
every getter the field's value, and `payload()` the data of a STREAM frame and nothing for others. -/
def FrameShows (m : Mode) (f : Frame) (ty : Nat) (fields : List (String × Val)) (rest : Buf) : Prop :=
  f.ty m = .ok (.nums [ty]) ∧
  f.remaining m = .ok rest ∧
  f.kind.decl.fields.map (·.name) = "ty" :: fields.map (·.1) ++ ["remaining"] ∧
  (∀ i v, (.nums [ty] :: fields.map (·.2) ++ [bytesOf rest])[i]? = some v →
    f.kind.decl.get m f.buf i = .ok v) ∧
  (∀ data, ("stream_data", bytesOf data) ∈ fields → f.payload m = .ok data) ∧
  ((∀ v, ("stream_data", v) ∉ fields) → f.payload m = .ok [])

/-- **C64**. A frame with its bytes: the accessors of the variant of its type return its parts. The
bytes behind it are arbitrary, except that STREAM frames without length extend to the end. -/
theorem C64_frame_accessors (m : Mode) (ty : UInt8) (body rest : Buf) (fields : List (String × Val))
    (h : Fields 1 ty.toNat body fields) (hopen : openEnded ty.toNat → rest = [])
    (k : FrameKind) (hk : variants.lookup ty.toNat = some k) (count : Nat)
    (hsl : SliceLen (ty :: (body ++ rest)).length) :
    FrameShows m ⟨k, ty :: (body ++ rest), count⟩ ty.toNat fields rest := by
  rw [variants_ofType] at hk
  have hok := fields_ok h
  refine ⟨frame_get hok hk hopen m hsl 0 _ rfl, ?_, frame_names hok hk,
    frame_get hok hk hopen m hsl, ?_, ?_⟩
  · have hr := frame_remaining m k ty (body ++ rest) count hsl
    obtain ⟨k', hk', -, hs⟩ := hok
    rw [hk] at hk'; cases hk'
    rwa [hs m rest hopen] at hr
  · intro data hd
    obtain ⟨rfl, h3⟩ := stream_of_fields h hk hd
    exact stream_payload hok hk hopen m hsl h3
  · exact fun hd => C08_no_payload _ m _ (no_payload_of_fields h hk hd)

/-- **C64**. Every frame reported by `Frame::new` is such a frame. -/
theorem C64_reported_frames (m : Mode) (buf : Buf) (hsl : SliceLen buf.length) (fs : List Frame)
    (h : Frame.new m buf = .ok (some fs)) (f : Frame) (hf : f ∈ fs) :
    ∃ (ty : UInt8) (body rest : Buf) (fields : List (String × Val)), f.buf = ty :: (body ++ rest) ∧
      Fields 1 ty.toNat body fields ∧ FrameShows m f ty.toNat fields rest := by
  obtain ⟨raw, hraw, hfs⟩ := frames_of_new hsl h
  have hmem := List.mem_map_of_mem (f := shown) hf
  rw [hfs] at hmem
  obtain ⟨⟨x, n⟩, hx, hxe⟩ := List.mem_map.mp hmem
  have hxr : x ∈ raw := (runs_sublist raw).subset (List.mem_map_of_mem (f := (·.1)) hx)
  obtain ⟨parts, body, rest, h1, h2, h3, h4, h5⟩ := frames_mem hraw x hxr
  obtain ⟨fields, hfields⟩ := has_fields h2 h3
  obtain ⟨k, b, c⟩ := f
  simp only [shown, expected, Prod.mk.injEq] at hxe
  obtain ⟨e1, e2, -⟩ := hxe
  subst e2
  refine ⟨x.1, body, rest, fields, h1, hfields, ?_⟩
  rw [h1] at h5 ⊢
  exact C64_frame_accessors m x.1 body rest fields hfields (fun ho => h4 (toEnd_of_open h2 ho)) k e1 c
    (by unfold SliceLen at *; omega)

/-- A STREAM frame with offset and length, followed by a PING frame. -/
example : Fields 1 (0x0e : UInt8).toNat [4, 0x40, 9, 2, 0xAA, 0xBB]
    [("stream_id", bytesOf [4]), ("offset", bytesOf [0x40, 9]), ("length", bytesOf [2]),
      ("stream_data", bytesOf [0xAA, 0xBB])] :=
  .streamOffLen (id := [4]) (offset := [0x40, 9]) (length := [2]) (data := [0xAA, 0xBB])
    (a := 4) (b := 9) (.inl rfl)
    ⟨0, by decide, by decide, by decide, by decide⟩ ⟨1, by decide, by decide, by decide, by decide⟩
    ⟨0, by decide, by decide, by decide, by decide⟩

example : (Frame.payload .debug ⟨.stream, [0x0e, 4, 0x40, 9, 2, 0xAA, 0xBB, 1], 0⟩) = .ok [0xAA, 0xBB] ∧
    Frame.new .debug [0x0e, 4, 0x40, 9, 2, 0xAA, 0xBB, 1] = .ok (some
      [⟨.stream, [0x0e, 4, 0x40, 9, 2, 0xAA, 0xBB, 1], 0⟩, ⟨.ping, [1], 0⟩]) := by decide +kernel

end Verif.Props
