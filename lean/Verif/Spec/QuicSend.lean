import Verif.Spec.QuicFrameBytes

/-!
# A sender of QUIC frames

Not code of the crate: a program that uses it, for C131.
-/

namespace Verif.Spec.Quic

/-- A frame that is sent: its type, its fields, and the bytes of its fields. -/
structure SentFrame where
  ty : UInt8
  fields : List (String × Val)
  body : Buf

/-- The bytes of frames, one after the other. -/
def wire (fs : List SentFrame) : Buf := fs.flatMap fun f => f.ty :: f.body

/-- The types of the frames, each with all bytes from its start on. -/
def located : List SentFrame → List (UInt8 × Buf)
  | [] => []
  | f :: fs => (f.ty, wire (f :: fs)) :: located fs

/-- Frames with their fields and bytes; only the last one may be a STREAM frame without length. -/
def Sendable : List SentFrame → Prop
  | [] => True
  | f :: fs => Fields 1 f.ty.toNat f.body f.fields ∧ (openEnded f.ty.toNat → fs = []) ∧ Sendable fs

/-- Writes frames with `populate` into new buffers, the last one first; each frame has those behind it in its
field `remaining`. -/
def writeFrames (m : Mode) : List SentFrame → Res Buf
  | [] => .ok []
  | f :: fs => do
    let rest ← writeFrames m fs
    match variants.lookup f.ty.toNat with
    | none => panic
    | some k => k.decl.populate m (List.replicate (1 + f.body.length + rest.length) 0) (frameStruct f.ty f.fields rest)

end Verif.Spec.Quic
