import Verif.Spec.QuicApi

/-!
# Frames of joined payloads
-/

namespace Verif.Spec.Quic

/-- The same frame with more bytes behind its payload. -/
def extended (b : Buf) (f : Frame) : Frame := ⟨f.kind, f.buf ++ b, f.count⟩

/-- A STREAM frame without length, whose data are all bytes behind it. -/
def ReachesEnd (f : Frame) : Prop := ∃ ty, f.buf.head? = some ty ∧ openEnded ty.toNat

/-- Two lists of frames behind each other; if `Padding` meets `Padding`, they are one with the sum of the
counters. -/
def merged (fs gs : List Frame) : List Frame :=
  match fs.getLast?, gs with
  | some f, g :: gs' =>
    if f.kind = .padding ∧ g.kind = .padding then fs.dropLast ++ ⟨f.kind, f.buf, f.count + g.count⟩ :: gs'
    else fs ++ g :: gs'
  | _, _ => fs ++ gs

/-- What `Frame::new` returns when the frames `fs` come before bytes for which it returns this. -/
def joined (fs : List Frame) : Res (Option (List Frame)) → Res (Option (List Frame))
  | .ok (some gs) => .ok (some (merged fs gs))
  | x => x

/-- The type, the payload and all fields but the last one (`remaining`) read the same. -/
def FieldsKept (m : Mode) (f g : Frame) : Prop :=
  g.kind = f.kind ∧ g.ty m = f.ty m ∧ g.payload m = f.payload m ∧
  ∀ i, i + 1 < f.kind.decl.fields.length → g.kind.decl.get m g.buf i = f.kind.decl.get m f.buf i

end Verif.Spec.Quic
