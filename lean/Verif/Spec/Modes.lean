import Verif.Model.Derive
import Verif.Spec.Quic

/-! # Comparing debug and release builds -/

namespace Verif.Spec

/-- If the first call returns, the second returns the same. -/
def Below {α : Type} (x y : Res α) : Prop := ∀ v, x = .ok v → y = .ok v

/-- What the checked (debug) evaluation of a length expression returns, the unchecked (release)
evaluation returns as well. -/
def LenBelow (e : LenExpr) : Prop :=
  ∀ (g g' : Nat → Res Val) (r r' : Res Buf), (∀ i, Below (g i) (g' i)) → Below r r' →
    Below (e .debug g r) (e .release g' r')

/-- The same for a packet type used in a vector. -/
structure CodecBelow (c : Codec) : Prop where
  size : ∀ buf, Below (c.packetSize .debug buf) (c.packetSize .release buf)
  dec : ∀ buf, Below (c.fromPacket .debug buf) (c.fromPacket .release buf)
  enc : ∀ buf v, Below (c.populate .debug buf v) (c.populate .release buf v)

/-- The same for all length expressions and inner packet types of a declaration. -/
def DeclBelow (d : Decl) : Prop :=
  ∀ f ∈ d.fields, (∀ e, f.len = some e → LenBelow e) ∧ ∀ c, f.ty = .vecPkt c → CodecBelow c

/-- The Length field of a QUIC packet (field `pos`), where it can be decoded, is at least the size of the packet number. -/
def LengthCovers (d : Decl) (pos : Nat) (buf : Buf) : Prop :=
  ∀ l v p, d.getRaw .release buf pos = .ok l → Quic.Varint l v → d.getRaw .release buf (pos + 1) = .ok p →
    p.length ≤ v

end Verif.Spec
