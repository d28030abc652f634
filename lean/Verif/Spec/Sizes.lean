import Verif.Spec.Encode

/-!
# Specification: where the fields of a packet are

The offsets and lengths of the variable-size fields of a packet, told from the packet's own getters:
the `#[length]` expression of a field may call the getters of earlier fields and look at the bytes
from the field on.
-/

namespace Verif.Spec

/-- `&packet[o..]`, which panics past the end. -/
def tailAt (buf : Buf) (o : Nat) : Res Buf := if o ≤ buf.length then .ok (buf.drop o) else panic

/-- The getters of the fields before field `k`. -/
def earlierGetters (d : Decl) (m : Mode) (buf : Buf) (k i : Nat) : Res Val :=
  if i < k then d.get m buf i else panic

/-- Byte offset of field `k`, when the sizes of the variable-length fields before it are `sizes`. -/
def startOf (d : Decl) (k : Nat) (sizes : List Nat) : Nat :=
  fixedBits (d.fields.take k) / 8 + sizes.sum

/-- The `#[length]` expression `e` of field `k`, evaluated on a packet in which the variable-length
fields before field `k` have the sizes `sizes`. -/
def evalLength (d : Decl) (m : Mode) (buf : Buf) (k : Nat) (sizes : List Nat) (e : LenExpr) : Res Nat :=
  e m (earlierGetters d m buf k) (tailAt buf (startOf d k sizes))

/-- The fields with a `#[length]` among the first `k` fields have the sizes `sizes`, in order. -/
inductive Sizes (d : Decl) (m : Mode) (buf : Buf) : Nat → List Nat → Prop
  | nil : Sizes d m buf 0 []
  | plain {k f sizes} : Sizes d m buf k sizes → d.fields[k]? = some f → f.len = none →
      Sizes d m buf (k + 1) sizes
  | sized {k f sizes e n} : Sizes d m buf k sizes → d.fields[k]? = some f → f.len = some e →
      evalLength d m buf k sizes e = .ok n → Sizes d m buf (k + 1) (sizes ++ [n])

/-- The length of the vector field `f`, field `k` of the packet: that of its `#[length]`, and without
one the length of the whole buffer (which the end of the buffer cuts). -/
def HasLength (d : Decl) (m : Mode) (buf : Buf) (k : Nat) (sizes : List Nat) (f : Field) (len : Nat) :
    Prop :=
  match f.len with
  | some e => evalLength d m buf k sizes e = .ok len
  | none => len = buf.length

end Verif.Spec
