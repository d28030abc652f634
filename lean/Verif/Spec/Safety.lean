import Verif.Spec.Sizes

/-!
# Specification: hypotheses about declarations used for hostile input

Conditions on length expressions and inner packet types under which writing stays inside a field
and loops end. They hold for the crate's own declarations (`Verif/Proofs/Instances.lean`).
-/

namespace Verif
open Spec

/-- The length expression does not look at the bytes that follow. -/
def LenExpr.local (e : LenExpr) : Prop := ∀ m g r r', e m g r = e m g r'

/-- All length expressions of the fields are local. -/
def localLens (fs : List Field) : Prop := ∀ f ∈ fs, ∀ e, f.len = some e → e.local

/-- Sizes do not wrap around (`usize` overflow): with overflow checks an overflow panics, without
them the lengths must be small enough. -/
def NoWrap (m : Mode) (d : Decl) : Prop :=
  m = .debug ∨ ∀ b k (sizes : List Nat), Sizes d m b k sizes → fixedBits d.fields / 8 + sizes.sum < 2 ^ 63

/-- What confinement needs from an inner packet type: `populate` changes nothing beyond the packet
size afterwards, and sizes do not wrap. -/
def ConfinedC (m : Mode) (c : Codec) : Prop :=
  (∀ buf v new n, SliceLen buf.length → c.populate m buf v = .ok new →
    c.packetSize m new = .ok n → new.length = buf.length ∧ new.drop n = buf.drop n) ∧
  (m = .debug ∨ ∀ buf n, c.packetSize m buf = .ok n → n ≤ 2 ^ 63)

/-- `packet_size` is never zero. -/
def Codec.positive (c : Codec) (m : Mode) : Prop := ∀ buf n, c.packetSize m buf = .ok n → 0 < n

/-- The call returns or panics. -/
def NH {α : Type} (x : Res α) : Prop := x ≠ .error .hang

/-- Iterating over packets of this type and reading them ends. -/
structure Codec.Ends (c : Codec) (m : Mode) : Prop where
  pos : c.positive m
  size : ∀ buf, NH (c.packetSize m buf)
  dec : ∀ buf, NH (c.fromPacket m buf)

/-- The length expression returns or panics when the getters do. -/
def LenExpr.ends (e : LenExpr) : Prop := ∀ m g r, (∀ i, NH (g i)) → NH r → NH (e m g r)

/-- Length expressions and inner packet types that end. -/
def endFields (m : Mode) (fs : List Field) : Prop :=
  ∀ f ∈ fs, (∀ e, f.len = some e → e.ends) ∧ ∀ c, f.ty = .vecPkt c → c.Ends m

end Verif
