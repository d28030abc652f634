import Verif.Model.Ops

/-! # Text formats: vocabulary for the MAC address and type name properties -/

namespace Verif.Spec

/-- The hexadecimal digits with their values. -/
def hexDigits : List (Char × Nat) := [
  ('0', 0), ('1', 1), ('2', 2), ('3', 3), ('4', 4), ('5', 5), ('6', 6), ('7', 7), ('8', 8), ('9', 9),
  ('a', 10), ('b', 11), ('c', 12), ('d', 13), ('e', 14), ('f', 15),
  ('A', 10), ('B', 11), ('C', 12), ('D', 13), ('E', 14), ('F', 15)]

/-- `ds` are hexadecimal digits denoting `v`. -/
inductive HexNum : List Char → Nat → Prop
  | nil : HexNum [] 0
  | snoc {ds v c d} : HexNum ds v → (c, d) ∈ hexDigits → HexNum (ds ++ [c]) (16 * v + d)

/-- A hexadecimal `u8` literal as Rust reads it: at least one digit, leading zeros and one plus sign
allowed, value below 256. -/
def HexU8 (w : List Char) (v : UInt8) : Prop :=
  ∃ ds, (w = ds ∨ w = '+' :: ds) ∧ ds ≠ [] ∧ HexNum ds v.toNat

/-- The digits used when printing. -/
def lowerHexDigits : List Char :=
  ['0', '1', '2', '3', '4', '5', '6', '7', '8', '9', 'a', 'b', 'c', 'd', 'e', 'f']

/-- A byte as two lower-case hexadecimal digits. -/
def twoHex (b : UInt8) : List Char :=
  [lowerHexDigits[b.toNat / 16]?.getD '?', lowerHexDigits[b.toNat % 16]?.getD '?']

/-- `comps` are the components of `s`, separated by `sep`. -/
def Components (sep : Char) (s : List Char) (comps : List (List Char)) : Prop :=
  comps ≠ [] ∧ (∀ w ∈ comps, sep ∉ w) ∧ s = [sep].intercalate comps

/-- The decimal digits with their values. -/
def decDigits : List (Char × Nat) := [
  ('0', 0), ('1', 1), ('2', 2), ('3', 3), ('4', 4), ('5', 5), ('6', 6), ('7', 7), ('8', 8), ('9', 9)]

/-- `ds` are decimal digits denoting `v`. -/
inductive DecNum : List Char → Nat → Prop
  | nil : DecNum [] 0
  | snoc {ds v c d} : DecNum ds v → (c, d) ∈ decDigits → DecNum (ds ++ [c]) (10 * v + d)

/-- The endianness suffixes: text, endianness, whether the endianness is spelled out. -/
def intSuffixes : List (List Char × Endianness × Bool) := [
  ([], .big, false), (['b', 'e'], .big, true), (['l', 'e'], .little, true), (['h', 'e'], .host, true)]

/-- The text of an integer type: `u`, at least one decimal digit, an optional endianness suffix. -/
def IntType (s : List Char) (width : Nat) (e : Endianness) (spelled : Bool) : Prop :=
  ∃ ds suffix, s = 'u' :: (ds ++ suffix) ∧ ds ≠ [] ∧ DecNum ds width ∧
    (suffix, e, spelled) ∈ intSuffixes

end Verif.Spec
