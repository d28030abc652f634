import Verif.Model.Derive
import Verif.Spec.Bits
import Verif.Spec.Encode

/-!
# Specification: where the digits of an integer are stored

A field of `n` bits that starts at bit `s` of a byte has a portion in every byte it touches. In a
big-endian field the portions hold the digits of the number from the highest on. In a little-endian
field the portion in byte `i` starts with the digit with which the portion in the mirrored byte would
start in a big-endian field. For fields of whole bytes this is the usual little-endian order.
-/

namespace Verif.Spec

/-- First bit behind the portion of the field in its byte `i`, counted from the start of byte 0. -/
def portionEnd (s n i : Nat) : Nat := min (8 * (i + 1)) (s + n)

/-- Number of bytes the field touches. -/
def touched (s n : Nat) : Nat := (s + n + 7) / 8

/-- Number of the lowest digit in the portion of byte `i`. -/
def lowest : Endianness → (s n i : Nat) → Nat
  | .big, s, n, i => s + n - portionEnd s n i
  | .little, s, n, i => s + n - portionEnd s n (touched s n - 1 - i)
  | .host, s, n, i => s + n - portionEnd s n (touched s n - 1 - i)

/-- Number of the binary digit stored in bit `q` of the field (bit 0 comes first in the packet; digit 0
is the lowest). -/
def digitAt (e : Endianness) (s n q : Nat) : Nat :=
  lowest e s n ((s + q) / 8) + (portionEnd s n ((s + q) / 8) - 1 - (s + q))

/-- The bits a field holds when `v`, a `u64` at most, is stored in it. -/
def stored (p : Prim) (s v : Nat) : List Bool :=
  (List.range p.size).map fun q => decide (digitAt p.endian s p.size q < 64) && v.testBit (digitAt p.endian s p.size q)

/-- Bit `q` of the field, in place. -/
def digitOf (p : Prim) (s : Nat) (l : List Bool) (q : Nat) : Nat :=
  if l[q]? = some true then 2 ^ digitAt p.endian s p.size q else 0

/-- The number read from the bits of a field: every digit that is 1 in one of the places it is stored in
is 1, as far as the Rust type of the field has this digit. -/
def readFrom (p : Prim) (s : Nat) (l : List Bool) : Nat :=
  (List.range p.size).foldl (fun a q => a ||| digitOf p s l q) 0 % 2 ^ storageWidth p.size

/-- Every digit of the field's numbers has its place: the field lies within one byte, or leaves as many
bits of its first byte unused as of its last. This is so for all big-endian fields. -/
def faithful (p : Prim) (s : Nat) : Bool :=
  decide (p.endian = .big ∨ s + p.size ≤ 8 ∨ (2 * s + p.size) % 8 = 0)

/-- The number whose big-endian digits are the bits with which the field stores `v`. -/
def toBig (p : Prim) (s v : Nat) : Nat := ofBits (stored p s v)

/-- The number the field reads from the big-endian digits of `x`. -/
def fromBig (p : Prim) (s x : Nat) : Nat := readFrom p s (toBits p.size x)

/-- `toBig` for integers one after the other, from bit `bit` on. -/
def toBigs : (bit : Nat) → List Prim → List Nat → List Nat
  | bit, p :: ps, v :: vs => toBig p (bit % 8) v :: toBigs (bit + p.size) ps vs
  | _, _, vs => vs

/-- `fromBig` for integers one after the other. -/
def fromBigs : (bit : Nat) → List Prim → List Nat → List Nat
  | bit, p :: ps, x :: xs => fromBig p (bit % 8) x :: fromBigs (bit + p.size) ps xs
  | _, _, xs => xs

/-- `toBig` for the value of a field that starts at bit `bit`. -/
def toBigVal (bit : Nat) : Ty → Val → Val
  | .prim p, .num v => .num (toBig p (bit % 8) v)
  | .misc args, .nums vs => .nums (toBigs bit args vs)
  | _, v => v

/-- `fromBig` for the value of a field. -/
def fromBigVal (bit : Nat) : Ty → Val → Val
  | .prim p, .num x => .num (fromBig p (bit % 8) x)
  | .misc args, .nums xs => .nums (fromBigs bit args xs)
  | _, v => v

/-- The type with big-endian integers of the same widths. -/
def bigTy : Ty → Ty
  | .prim p => .prim ⟨p.size, .big⟩
  | .misc args => .misc (args.map fun p => ⟨p.size, .big⟩)
  | .vecPrim p => .vecPrim p
  | .vecPkt c => .vecPkt c

/-- First bit of field `k`, as far as fields of fixed size are concerned. -/
def bitOf (d : Decl) (k : Nat) : Nat := ((d.fields.take k).map (·.ty.bits)).sum

/-- `toBigVal` for field `k`. -/
def toBigAt (d : Decl) (k : Nat) (v : Val) : Val :=
  match d.fields[k]? with
  | some f => toBigVal (bitOf d k) f.ty v
  | none => v

/-- `fromBigVal` for field `k`. -/
def fromBigAt (d : Decl) (k : Nat) (v : Val) : Val :=
  match d.fields[k]? with
  | some f => fromBigVal (bitOf d k) f.ty v
  | none => v

/-- The same packet with big-endian integers: the length expressions see the values of the fields of the
original. -/
def bigDecl (d : Decl) : Decl :=
  ⟨d.fields.map fun f => { f with
    ty := bigTy f.ty
    len := f.len.map fun e m get rest => e m (fun i => (get i).map (fromBigAt d i)) rest }⟩

/-- `toBigAt` for the values of a struct. -/
def toBigStruct (d : Decl) (vs : List Val) : List Val := vs.mapIdx (toBigAt d)

/-- `fromBigAt` for the values of a struct. -/
def fromBigStruct (d : Decl) (vs : List Val) : List Val := vs.mapIdx (fromBigAt d)

/-- All integers of the field, which starts at bit `bit`, are `faithful`. -/
def faithfulArgs : (bit : Nat) → List Prim → Bool
  | _, [] => true
  | bit, p :: ps => faithful p (bit % 8) && faithfulArgs (bit + p.size) ps

/-- All integers of field type `ty` at bit `bit` are `faithful`. -/
def faithfulTy (bit : Nat) : Ty → Bool
  | .prim p => faithful p (bit % 8)
  | .misc args => faithfulArgs bit args
  | _ => true

/-- All integers of all fields are `faithful`. -/
def faithfulFields : (bit : Nat) → List Field → Bool
  | _, [] => true
  | bit, f :: fs => faithfulTy bit f.ty && faithfulFields (bit + f.ty.bits) fs

/-- The bits of integers one after the other. -/
def storedArgs : (bit : Nat) → List Prim → List Nat → List Bool
  | bit, p :: ps, v :: vs => stored p (bit % 8) v ++ storedArgs (bit + p.size) ps vs
  | _, _, _ => []

/-- The bits of a field that starts at bit `bit`: integers in their byte order; vectors as in
`encField`. -/
def storedField (w : Wire) (bit : Nat) : Ty → Val → List Bool
  | .prim p, .num v => stored p (bit % 8) v
  | .misc args, .nums vs => storedArgs bit args vs
  | .vecPrim p, v => encField w (.vecPrim p) v
  | .vecPkt c, v => encField w (.vecPkt c) v
  | _, _ => []

/-- The bits of consecutive fields. -/
def storedFields (E : Nat → Wire) : (bit i : Nat) → List Field → List Val → List Bool
  | bit, i, f :: fs, v :: vs =>
    storedField (E i) bit f.ty v ++ storedFields E (bit + f.ty.bits) (i + 1) fs vs
  | _, _, _, _ => []

end Verif.Spec
