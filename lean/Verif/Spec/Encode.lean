import Verif.Model.Derive
import Verif.Spec.Bits

/-!
# Specification: the wire format of a packet struct

What a struct looks like on the wire, written without reference to the generated getters and
setters: the fields one after the other, each integer as its big-endian binary digits.
-/

namespace Verif.Spec

/-- Bytes from bits, eight at a time (a trailing incomplete group is dropped). -/
def packBits (l : List Bool) : Buf :=
  (List.range (l.length / 8)).map fun i => UInt8.ofNat (ofBits (bitSlice l (8 * i) 8))

/-- The wire format of a struct type: its bytes, what a value looks like after reduction of its
integers to their field widths, and which values have a wire format. -/
structure Wire where
  enc : Val → Buf
  norm : Val → Val
  valid : Val → Prop

/-- The bits of one field; `w` is the wire format of the elements of a `Vec<packet>` field. -/
def encField (w : Wire) : Ty → Val → List Bool
  | .prim p, .num v => toBits p.size v
  | .misc args, .nums vs => (List.zipWith (fun p v => toBits p.size v) args vs).flatten
  | .vecPrim p, .nums vs => vs.flatMap (toBits p.size)
  | .vecPkt _, .list vs => bitsOf (vs.flatMap w.enc)
  | _, _ => []

/-- The field's value with every integer reduced to its width. -/
def normField (w : Wire) : Ty → Val → Val
  | .prim p, .num v => .num (v % 2 ^ p.size)
  | .misc args, .nums vs => .nums (List.zipWith (fun p v => v % 2 ^ p.size) args vs)
  | .vecPrim p, .nums vs => .nums (vs.map (· % 2 ^ p.size))
  | .vecPkt _, .list vs => .list (vs.map w.norm)
  | _, v => v

/-- The value has the field's type. -/
def typed (w : Wire) : Ty → Val → Prop
  | .prim _, .num _ => True
  | .misc args, .nums vs => vs.length = args.length
  | .vecPrim _, .nums _ => True
  | .vecPkt _, .list vs => ∀ v ∈ vs, w.valid v
  | _, _ => False

/-- The bits of consecutive fields; `E i` is the wire format of the elements of field `i`. -/
def encFields (E : Nat → Wire) : (i : Nat) → List Field → List Val → List Bool
  | i, f :: fs, v :: vs => encField (E i) f.ty v ++ encFields E (i + 1) fs vs
  | _, _, _ => []

/-- Number of nested packets in the struct. -/
def nestedCount : List Field → List Val → Nat
  | f :: fs, v :: vs =>
    (match f.ty, v with
    | .vecPkt _, .list ws => ws.length
    | _, _ => 0) + nestedCount fs vs
  | _, _ => 0

/-- Bytes of the nested packets in the struct. -/
def nestedBytes (E : Nat → Wire) : (i : Nat) → List Field → List Val → Nat
  | i, f :: fs, v :: vs =>
    (match f.ty, v with
    | .vecPkt _, .list ws => (ws.flatMap (E i).enc).length
    | _, _ => 0) + nestedBytes E (i + 1) fs vs
  | _, _, _ => 0

/-- Width reduction of consecutive fields. -/
def normFields (E : Nat → Wire) : (i : Nat) → List Field → List Val → List Val
  | i, f :: fs, v :: vs => normField (E i) f.ty v :: normFields E (i + 1) fs vs
  | _, _, _ => []

/-- One value of the right type per field. -/
def typedFields (E : Nat → Wire) : (i : Nat) → List Field → List Val → Prop
  | _, [], [] => True
  | i, f :: fs, v :: vs => typed (E i) f.ty v ∧ typedFields E (i + 1) fs vs
  | _, _, _ => False

/-- The values of the earlier fields, as a length expression sees them. -/
def env (vs : List Val) (i : Nat) : Res Val :=
  match vs[i]? with
  | some v => .ok v
  | none => panic

/-- The struct's length fields agree with the sizes of its variable-length fields, whatever the
bytes that follow (so length expressions that peek at the following bytes do not qualify).
`seen` are the earlier fields, reduced. -/
def lensAgree (m : Mode) (E : Nat → Wire) :
    (i : Nat) → (seen : List Val) → List Field → List Val → Prop
  | i, seen, f :: fs, v :: vs =>
    (∀ e, f.len = some e → ∀ rest, e m (env seen) rest = .ok ((encField (E i) f.ty v).length / 8)) ∧
      lensAgree m E (i + 1) (seen ++ [normField (E i) f.ty v]) fs vs
  | _, _, _, _ => True

/-- The same for length expressions that may look at the bytes from the field on, which are the
encodings of this and the later fields followed by `tail`. -/
def lensAgreeOn (m : Mode) (E : Nat → Wire) (tail : List Bool) :
    (i : Nat) → (seen : List Val) → List Field → List Val → Prop
  | i, seen, f :: fs, v :: vs =>
    (∀ e, f.len = some e → ∀ rest : Buf,
      bitsOf rest = encField (E i) f.ty v ++ encFields E (i + 1) fs vs ++ tail →
        e m (env seen) (.ok rest) = .ok ((encField (E i) f.ty v).length / 8)) ∧
      lensAgreeOn m E tail (i + 1) (seen ++ [normField (E i) f.ty v]) fs vs
  | _, _, _, _ => True

/-- All integers are big endian, and vectors of integers are byte vectors. -/
def plainTy : Ty → Bool
  | .prim p => p.endian == .big
  | .misc args => args.all (·.endian == .big)
  | .vecPrim p => p.size == 8
  | .vecPkt _ => true

/-- Declarations with the usual shape: big-endian integers, byte or packet vectors starting on a
byte boundary, `#[length]` only on vectors and on every vector but a last one. -/
def regularFields : (bit : Nat) → List Field → Bool
  | _, [] => true
  | bit, f :: fs =>
    plainTy f.ty && f.ty.accepted bit &&
      (if f.ty.isVec then bit % 8 == 0 && (f.len.isSome || fs.isEmpty) else f.len.isNone) &&
      regularFields (bit + f.ty.bits) fs

/-- `regularFields` for a whole declaration. -/
def regular (d : Decl) : Bool := regularFields 0 d.fields

/-- Every variable-length field has a declared length. -/
def closed (d : Decl) : Bool := d.fields.all fun f => !f.ty.isVec || f.len.isSome

/-- The big-endian numbers of the given widths, read one after the other from bit `bit` on. -/
def decodeInts (l : List Bool) : (bit : Nat) → List Nat → List Nat
  | _, [] => []
  | bit, n :: ns => ofBits (bitSlice l bit n) :: decodeInts l (bit + n) ns

/-- The value of a fixed-size field stored from bit `bit` on. -/
def decodeFixed (l : List Bool) (bit : Nat) : Ty → Val
  | .prim p => .num (ofBits (bitSlice l bit p.size))
  | .misc args => .nums (decodeInts l bit (args.map (·.size)))
  | _ => .list []

/-- Widths of the integers stored in a field of fixed size. -/
def intWidths : Ty → List Nat
  | .prim p => [p.size]
  | .misc args => args.map (·.size)
  | .vecPrim _ => []
  | .vecPkt _ => []

/-- Total number of bits of the fixed-size fields. -/
def fixedBits (fs : List Field) : Nat := (fs.flatMap fun f => intWidths f.ty).sum

/-- The packets of an iteration tile the buffer: each starts where the previous one ends (`size`
gives its size), and it stops only when fewer than `min` bytes (or none) are left. -/
inductive Tiles (size : Buf → Res Nat) (min : Nat) : Buf → List Buf → Prop
  | stop {buf} : buf.length = 0 ∨ buf.length < min → Tiles size min buf []
  | next {buf n ps} : 0 < buf.length → min ≤ buf.length → size buf = .ok n →
      Tiles size min (buf.drop n) ps → Tiles size min buf (buf :: ps)

/-- The big-endian numbers stored in consecutive groups of `j` bytes. -/
def words (j : Nat) (raw : Buf) : List Nat :=
  (List.range (raw.length / j)).map fun i => beNat ((raw.drop (j * i)).take j)

/-- Largest possible length of a Rust slice is `isize::MAX`. -/
def SliceLen (n : Nat) : Prop := n < 2 ^ 63

instance (n : Nat) : Decidable (SliceLen n) := inferInstanceAs (Decidable (n < 2 ^ 63))

/-- What an outer packet relies on in an inner packet type `c` with wire format `w`: reading an
encoded struct gives the struct and its size, whatever follows; populating writes the encoding. -/
structure Lawful (m : Mode) (c : Codec) (w : Wire) : Prop where
  pos : ∀ v, w.valid v → 0 < (w.enc v).length
  min : ∀ v, w.valid v → c.minSize ≤ (w.enc v).length
  size : ∀ v tail, w.valid v → SliceLen (w.enc v ++ tail).length →
    c.packetSize m (w.enc v ++ tail) = .ok (w.enc v).length
  dec : ∀ v tail, w.valid v → SliceLen (w.enc v ++ tail).length →
    c.fromPacket m (w.enc v ++ tail) = .ok (w.norm v)
  pop : ∀ v buf, w.valid v → (w.enc v).length ≤ buf.length → SliceLen buf.length →
    c.populate m buf v = .ok (w.enc v ++ buf.drop (w.enc v).length)

/-- Every `Vec<packet>` field of the declaration uses a lawful inner packet type. -/
def LawfulElems (m : Mode) (E : Nat → Wire) (d : Decl) : Prop :=
  ∀ i f c, d.fields[i]? = some f → f.ty = .vecPkt c → Lawful m c (E i)

/-- `populate` of an inner packet type on a slice of at least its minimum size that cannot hold the
encoding panics. -/
def Strict (m : Mode) (c : Codec) (w : Wire) : Prop :=
  ∀ v buf, w.valid v → SliceLen (w.enc v).length → c.minSize ≤ buf.length → SliceLen buf.length →
    buf.length < (w.enc v).length → c.populate m buf v = panic

/-- Every `Vec<packet>` field of the declaration uses a strict inner packet type. -/
def StrictElems (m : Mode) (E : Nat → Wire) (d : Decl) : Prop :=
  ∀ i f c, d.fields[i]? = some f → f.ty = .vecPkt c → Strict m c (E i)

/-- No field of fixed size comes after a vector. -/
def vecsLast : List Field → Bool
  | [] => true
  | f :: fs => if f.ty.isVec then fs.all (·.ty.isVec) else vecsLast fs

/-- The wire format of a struct type given by a declaration. -/
def declWire (m : Mode) (E : Nat → Wire) (d : Decl) : Wire where
  enc
    | .list vs => packBits (encFields E 0 d.fields vs)
    | _ => []
  norm
    | .list vs => .list (normFields E 0 d.fields vs)
    | v => v
  valid
    | .list vs => typedFields E 0 d.fields vs ∧ lensAgree m E 0 [] d.fields vs
    | _ => False

end Verif.Spec
