import Verif.Model.DocExamples
import Verif.Model.LengthEval
import Verif.Spec.Macro
import Verif.Props.Fits
import Verif.Proofs.Options
import Verif.Proofs.Headers
import Verif.Proofs.QuicPopulate
import Verif.Proofs.Incremental
import Verif.Proofs.Registers

/-!
# C125: the structs of the documentation

`Example` of `derive/src/lib.rs` and `MyProtocol` of `docs/using_packet.md`.
-/

set_option autoImplicit false

namespace Verif.Props
open Spec

/-- **C125**: the macro accepts both structs, as written, and sees the fields of the declarations below. -/
theorem C125_accepted :
    derivePacket (lengthTextOk LengthText.tokenise) true (.struct srcExample) = .ok (shapes docExample) ∧
    derivePacket (lengthTextOk LengthText.tokenise) true (.struct srcMyProtocol) = .ok (shapes myProtocol) := by
  decide +kernel

theorem example_flat (E : Nat → Wire) (m : Mode) : LawfulElems m E docExample ∧ StrictElems m E docExample := by
  constructor <;>
  · intro i f c hf hc
    match i, hf with
    | 0, hf | 1, hf | 2, hf => cases hf; cases hc
    | n + 3, hf => simp [docExample] at hf

theorem myProtocol_flat (E : Nat → Wire) (m : Mode) : LawfulElems m E myProtocol ∧ StrictElems m E myProtocol := by
  constructor <;>
  · intro i f c hf hc
    match i, hf with
    | 0, hf | 1, hf | 2, hf => cases hf; cases hc
    | n + 3, hf => simp [myProtocol] at hf

theorem rest_get {d : Decl} {m : Mode} {buf : Buf} {k : Nat} {f : Field}
    (hf : d.fields[k]? = some f) (hty : f.ty = .vecPrim (u 8)) (hlen : f.len = none)
    (hfix : (d.fields.take k).all Field.fixed = true) (hmin : d.minSize ≤ buf.length)
    (hsl : SliceLen buf.length) (hb : bitsSum (d.fields.take k) / 8 < 2 ^ 63) :
    d.get m buf k = .ok (.nums ((buf.drop (bitsSum (d.fields.take k) / 8)).map (·.toNat))) := by
  unfold SliceLen at hsl
  rw [bytes_get hf hty, getRaw_fixed hf hfix (len := buf.length) (by rw [fieldLen, hlen]) hmin (by omega),
    List.take_of_length_le (by simp)]
  rfl

/-- The last twelve bits of two bytes. -/
theorem bitsAt_twelve (b0 b1 : UInt8) (rest : Buf) :
    bitsAt (b0 :: b1 :: rest) 4 12 = b0.toNat % 16 * 256 + b1.toNat := by
  rw [bitsAt_split _ 4 4 8 (by simp only [List.length_cons]; omega), bitsAt_second, bitsAt_cons _ _ (by omega)]
  simp

theorem bits_nibbles (a c : Nat) (l : Buf) :
    bitsOf (UInt8.ofNat (a % 16 * 16 + c % 16) :: l) = toBits 4 a ++ (toBits 4 c ++ bitsOf l) := by
  have h2 : ∀ a, bitsOf (a :: l) = bitsOf [a] ++ bitsOf l := fun a => by simp
  rw [h2, bitsOf_one, toBits_add 4 4, List.append_assoc]
  congr 1
  · rw [show (a % 16 * 16 + c % 16) / 2 ^ 4 = a % 2 ^ 4 by omega, toBits_mod]
  · rw [← toBits_mod, show (a % 16 * 16 + c % 16) % 2 ^ 4 = c % 2 ^ 4 by omega, toBits_mod]

/-- The two bytes of four bits and twelve bits. -/
theorem bits_example (f1 f2 : Nat) :
    bitsOf [UInt8.ofNat (f1 % 16 * 16 + f2 / 256 % 16), UInt8.ofNat f2] = toBits 4 f1 ++ toBits 12 f2 := by
  rw [bits_nibbles, bitsOf_one, toBits_add 4 8]

/-- **C125**, reading an `Example`: four bits, twelve bits with the highest first, and all the remaining
bytes. -/
theorem C125_example_read (m : Mode) (b0 b1 : UInt8) (rest : Buf) (hsl : SliceLen (b0 :: b1 :: rest).length) :
    docExample.newPacket (b0 :: b1 :: rest) = some (.borrowed (b0 :: b1 :: rest)) ∧
    docExample.get m (b0 :: b1 :: rest) 0 = .ok (.num (b0.toNat / 16)) ∧
    docExample.get m (b0 :: b1 :: rest) 1 = .ok (.num (b0.toNat % 16 * 256 + b1.toNat)) ∧
    docExample.get m (b0 :: b1 :: rest) 2 = .ok (.nums (rest.map (·.toNat))) ∧
    docExample.payload m (b0 :: b1 :: rest) = .ok rest ∧
    docExample.fromPacket m (b0 :: b1 :: rest) = .ok (.list [.num (b0.toNat / 16),
      .num (b0.toNat % 16 * 256 + b1.toNat), .nums (rest.map (·.toNat))]) := by
  have hmin : docExample.minSize ≤ (b0 :: b1 :: rest).length := by
    rw [show docExample.minSize = 2 from rfl]; simp
  have hnew := newPacket_isSome.mpr hmin
  have h0 := C07_fixed_getter_value docExample rfl 0 _ rfl rfl rfl m _ hnew
  have h1 := C07_fixed_getter_value docExample rfl 1 _ rfl rfl rfl m _ hnew
  have e0 : decodeFixed (bitsOf (b0 :: b1 :: rest)) 0 (.prim ⟨4, .big⟩) = .num (b0.toNat / 16) := by
    show Val.num (bitsAt (b0 :: b1 :: rest) 0 4) = _
    have := b0.toNat_lt
    rw [bitsAt_cons _ _ (by omega)]
    congr 1
    omega
  have e1 : decodeFixed (bitsOf (b0 :: b1 :: rest)) 4 (.prim ⟨12, .big⟩) =
      .num (b0.toNat % 16 * 256 + b1.toNat) := by
    show Val.num (bitsAt (b0 :: b1 :: rest) 4 12) = _
    rw [bitsAt_twelve]
  have h0' := h0.trans (congrArg _ e0)
  have h1' := h1.trans (congrArg _ e1)
  have h2 : docExample.get m (b0 :: b1 :: rest) 2 = .ok (.nums (rest.map (·.toNat))) :=
    rest_get (d := docExample) (k := 2) rfl rfl rfl rfl hmin hsl (by decide)
  refine ⟨?_, h0', h1', h2, payload_open (d := docExample) (k := 2) rfl rfl rfl rfl hsl (by decide), ?_⟩
  · rw [Decl.newPacket, if_pos hmin]
  · rw [fromPacket_mapM]
    show Val.list <$> ([docExample.get m (b0 :: b1 :: rest) 0, docExample.get m (b0 :: b1 :: rest) 1,
      docExample.get m (b0 :: b1 :: rest) 2].mapM id) = _
    rw [h0', h1', h2]
    rfl

/-- **C125**: fewer than two bytes are no `Example`. -/
theorem C125_example_short (buf : Buf) (h : buf.length < 2) : docExample.newPacket buf = none := by
  rw [Decl.newPacket, if_neg (by rw [show docExample.minSize = 2 from rfl]; omega)]

/-- **C125**, the setters of an `Example`: a value is reduced to the width of its field, and the other field
and the payload stay. -/
theorem C125_example_set (m : Mode) (b0 b1 : UInt8) (rest : Buf) (v : Nat)
    (hsl : SliceLen (b0 :: b1 :: rest).length) :
    docExample.set m (b0 :: b1 :: rest) 0 (.num v) =
      .ok (UInt8.ofNat (v % 16 * 16 + b0.toNat % 16) :: b1 :: rest) ∧
    docExample.set m (b0 :: b1 :: rest) 1 (.num v) =
      .ok (UInt8.ofNat (b0.toNat / 16 * 16 + v / 256 % 16) :: UInt8.ofNat v :: rest) := by
  have hmin : docExample.minSize ≤ (b0 :: b1 :: rest).length := by
    rw [show docExample.minSize = 2 from rfl]; simp
  have hnew := newPacket_isSome.mpr hmin
  have hb : bitsOf (b0 :: b1 :: rest) = toBits 4 (b0.toNat / 16) ++ (toBits 4 b0.toNat ++ (toBits 8 b1.toNat ++ bitsOf rest)) := by
    rw [bitsOf_cons, bitsOf_cons, byteBits_eq_toBits, byteBits_eq_toBits, toBits_add 4 4]
    simp
  constructor
  · obtain ⟨new, h1, -, h2⟩ := C03_declared_setter docExample rfl 0 _ rfl rfl rfl m (noInner 0) (.num v) trivial _
      hsl hnew
    rw [h1]
    congr 1
    apply bitsOf_inj
    rw [h2, hb, bits_nibbles, bitsOf_cons, byteBits_eq_toBits]
    rfl
  · obtain ⟨new, h1, -, h2⟩ := C03_declared_setter docExample rfl 1 _ rfl rfl rfl m (noInner 0) (.num v) trivial _
      hsl hnew
    rw [h1]
    congr 1
    apply bitsOf_inj
    have h16 : b0.toNat / 16 % 16 = b0.toNat / 16 := by have := b0.toNat_lt; omega
    have h2' : ∀ a, bitsOf (a :: rest) = bitsOf [a] ++ bitsOf rest := fun a => by simp
    rw [h2, hb, ← h16, bits_nibbles, h2', bitsOf_one, h16]
    show _ ++ toBits (4 + 8) v ++ _ = _
    rw [toBits_add]
    rfl

/-- **C125**, `populate` of an `Example`: the two fields, the payload, and the bytes after it as they were;
a panic if they do not fit. The size of the struct is the number of these bytes. -/
theorem C125_example_write (m : Mode) (f1 f2 : Nat) (data : List Nat) (buf : Buf) (h2 : 2 ≤ buf.length)
    (hsl : SliceLen buf.length) (hd : SliceLen (2 + data.length)) :
    docExample.populate m buf (.list [.num f1, .num f2, .nums data]) =
      (if 2 + data.length ≤ buf.length then
        .ok ([UInt8.ofNat (f1 % 16 * 16 + f2 / 256 % 16), UInt8.ofNat f2] ++ data.map UInt8.ofNat ++
          buf.drop (2 + data.length))
      else panic) ∧
    docExample.staticSize [.num f1, .num f2, .nums data] = 2 + data.length := by
  have henc : encFields noInner 0 docExample.fields [.num f1, .num f2, .nums data] =
      bitsOf ([UInt8.ofNat (f1 % 16 * 16 + f2 / 256 % 16), UInt8.ofNat f2] ++ data.map UInt8.ofNat) := by
    rw [bitsOf_append, bits_example, ← flatMap_toBits8]
    simp [encFields, encField, docExample, fprim, fpayloadRest, u]
  have hl : (encFields noInner 0 docExample.fields [.num f1, .num f2, .nums data]).length = 8 * (2 + data.length) := by
    rw [henc, bitsOf_length]; simp; omega
  have htyped : typedFields noInner 0 docExample.fields [.num f1, .num f2, .nums data] := by
    simp [typedFields, typed, docExample, fprim, fpayloadRest]
  have hlens : lensAgree m noInner 0 [] docExample.fields [.num f1, .num f2, .nums data] := by
    simp [lensAgree, docExample, fprim, fpayloadRest, normField, encField]
  refine ⟨?_, ?_⟩
  · split
    · obtain ⟨new, h1, -, h3⟩ := C13_populate_writes_encoding_partial docExample m noInner rfl
        (example_flat _ _).1 _ htyped hlens buf hsl (by omega)
      rw [h1]
      congr 1
      apply bitsOf_inj
      rw [h3, hl, henc, bitsOf_append _ (buf.drop _), bitsOf_drop]
    · refine (C92_populate_fits docExample m noInner rfl rfl (example_flat _ _).1 (example_flat _ _).2 _ htyped
        hlens (by rw [hl]; simpa using hd) buf hsl ?_).2 (by omega)
      rw [Decl.newPacket, if_pos (by rw [show docExample.minSize = 2 from rfl]; omega)]
      simp
  · have := C14_static_size_partial docExample noInner [.num f1, .num f2, .nums data] rfl
      (by simp [docExample, fprim, fpayloadRest]) htyped rfl
    omega

/-- An `Example` with values that are too large for their fields. -/
example : docExample.populate .debug (List.replicate 5 7) (.list [.num 0x3a, .num 0xf123, .nums [1, 2]]) =
      .ok [0xa1, 0x23, 1, 2, 7] ∧
    docExample.fromPacket .debug [0xa1, 0x23, 1, 2, 7] = .ok (.list [.num 10, .num 0x123, .nums [1, 2, 7]]) ∧
    docExample.set .release [0xa1, 0x23, 1, 2, 7] 1 (.num 0x4567) = .ok [0xa5, 0x67, 1, 2, 7] ∧
    docExample.populate .release [0, 0, 0] (.list [.num 1, .num 2, .nums [1, 2]]) = panic ∧
    docExample.newPacket [1] = none := by decide +kernel

/-- **C125**, reading a `MyProtocol`: one byte, given to `MyProtocolField::new`, two bytes with the highest
first, and all the remaining bytes. -/
theorem C125_protocol_read (m : Mode) (b0 b1 b2 : UInt8) (rest : Buf)
    (hsl : SliceLen (b0 :: b1 :: b2 :: rest).length) :
    myProtocol.newPacket (b0 :: b1 :: b2 :: rest) = some (.borrowed (b0 :: b1 :: b2 :: rest)) ∧
    myProtocol.get m (b0 :: b1 :: b2 :: rest) 0 = .ok (.nums [b0.toNat]) ∧
    myProtocol.get m (b0 :: b1 :: b2 :: rest) 1 = .ok (.num (256 * b1.toNat + b2.toNat)) ∧
    myProtocol.get m (b0 :: b1 :: b2 :: rest) 2 = .ok (.nums (rest.map (·.toNat))) ∧
    myProtocol.payload m (b0 :: b1 :: b2 :: rest) = .ok rest ∧
    myProtocol.fromPacket m (b0 :: b1 :: b2 :: rest) = .ok (.list [.nums [b0.toNat],
      .num (256 * b1.toNat + b2.toNat), .nums (rest.map (·.toNat))]) := by
  have hmin : myProtocol.minSize ≤ (b0 :: b1 :: b2 :: rest).length := by
    rw [show myProtocol.minSize = 3 from rfl]; simp
  have hnew := newPacket_isSome.mpr hmin
  have h0 := C07_fixed_getter_value myProtocol rfl 0 _ rfl rfl rfl m _ hnew
  have h1 := C07_fixed_getter_value myProtocol rfl 1 _ rfl rfl rfl m _ hnew
  have e0 : decodeFixed (bitsOf (b0 :: b1 :: b2 :: rest)) 0 (.misc [⟨8, .big⟩]) = .nums [b0.toNat] := by
    show Val.nums [bitsAt (b0 :: b1 :: b2 :: rest) 0 8] = _
    rw [bitsAt_first]
  have e1 : decodeFixed (bitsOf (b0 :: b1 :: b2 :: rest)) 8 (.prim ⟨16, .big⟩) =
      .num (256 * b1.toNat + b2.toNat) := by
    show Val.num (bitsAt (b0 :: b1 :: b2 :: rest) 8 16) = _
    rw [bitsAt_split _ 8 8 8 (by simp only [List.length_cons]; omega), bitsAt_second]
    have : bitsAt (b0 :: b1 :: b2 :: rest) 16 8 = b2.toNat := bitsAt_second b1 b2 rest
    rw [this]
    congr 1
    omega
  have h0' := h0.trans (congrArg _ e0)
  have h1' := h1.trans (congrArg _ e1)
  have h2 : myProtocol.get m (b0 :: b1 :: b2 :: rest) 2 = .ok (.nums (rest.map (·.toNat))) :=
    rest_get (d := myProtocol) (k := 2) rfl rfl rfl rfl hmin hsl (by decide)
  refine ⟨?_, h0', h1', h2, payload_open (d := myProtocol) (k := 2) rfl rfl rfl rfl hsl (by decide), ?_⟩
  · rw [Decl.newPacket, if_pos hmin]
  · rw [fromPacket_mapM]
    show Val.list <$> ([myProtocol.get m (b0 :: b1 :: b2 :: rest) 0, myProtocol.get m (b0 :: b1 :: b2 :: rest) 1,
      myProtocol.get m (b0 :: b1 :: b2 :: rest) 2].mapM id) = _
    rw [h0', h1', h2]
    rfl

/-- **C125**: fewer than three bytes are no `MyProtocol`. -/
theorem C125_protocol_short (buf : Buf) (h : buf.length < 3) : myProtocol.newPacket buf = none := by
  rw [Decl.newPacket, if_neg (by rw [show myProtocol.minSize = 3 from rfl]; omega)]

/-- **C125**, the setters of a `MyProtocol`. -/
theorem C125_protocol_set (m : Mode) (b0 b1 b2 : UInt8) (rest : Buf) (v : Nat)
    (hsl : SliceLen (b0 :: b1 :: b2 :: rest).length) :
    myProtocol.set m (b0 :: b1 :: b2 :: rest) 0 (.nums [v]) = .ok (UInt8.ofNat v :: b1 :: b2 :: rest) ∧
    myProtocol.set m (b0 :: b1 :: b2 :: rest) 1 (.num v) =
      .ok (b0 :: UInt8.ofNat (v / 256) :: UInt8.ofNat v :: rest) := by
  have hmin : myProtocol.minSize ≤ (b0 :: b1 :: b2 :: rest).length := by
    rw [show myProtocol.minSize = 3 from rfl]; simp
  have hnew := newPacket_isSome.mpr hmin
  constructor
  · obtain ⟨new, h1, -, h2⟩ := C03_declared_setter myProtocol rfl 0 _ rfl rfl rfl m (noInner 0) (.nums [v]) rfl _
      hsl hnew
    rw [h1]
    congr 1
    apply bitsOf_inj
    have hc : ∀ a (l : Buf), bitsOf (a :: l) = bitsOf [a] ++ bitsOf l := fun a l => by simp
    rw [h2, hc (UInt8.ofNat v), bitsOf_one]
    rfl
  · obtain ⟨new, h1, -, h2⟩ := C03_declared_setter myProtocol rfl 1 _ rfl rfl rfl m (noInner 0) (.num v) trivial _
      hsl hnew
    rw [h1]
    congr 1
    apply bitsOf_inj
    have hc : bitsOf (UInt8.ofNat (v / 256) :: UInt8.ofNat v :: rest) =
        bitsOf [UInt8.ofNat (v / 256), UInt8.ofNat v] ++ bitsOf rest := by simp
    rw [h2, bitsOf_cons b0 (UInt8.ofNat (v / 256) :: UInt8.ofNat v :: rest), hc, bitsOf_two]
    rfl

/-- **C125**, `populate` of a `MyProtocol`. -/
theorem C125_protocol_write (m : Mode) (f1 f2 : Nat) (data : List Nat) (buf : Buf) (h2 : 3 ≤ buf.length)
    (hsl : SliceLen buf.length) (hd : SliceLen (3 + data.length)) :
    myProtocol.populate m buf (.list [.nums [f1], .num f2, .nums data]) =
      (if 3 + data.length ≤ buf.length then
        .ok ([UInt8.ofNat f1, UInt8.ofNat (f2 / 256), UInt8.ofNat f2] ++ data.map UInt8.ofNat ++
          buf.drop (3 + data.length))
      else panic) ∧
    myProtocol.staticSize [.nums [f1], .num f2, .nums data] = 3 + data.length := by
  have henc : encFields noInner 0 myProtocol.fields [.nums [f1], .num f2, .nums data] =
      bitsOf ([UInt8.ofNat f1, UInt8.ofNat (f2 / 256), UInt8.ofNat f2] ++ data.map UInt8.ofNat) := by
    have hc : bitsOf [UInt8.ofNat f1, UInt8.ofNat (f2 / 256), UInt8.ofNat f2] =
        bitsOf [UInt8.ofNat f1] ++ bitsOf [UInt8.ofNat (f2 / 256), UInt8.ofNat f2] := by simp
    rw [bitsOf_append, hc, bitsOf_one, bitsOf_two, ← flatMap_toBits8]
    simp [encFields, encField, myProtocol, fprim, fmisc, fpayloadRest, u]
  have hl : (encFields noInner 0 myProtocol.fields [.nums [f1], .num f2, .nums data]).length =
      8 * (3 + data.length) := by
    rw [henc, bitsOf_length]; simp; omega
  have htyped : typedFields noInner 0 myProtocol.fields [.nums [f1], .num f2, .nums data] := by
    simp [typedFields, typed, myProtocol, fprim, fmisc, fpayloadRest]
  have hlens : lensAgree m noInner 0 [] myProtocol.fields [.nums [f1], .num f2, .nums data] := by
    simp [lensAgree, myProtocol, fprim, fmisc, fpayloadRest, normField, encField]
  refine ⟨?_, ?_⟩
  · split
    · obtain ⟨new, h1, -, h3⟩ := C13_populate_writes_encoding_partial myProtocol m noInner rfl
        (myProtocol_flat _ _).1 _ htyped hlens buf hsl (by omega)
      rw [h1]
      congr 1
      apply bitsOf_inj
      rw [h3, hl, henc, bitsOf_append _ (buf.drop _), bitsOf_drop]
    · refine (C92_populate_fits myProtocol m noInner rfl rfl (myProtocol_flat _ _).1 (myProtocol_flat _ _).2 _ htyped
        hlens (by rw [hl]; simpa using hd) buf hsl ?_).2 (by omega)
      rw [Decl.newPacket, if_pos (by rw [show myProtocol.minSize = 3 from rfl]; omega)]
      simp
  · have := C14_static_size_partial myProtocol noInner [.nums [f1], .num f2, .nums data] rfl
      (by simp [myProtocol, fprim, fmisc, fpayloadRest]) htyped rfl
    omega

/-- A `MyProtocol` with `VALUE_BAR`. -/
example : myProtocol.populate .debug (List.replicate 6 7) (.list [.nums [1], .num 0xbeef, .nums [8]]) =
      .ok [1, 0xbe, 0xef, 8, 7, 7] ∧
    myProtocol.fromPacket .release [1, 0xbe, 0xef, 8, 7, 7] = .ok (.list [.nums [1], .num 0xbeef, .nums [8, 7, 7]]) ∧
    myProtocol.set .debug [1, 0xbe, 0xef, 8] 0 (.nums [0]) = .ok [0, 0xbe, 0xef, 8] ∧
    myProtocol.newPacket [1, 2] = none := by decide +kernel

end Verif.Props
