import Verif.Proofs.ByteOrderStruct
import Verif.Props.Vectors

/-!
# Integers of any byte order (C12, C13, C54, C110)
-/

namespace Verif.Props
open Spec

/-! ## C110: fields -/

/-- **C110**. The setter of a field of any accepted width and byte order replaces exactly the bits of
the field, and puts in each the digit that `stored` says. -/
theorem C110_setter (p : Prim) (s co v : Nat) (buf : Buf) (hacc : p.accepted s = true)
    (hbuf : InBuffer buf co s p.size) :
    ∃ new, setPrim p s buf co v = .ok new ∧ new.length = buf.length ∧
      bitsOf new = (bitsOf buf).take (8 * co + s) ++ stored p s v ++
        (bitsOf buf).drop (8 * co + s + p.size) :=
  setPrim_stored (accepted_fits hacc) buf co v (inBuffer_bytes (accepted_fits hacc) hbuf)

example := C110_setter ⟨12, .little⟩ 2 1 0xABC [0, 0xFF, 0xFF] (by decide) (by decide)

/-- A twelve-bit little-endian field two bits into a byte: the low six digits come first. -/
example : setPrim ⟨12, .little⟩ 2 [0, 0xFF, 0xFF] 1 0xABC = .ok [0, 0b11111100, 0b10101011] ∧
    stored ⟨12, .little⟩ 2 0xABC = [true, true, true, true, false, false, true, false, true, false, true, false] := by
  decide

/-- **C110**. The getter reads the number made of the digits stored in the bits of the field. -/
theorem C110_getter (p : Prim) (s co : Nat) (buf : Buf) (hacc : p.accepted s = true)
    (hbuf : InBuffer buf co s p.size) :
    getPrim p s buf co = .ok (readFrom p s (bitSlice (bitsOf buf) (8 * co + s) p.size)) :=
  getPrim_readFrom (accepted_fits hacc) buf co (inBuffer_bytes (accepted_fits hacc) hbuf)

example := C110_getter ⟨12, .little⟩ 2 1 [0, 0b11111100, 0b10101011] (by decide) (by decide)

/-- A nine-bit little-endian field has no place for digit 8: the last bit is digit 8 only in a
big-endian field. -/
example : getPrim ⟨9, .little⟩ 0 [0x01, 0x80] 0 = .ok 3 ∧ readFrom ⟨9, .little⟩ 0
    [false, false, false, false, false, false, false, true, true] = 3 := by decide

/-- **C110**. In a big-endian field the digits are stored from the highest on. -/
theorem C110_big (n s v : Nat) (hacc : Prim.accepted ⟨n, .big⟩ s = true) :
    stored ⟨n, .big⟩ s v = toBits n v :=
  stored_big s v (by have := (accepted_fits hacc).2.2.1; dsimp only at this; omega)

example : stored ⟨5, .big⟩ 3 0b10110 = [true, false, true, true, false] := C110_big 5 3 _ (by decide)

/-- **C110**. In a little-endian field of whole bytes, byte `i` holds digits `8 i` to `8 i + 7`, the
highest first. -/
theorem C110_little (k v : Nat) (e : Endianness) (he : e = .little ∨ e = .host) (hk : k ≤ 8) (i j : Nat)
    (hi : i < k) (hj : j < 8) : (stored ⟨8 * k, e⟩ 0 v)[8 * i + j]? = some (v.testBit (8 * i + (7 - j))) := by
  have hd : digitAt e 0 (8 * k) (8 * i + j) = 8 * i + (7 - j) := by
    have h1 : (0 + (8 * i + j)) / 8 = i := by omega
    have h2 : (0 + 8 * k + 7) / 8 = k := by omega
    rcases he with rfl | rfl <;> simp only [digitAt, lowest, portionEnd, touched, h1, h2] <;> omega
  simp only [stored, List.getElem?_map]
  rw [List.getElem?_range (by omega)]
  simp only [Option.map_some, hd]
  rw [decide_eq_true (by omega), Bool.true_and]

example : bitsOf [0x34, 0x12] = stored ⟨16, .little⟩ 0 0x1234 ∧
    (stored ⟨16, .little⟩ 0 0x1234)[3]? = some ((0x1234 : Nat).testBit 4) :=
  ⟨by decide, C110_little 2 0x1234 .little (.inl rfl) (by decide) 0 3 (by decide) (by decide)⟩

/-- **C110**. A faithful field gives back what was stored, and storing what was read changes nothing. -/
theorem C110_faithful (p : Prim) (s : Nat) (hacc : p.accepted s = true) (hf : faithful p s = true) :
    (∀ v, readFrom p s (stored p s v) = v % 2 ^ p.size) ∧
    (∀ l, l.length = p.size → stored p s (readFrom p s l) = l) :=
  ⟨readFrom_stored (accepted_fits hacc) hf, stored_readFrom (accepted_fits hacc) hf⟩

example := C110_faithful ⟨12, .little⟩ 2 (by decide) (by decide)

/-- **C110**. Writing back the number read from a faithful field leaves the buffer as it is. -/
theorem C110_write_back (p : Prim) (s co : Nat) (buf : Buf) (hacc : p.accepted s = true)
    (hf : faithful p s = true) (hbuf : InBuffer buf co s p.size) :
    (getPrim p s buf co >>= fun v => setPrim p s buf co v) = .ok buf := by
  have hfit := accepted_fits hacc
  rw [C110_getter p s co buf hacc hbuf, ok_bind]
  obtain ⟨new, h1, _, h3⟩ := C110_setter p s co
    (readFrom p s (bitSlice (bitsOf buf) (8 * co + s) p.size)) buf hacc hbuf
  have hl : (bitSlice (bitsOf buf) (8 * co + s) p.size).length = p.size := by
    unfold InBuffer at hbuf
    simp [bitSlice]
    omega
  rw [h1]
  congr 1
  apply bitsOf_inj
  rw [h3, stored_readFrom hfit hf _ hl, bitSlice, List.append_assoc,
    show (bitsOf buf).drop (8 * co + s + p.size) = ((bitsOf buf).drop (8 * co + s)).drop p.size by
      rw [List.drop_drop], List.take_append_drop, List.take_append_drop]

example := C110_write_back ⟨12, .little⟩ 2 1 [0, 0b11111100, 0b10101011] (by decide) (by decide) (by decide)

/-- The condition is needed: a nine-bit little-endian field is changed by writing back what was read. -/
example : Prim.accepted ⟨9, .little⟩ 0 = true ∧ faithful ⟨9, .little⟩ 0 = false ∧
    (getPrim ⟨9, .little⟩ 0 [0x00, 0x80] 0 >>= fun v => setPrim ⟨9, .little⟩ 0 [0x00, 0x80] 0 v) =
      .ok [0x02, 0x80] := by decide

/-! ## C110: declarations -/

/-- A packet with little-endian fields. -/
def leSample : Decl :=
  ⟨[{ name := "a", ty := .prim ⟨4, .little⟩ }, { name := "b", ty := .prim ⟨8, .little⟩ },
    { name := "c", ty := .prim ⟨4, .little⟩ }, { name := "n", ty := .prim ⟨16, .little⟩ },
    fbytes "v" (lenNum 3 id), { name := "w", ty := .misc [⟨16, .little⟩, ⟨8, .big⟩] }]⟩

/-- **C110**. The byte order of the integers of a declaration only changes how their values are coded:
accessors, converters and sizes are those of the declaration with big-endian integers, with the values
recoded by `toBigAt` and `fromBigAt`. -/
theorem C110_same_as_big_endian (d : Decl) (hacc : d.accepted = true) (m : Mode) (buf : Buf) :
    (bigDecl d).accepted = true ∧ (bigDecl d).minSize = d.minSize ∧
    d.packetSize m buf = (bigDecl d).packetSize m buf ∧
    d.payload m buf = (bigDecl d).payload m buf ∧
    (∀ new, d.payloadMutCopy m buf new = (bigDecl d).payloadMutCopy m buf new) ∧
    (∀ k, d.getRaw m buf k = (bigDecl d).getRaw m buf k) ∧
    (∀ k, d.get m buf k = ((bigDecl d).get m buf k).map (fromBigAt d k)) ∧
    (∀ k v, d.set m buf k v = (bigDecl d).set m buf k (toBigAt d k v)) ∧
    (∀ vs, d.populate m buf (.list vs) = (bigDecl d).populate m buf (.list (toBigStruct d vs))) ∧
    d.fromPacket m buf = ((bigDecl d).fromPacket m buf).map fun
      | .list vs => .list (fromBigStruct d vs)
      | v => v := by
  have ha := accepted_fields hacc
  refine ⟨by rw [bigDecl_accepted]; exact hacc, bigDecl_minSize d, packetSize_recode d ha m buf,
    payload_recode d ha m buf, payloadMutCopy_recode d ha m buf, getRaw_recode d ha m buf,
    get_recode d ha m buf, set_recode d ha m buf, populate_recode d ha m buf, ?_⟩
  rw [fromPacket_recode d ha]
  unfold Decl.fromPacket
  cases ((bigDecl d).final m buf).vals.mapM id <;> rfl

example := C110_same_as_big_endian leSample (by decide) .debug
  [0x12, 0x34, 0x02, 0x00, 0xAA, 0xBB, 0x01, 0x02, 0x03]

/-- The length of the vector is the little-endian number `2`. -/
example : leSample.get .debug [0x12, 0x34, 0x02, 0x00, 0xAA, 0xBB, 0x01, 0x02, 0x03] 4 = .ok (.nums [0xAA, 0xBB]) ∧
    leSample.get .debug [0x12, 0x34, 0x02, 0x00, 0xAA, 0xBB, 0x01, 0x02, 0x03] 5 = .ok (.nums [0x201, 3]) ∧
    (bigDecl leSample).get .debug [0x12, 0x34, 0x02, 0x00, 0xAA, 0xBB, 0x01, 0x02, 0x03] 5 =
      .ok (.nums [0x102, 3]) := by decide

theorem plain_big {f : Field} (d : Decl) (h : isFixed f = true) : plainTy (bigField d f).ty = true := by
  cases hty : f.ty <;> simp_all [bigField, bigTy, plainTy, isFixed, Ty.isVec]

theorem fixed_big (d : Decl) (k : Nat) :
    ((bigDecl d).fields.take k).all isFixed = (d.fields.take k).all isFixed := by
  rw [bigDecl_fields, ← List.map_take, List.all_map]
  congr 1
  funext f
  cases hty : f.ty <;> cases hl : f.len <;> simp [isFixed, bigField, hty, hl, bigTy, Ty.isVec]

theorem fixedBits_big (d : Decl) (k : Nat) :
    fixedBits ((bigDecl d).fields.take k) = fixedBits (d.fields.take k) := by
  rw [fixedBits_eq, fixedBits_eq, bigDecl_fields, ← List.map_take]
  unfold bitsSum
  rw [List.map_map]
  congr 1
  apply List.map_congr_left
  intro f _
  simp [bigField, bigTy_bits]

theorem newPacket_big (d : Decl) (buf : Buf) : ((bigDecl d).newPacket buf).isSome = (d.newPacket buf).isSome := by
  simp only [Decl.newPacket, bigDecl_minSize]

theorem fixed_field {d : Decl} {k : Nat} {f : Field} (hf : d.fields[k]? = some f)
    (hfix : (d.fields.take (k + 1)).all isFixed = true) : isFixed f = true := by
  refine List.all_eq_true.mp hfix f (List.mem_of_getElem? (i := k) ?_)
  rw [List.getElem?_take_of_lt (by omega), hf]

theorem bitOf_fixed (d : Decl) (k : Nat) : bitOf d k = fixedBits (d.fields.take k) := by
  rw [fixedBits_eq]; rfl

/-- **C110** for a field of a declaration: setting a fixed-size field that only fixed-size fields
precede replaces exactly its bits by those of the value in the field's byte order. -/
theorem C110_declared_setter (d : Decl) (hacc : d.accepted = true) (k : Nat) (f : Field)
    (hf : d.fields[k]? = some f) (hfix : (d.fields.take (k + 1)).all isFixed = true) (m : Mode) (w : Wire)
    (v : Val) (hv : typed w f.ty v) (buf : Buf) (hsl : SliceLen buf.length)
    (hnew : (d.newPacket buf).isSome = true) :
    ∃ new, d.set m buf k v = .ok new ∧ new.length = buf.length ∧
      bitsOf new = (bitsOf buf).take (fixedBits (d.fields.take k)) ++
        storedField w (fixedBits (d.fields.take k)) f.ty v ++
        (bitsOf buf).drop (fixedBits (d.fields.take k) + (intWidths f.ty).sum) := by
  have hg : (bigDecl d).fields[k]? = some (bigField d f) := by rw [bigDecl_get?, hf]; rfl
  have hiw : intWidths (bigField d f).ty = intWidths f.ty := by
    cases hty : f.ty <;> simp [bigField, hty, bigTy, intWidths]
  obtain ⟨new, h1, h2, h3⟩ := C03_declared_setter (bigDecl d) (by rw [bigDecl_accepted]; exact hacc) k
    (bigField d f) hg (by rw [fixed_big]; exact hfix) (plain_big d (fixed_field hf hfix)) m w
    (toBigVal (bitOf d k) f.ty v) (typed_toBig hv) buf hsl (by rw [newPacket_big]; exact hnew)
  refine ⟨new, ?_, h2, ?_⟩
  · rw [set_recode d (accepted_fields hacc), toBigAt, hf]
    exact h1
  · rw [fixedBits_big, hiw, show (bigField d f).ty = bigTy f.ty from rfl, encField_toBig, bitOf_fixed] at h3
    exact h3

example := C110_declared_setter leSample (by decide) 1 _ rfl (by decide) .debug (noInner 0) (.num 0x5A) trivial
  (List.replicate 9 0) (by decide) (by decide)

/-- **C110** for an integer field of a declaration: the getter reads the number stored in the field's
bits. -/
theorem C110_declared_getter (d : Decl) (hacc : d.accepted = true) (k : Nat) (f : Field) (p : Prim)
    (hf : d.fields[k]? = some f) (hty : f.ty = .prim p)
    (hfix : (d.fields.take (k + 1)).all isFixed = true) (m : Mode) (buf : Buf)
    (hnew : (d.newPacket buf).isSome = true) :
    d.get m buf k = .ok (.num (readFrom p (fixedBits (d.fields.take k) % 8)
      (bitSlice (bitsOf buf) (fixedBits (d.fields.take k)) p.size))) := by
  have hg : (bigDecl d).fields[k]? = some (bigField d f) := by rw [bigDecl_get?, hf]; rfl
  have h := C07_fixed_getter_value (bigDecl d) (by rw [bigDecl_accepted]; exact hacc) k
    (bigField d f) hg (by rw [fixed_big]; exact hfix) (plain_big d (fixed_field hf hfix)) m buf
    (by rw [newPacket_big]; exact hnew)
  rw [get_recode d (accepted_fields hacc), h, fixedBits_big]
  simp only [Except.map, fromBigAt, hf, hty, bigField, bigTy, decodeFixed, fromBigVal, fromBig, bitOf_fixed]
  have hl : (bitSlice (bitsOf buf) (fixedBits (d.fields.take k)) p.size).length = p.size := by
    have hb := new_bits hnew
    have hle := bitsSum_field_le hf
    rw [hty, Ty.bits] at hle
    rw [fixedBits_eq]
    simp [bitSlice]
    omega
  have := toBits_ofBits (bitSlice (bitsOf buf) (fixedBits (d.fields.take k)) p.size)
  rw [hl] at this
  rw [this]

example := C110_declared_getter leSample (by decide) 3 _ _ rfl rfl (by decide) .debug
  [0x12, 0x34, 0x02, 0x00, 0xAA, 0xBB, 0x01, 0x02, 0x03] (by decide)

/-- **C110** for a field of a declaration, with `C02`: after `set_<field>(v)`, the getter of a faithful
field returns `v` with its integers reduced to their widths. -/
theorem C110_declared_set_then_get (d : Decl) (hacc : d.accepted = true) (k : Nat) (f : Field)
    (hf : d.fields[k]? = some f) (hfix : (d.fields.take (k + 1)).all isFixed = true)
    (hfa : faithfulTy (fixedBits (d.fields.take k)) f.ty = true) (m : Mode) (w : Wire) (v : Val)
    (hv : typed w f.ty v) (buf : Buf) (hsl : SliceLen buf.length) (hnew : (d.newPacket buf).isSome = true) :
    ∃ new, d.set m buf k v = .ok new ∧ d.get m new k = .ok (normField w f.ty v) := by
  have hg : (bigDecl d).fields[k]? = some (bigField d f) := by rw [bigDecl_get?, hf]; rfl
  have ha := accepted_fields hacc
  obtain ⟨new, h1, h2⟩ := C02_declared_set_then_get (bigDecl d) (by rw [bigDecl_accepted]; exact hacc) k
    (bigField d f) hg (by rw [fixed_big]; exact hfix) (plain_big d (fixed_field hf hfix)) m w
    (toBigVal (bitOf d k) f.ty v) (typed_toBig hv) buf hsl (by rw [newPacket_big]; exact hnew)
  refine ⟨new, ?_, ?_⟩
  · rw [set_recode d ha, toBigAt, hf]
    exact h1
  · rw [get_recode d ha, h2]
    have hacc' := acceptedFields_get ha hf
    rw [Nat.zero_add, ← bitOf_eq] at hacc'
    rw [← bitOf_fixed] at hfa
    simp only [Except.map, fromBigAt, hf]
    rw [show (bigField d f).ty = bigTy f.ty from rfl, fromBigVal_norm hv hacc' hfa]

example := C110_declared_set_then_get leSample (by decide) 1 _ rfl (by decide) (by decide) .debug (noInner 0)
  (.num 0x5A) trivial (List.replicate 9 0) (by decide) (by decide)

/-! ## C54 -/

/-- **C54** for fields of any byte order: setters of two fields with disjoint bits commute. -/
theorem C54_setters_commute_any_order (p p' : Prim) (s co v s' co' v' : Nat) (buf : Buf)
    (hacc : p.accepted s = true) (hbuf : InBuffer buf co s p.size)
    (hacc' : p'.accepted s' = true) (hbuf' : InBuffer buf co' s' p'.size)
    (hdisj : 8 * co + s + p.size ≤ 8 * co' + s') :
    (setPrim p s buf co v >>= fun b => setPrim p' s' b co' v') =
    (setPrim p' s' buf co' v' >>= fun b => setPrim p s b co v) := by
  have h := fun b => setPrim_recode (accepted_fits hacc) b co v
  have h' := fun b => setPrim_recode (accepted_fits hacc') b co' v'
  simp only [h, h']
  exact C54_setters_commute _ _ _ _ _ _ _ _ _ (by rw [accepted_endian p.size p.endian]; exact hacc) hbuf
    (by rw [accepted_endian p'.size p'.endian]; exact hacc') hbuf' hdisj

example := C54_setters_commute_any_order ⟨9, .little⟩ ⟨7, .host⟩ 0 0 0x1FF 1 1 0x55 [0x12, 0x34] (by decide)
  (by decide) (by decide) (by decide) (by decide)

/-- **C54** for fields of any byte order, second half: setting one field leaves the getter of the other
unchanged. -/
theorem C54_other_getter_any_order (p p' : Prim) (s co v s' co' : Nat) (buf : Buf)
    (hacc : p.accepted s = true) (hbuf : InBuffer buf co s p.size)
    (hacc' : p'.accepted s' = true) (hbuf' : InBuffer buf co' s' p'.size)
    (hdisj : 8 * co + s + p.size ≤ 8 * co' + s' ∨ 8 * co' + s' + p'.size ≤ 8 * co + s) :
    ∃ new, setPrim p s buf co v = .ok new ∧ getPrim p' s' new co' = getPrim p' s' buf co' := by
  obtain ⟨new, h1, h2⟩ := C54_other_getter_unchanged p.size s co (ofBits (stored p s v)) p'.size s' co' buf
    (by rw [accepted_endian p.size p.endian]; exact hacc) hbuf
    (by rw [accepted_endian p'.size p'.endian]; exact hacc') hbuf' hdisj
  refine ⟨new, by rw [setPrim_recode (accepted_fits hacc)]; exact h1, ?_⟩
  rw [getPrim_recode (accepted_fits hacc') new, getPrim_recode (accepted_fits hacc') buf, h2]

example := C54_other_getter_any_order ⟨9, .little⟩ ⟨7, .host⟩ 0 0 0x1FF 1 1 [0x12, 0x34] (by decide)
  (by decide) (by decide) (by decide) (by decide)

/-- **C54** for two fields of a declaration, whatever their byte orders: their setters commute. -/
theorem C54_declared_setters_commute_any_order (d : Decl) (hacc : d.accepted = true) (j k : Nat) (hjk : j < k)
    (f g : Field) (hf : d.fields[j]? = some f) (hg : d.fields[k]? = some g)
    (hfix : (d.fields.take (k + 1)).all isFixed = true) (m : Mode) (w w' : Wire) (v v' : Val)
    (hv : typed w f.ty v) (hv' : typed w' g.ty v') (buf : Buf)
    (hsl : SliceLen buf.length) (hnew : (d.newPacket buf).isSome = true) :
    (d.set m buf j v >>= fun b => d.set m b k v') = (d.set m buf k v' >>= fun b => d.set m b j v) := by
  have ha := accepted_fields hacc
  have hfixj : (d.fields.take (j + 1)).all isFixed = true := by
    have : d.fields.take (j + 1) = (d.fields.take (k + 1)).take (j + 1) := by
      rw [List.take_take, Nat.min_eq_left (by omega)]
    rw [this, List.all_eq_true]
    intro x hx
    exact List.all_eq_true.mp hfix x (List.mem_of_mem_take hx)
  simp only [set_recode d ha, toBigAt, hf, hg]
  exact C54_declared_setters_commute (bigDecl d) (by rw [bigDecl_accepted]; exact hacc) j k hjk
    (bigField d f) (bigField d g) (by rw [bigDecl_get?, hf]; rfl) (by rw [bigDecl_get?, hg]; rfl)
    (by rw [fixed_big]; exact hfix) (plain_big d (fixed_field hf hfixj)) (plain_big d (fixed_field hg hfix)) m
    w w' _ _ (typed_toBig hv) (typed_toBig hv') buf hsl (by rw [newPacket_big]; exact hnew)

example := C54_declared_setters_commute_any_order leSample (by decide) 1 3 (by decide) _ _ rfl rfl (by decide)
  .debug (noInner 0) (noInner 0) (.num 0x5A) (.num 0x1234) trivial trivial (List.replicate 9 0) (by decide) (by decide)

/-- **C54**, declared fields of any byte order: setting one does not change what the getter of another
returns. -/
theorem C54_declared_other_getter_any_order (d : Decl) (hacc : d.accepted = true) (j k : Nat) (hjk : j ≠ k)
    (f g : Field) (hf : d.fields[j]? = some f) (hg : d.fields[k]? = some g)
    (hfixj : (d.fields.take (j + 1)).all isFixed = true)
    (hfixk : (d.fields.take (k + 1)).all isFixed = true) (m : Mode) (w : Wire) (v : Val)
    (hv : typed w f.ty v) (buf : Buf)
    (hsl : SliceLen buf.length) (hnew : (d.newPacket buf).isSome = true) :
    ∃ new, d.set m buf j v = .ok new ∧ d.get m new k = d.get m buf k := by
  have ha := accepted_fields hacc
  obtain ⟨new, h1, h2⟩ := C54_declared_other_getter (bigDecl d) (by rw [bigDecl_accepted]; exact hacc) j k hjk
    (bigField d f) (bigField d g) (by rw [bigDecl_get?, hf]; rfl) (by rw [bigDecl_get?, hg]; rfl)
    (by rw [fixed_big]; exact hfixj) (by rw [fixed_big]; exact hfixk)
    (plain_big d (fixed_field hf hfixj)) (plain_big d (fixed_field hg hfixk)) m
    w (toBigVal (bitOf d j) f.ty v) (typed_toBig hv) buf hsl (by rw [newPacket_big]; exact hnew)
  refine ⟨new, ?_, ?_⟩
  · simp only [set_recode d ha, toBigAt, hf]
    exact h1
  · rw [get_recode d ha, get_recode d ha m buf, h2]

example := C54_declared_other_getter_any_order leSample (by decide) 3 0 (by decide) _ _ rfl rfl (by decide)
  (by decide) .debug (noInner 0) (.num 0x1234) trivial (List.replicate 9 0) (by decide) (by decide)

/-! ## C12, C13 -/

/-- Full statement of **C13**, with every integer in its byte order. -/
def C13_statement : Prop :=
  ∀ (d : Decl) (m : Mode) (E : Nat → Wire) (vs : List Val) (buf : Buf), d.accepted = true →
    LawfulElems m E d → typedFields E 0 d.fields vs → lensAgree m E 0 [] d.fields vs →
    SliceLen buf.length → (storedFields E 0 0 d.fields vs).length ≤ 8 * buf.length →
    ∃ new, d.populate m buf (.list vs) = .ok new ∧
      bitsOf new = storedFields E 0 0 d.fields vs ++ (bitsOf buf).drop (storedFields E 0 0 d.fields vs).length

/-- C13 is false: a vector behind a `u4` field is written over it. -/
theorem C13_false : ¬ C13_statement := by
  intro h
  obtain ⟨new, h1, h2⟩ := h ⟨[fprim "x" 4, frest "v"]⟩ .debug noInner [.num 0xF, .nums [0x2B]] [0, 0]
    (by decide) (by
      intro i f c hf hc
      match i, hf with
      | 0, hf | 1, hf => cases hf; cases hc
      | n + 2, hf => simp at hf)
    (by simp [typedFields, typed, fprim, frest]) (by simp [lensAgree, fprim, frest]) (by decide) (by decide)
  have h3 : new = [0x2B, 0] := by
    have : Decl.populate ⟨[fprim "x" 4, frest "v"]⟩ .debug [0, 0] (.list [.num 0xF, .nums [0x2B]]) =
        .ok [0x2B, 0] := by decide
    rw [this] at h1
    injection h1 with h1
    exact h1.symm
  subst h3
  revert h2
  decide

/-- **C13** for integers of any byte order: `populate` stores the encodings of the fields, every integer
in its byte order, and leaves the rest of the buffer unchanged. The lengths are those which the length
expressions compute from the values as they are read back. Missing: vectors that do not start on a byte
boundary (`C13_false`), and the other conditions of `regular`. -/
theorem C13_byte_orders_partial (d : Decl) (m : Mode) (E : Nat → Wire) (hacc : d.accepted = true)
    (hreg : regular (bigDecl d) = true) (hlaw : LawfulElems m E d) (vs : List Val)
    (htyped : typedFields E 0 d.fields vs)
    (hlens : lensAgree m E 0 [] (bigDecl d).fields (toBigStruct d vs))
    (buf : Buf) (hsl : SliceLen buf.length)
    (hfit : (storedFields E 0 0 d.fields vs).length ≤ 8 * buf.length) :
    ∃ new, d.populate m buf (.list vs) = .ok new ∧ new.length = buf.length ∧
      bitsOf new = storedFields E 0 0 d.fields vs ++
        (bitsOf buf).drop (storedFields E 0 0 d.fields vs).length :=
  populate_stored hreg (accepted_fields hacc) hlaw htyped hlens buf hsl hfit

/-- Full statement of **C12**. -/
def C12_statement : Prop :=
  ∀ (d : Decl) (m : Mode) (E : Nat → Wire) (vs : List Val) (buf : Buf), d.accepted = true →
    LawfulElems m E d → typedFields E 0 d.fields vs → lensAgree m E 0 [] d.fields vs →
    SliceLen buf.length → (encFields E 0 d.fields vs).length ≤ 8 * buf.length →
    (closed d = true ∨ (encFields E 0 d.fields vs).length = 8 * buf.length) →
    ∃ new, d.populate m buf (.list vs) = .ok new ∧
      d.fromPacket m new = .ok (.list (normFields E 0 d.fields vs))

/-- C12 is false: a `u9le` field does not give back 256. -/
theorem C12_false : ¬ C12_statement := by
  intro h
  obtain ⟨new, h1, h2⟩ := h ⟨[{ name := "x", ty := .prim ⟨9, .little⟩ }, fprim "y" 7]⟩ .debug noInner
    [.num 256, .num 0] [0, 0] (by decide) (by
      intro i f c hf hc
      match i, hf with
      | 0, hf | 1, hf => cases hf; cases hc
      | n + 2, hf => simp at hf)
    (by simp [typedFields, typed, fprim]) (by simp [lensAgree, fprim]) (by decide) (by decide) (.inl (by decide))
  have h3 : Decl.populate ⟨[{ name := "x", ty := .prim ⟨9, .little⟩ }, fprim "y" 7]⟩ .debug [0, 0]
      (.list [.num 256, .num 0]) = .ok [0, 0] := by decide
  rw [h3] at h1
  injection h1 with h1
  subst h1
  revert h2
  decide

/-- **C12** for integers of any faithful byte order: after `populate`, `from_packet` returns the struct,
with integers reduced to their field widths. Missing: integers whose byte order has no place for every
digit (`C12_false`), and the other conditions of `regular`, among them vectors that do not start on a
byte boundary. -/
theorem C12_byte_orders_partial (d : Decl) (m : Mode) (E : Nat → Wire) (hacc : d.accepted = true)
    (hreg : regular (bigDecl d) = true) (hfa : faithfulFields 0 d.fields = true) (hlaw : LawfulElems m E d)
    (vs : List Val) (htyped : typedFields E 0 d.fields vs) (hlens : lensAgree m E 0 [] d.fields vs)
    (buf : Buf) (hsl : SliceLen buf.length)
    (hfit : (encFields E 0 d.fields vs).length ≤ 8 * buf.length)
    (hopen : closed d = true ∨ (encFields E 0 d.fields vs).length = 8 * buf.length) :
    ∃ new, d.populate m buf (.list vs) = .ok new ∧
      d.fromPacket m new = .ok (.list (normFields E 0 d.fields vs)) := by
  have ha := accepted_fields hacc
  rw [← storedFields_length (bit := 0) htyped] at hfit hopen
  obtain ⟨new, h1, h2, h3⟩ := populate_stored hreg ha hlaw htyped
    (lensAgree_bigDecl ha hfa htyped hlens) buf hsl hfit
  refine ⟨new, h1, fromPacket_stored hreg ha hfa hlaw htyped hlens (by rw [h2]; exact hsl) h3 ?_⟩
  rcases hopen with h | h
  · exact .inl h
  · exact .inr (by rw [List.drop_eq_nil_of_le (by rw [bitsOf_length]; omega)])

theorem leSample_lawful (m : Mode) : LawfulElems m noInner leSample := by
  intro i f c hf hc
  match i, hf with
  | 0, hf | 1, hf | 2, hf | 3, hf | 4, hf | 5, hf => cases hf; cases hc
  | n + 6, hf => simp [leSample] at hf

example : ∃ new, leSample.populate .debug (List.replicate 9 0)
      (.list [.num 0x1A, .num 0xBC, .num 2, .num 0x20002, .nums [7, 8], .nums [0x1234, 9]]) = .ok new ∧
    leSample.fromPacket .debug new =
      .ok (.list [.num 0xA, .num 0xBC, .num 2, .num 2, .nums [7, 8], .nums [0x1234, 9]]) := by
  refine C12_byte_orders_partial leSample .debug noInner (by decide) (by decide) (by decide) (leSample_lawful _)
    [.num 0x1A, .num 0xBC, .num 2, .num 0x20002, .nums [7, 8], .nums [0x1234, 9]] ?_ ?_ _ (by decide) (by decide)
    (.inl (by decide))
  · simp [typedFields, typed, leSample, fbytes]
  · simp [lensAgree, leSample, fbytes, lenNum, env, normField, Val.asNum, encField]

example : ∃ new, leSample.populate .debug (List.replicate 9 0)
      (.list [.num 0xA, .num 0xBC, .num 2, .num 2, .nums [7, 8], .nums [0x1234, 9]]) = .ok new ∧
    new.length = 9 ∧ bitsOf new = bitsOf [0xAC, 0xB2, 2, 0, 7, 8, 0x34, 0x12, 9] := by
  have := C13_byte_orders_partial leSample .debug noInner (by decide) (by decide) (leSample_lawful _)
    [.num 0xA, .num 0xBC, .num 2, .num 2, .nums [7, 8], .nums [0x1234, 9]]
    (by simp [typedFields, typed, leSample, fbytes])
    (lensAgree_bigDecl (by decide) (by decide) (by simp [typedFields, typed, leSample, fbytes])
      (by simp [lensAgree, leSample, fbytes, lenNum, env, normField, Val.asNum, encField]))
    (List.replicate 9 0) (by decide) (by decide)
  exact this

end Verif.Props
