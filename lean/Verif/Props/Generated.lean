import Verif.Proofs.Sizes
import Verif.Props.Fields
import Verif.Model.Protocols

/-!
# Generated packet types, arbitrary declarations
(C06, C07, C08, C10, C12 - C16, C19 - C21, C53, C54, C56, C57)
-/

namespace Verif.Props
open Spec

/-- A small declaration used in the examples: `u4`, `u12be`, a length byte, a `Vec<u8>` of that
length and an open-ended payload. -/
def sample : Decl := ⟨[fprim "a" 4, fprim "b" 12, fprim "n" 8, fbytes "v" (lenNum 2 id),
  fpayloadRest "p"]⟩

/-! ## C06 -/

/-- **C06**. `new`/`owned` of both packet types succeed exactly when the bits of the fixed-size
fields fit into the buffer, and the packet wraps the given bytes. -/
theorem C06_new_iff (d : Decl) (buf : Buf) :
    ((d.newPacket buf).isSome = true ↔ fixedBits d.fields ≤ 8 * buf.length) ∧
    ((d.ownedPacket buf).isSome = true ↔ fixedBits d.fields ≤ 8 * buf.length) ∧
    ((d.newMutPacket buf).isSome = true ↔ fixedBits d.fields ≤ 8 * buf.length) ∧
    ((d.ownedMutPacket buf).isSome = true ↔ fixedBits d.fields ≤ 8 * buf.length) ∧
    (∀ p, d.newPacket buf = some p ∨ d.ownedPacket buf = some p → p.asSlice = buf) ∧
    (∀ p, d.newMutPacket buf = some p ∨ d.ownedMutPacket buf = some p → p.asSlice = buf) := by
  have hb := minSize_bits d
  have hf := fixedBits_eq d.fields
  have hd : d.bits = bitsSum d.fields := rfl
  have key : buf.length ≥ d.minSize ↔ fixedBits d.fields ≤ 8 * buf.length := by omega
  simp only [Decl.newPacket, Decl.ownedPacket, Decl.newMutPacket, Decl.ownedMutPacket]
  refine ⟨?_, ?_, ?_, ?_, ?_, ?_⟩
  · rw [← key]; split <;> rename_i h <;> simp [h]
  · rw [← key]; split <;> rename_i h <;> simp [h]
  · rw [← key]; split <;> rename_i h <;> simp [h]
  · rw [← key]; split <;> rename_i h <;> simp [h]
  · rintro p (h | h) <;> split at h <;> cases h <;> rfl
  · rintro p (h | h) <;> split at h <;> cases h <;> rfl

example : (sample.newPacket [1, 2, 3]).isSome = true := (C06_new_iff sample [1, 2, 3]).1.mpr (by decide)

/-- **C06**, `minimum_packet_size()` is the number of bytes needed for the fixed-size fields. -/
theorem C06_minimum_packet_size (d : Decl) (n : Nat) :
    d.minSize ≤ n ↔ fixedBits d.fields ≤ 8 * n := by
  have hb := minSize_bits d
  have hf := fixedBits_eq d.fields
  have hd : d.bits = bitsSum d.fields := rfl
  omega

example : sample.minSize ≤ 3 := (C06_minimum_packet_size sample 3).mpr (by decide)

/-- **C06** for the packets inside other types (elements of vectors, QUIC packets and frames), of
which the model keeps the bytes only. -/
theorem C06_new_bytes (d : Decl) (buf : Buf) :
    (fixedBits d.fields ≤ 8 * buf.length → d.new buf = some buf) ∧
    (8 * buf.length < fixedBits d.fields → d.new buf = none) := by
  have hb := C06_minimum_packet_size d buf.length
  unfold Decl.new
  exact ⟨fun h => if_pos (hb.mpr h), fun h => if_neg fun hc => by have := hb.mp hc; omega⟩

example : sample.new [1, 2, 3] = some [1, 2, 3] ∧ sample.new [1, 2] = none := by decide

example : sample.minSize = 3 ∧ (sample.newPacket [1, 2, 3]).isSome = true ∧
    sample.newPacket [1, 2] = none := by decide

/-! ## C07 -/

/-- Neither a vector nor given a `#[length]` (the shape of header fields). -/
def isFixed (f : Field) : Bool := !f.ty.isVec && f.len.isNone

/-- **C07**. The getter of a fixed-size field that only fixed-size fields precede returns on every
buffer accepted by `new`. -/
theorem C07_fixed_getters_total (d : Decl) (hacc : d.accepted = true) (k : Nat)
    (hk : k < d.fields.length) (hfix : (d.fields.take (k + 1)).all isFixed = true) (m : Mode)
    (buf : Buf) (hsl : SliceLen buf.length) (hnew : (d.newPacket buf).isSome = true) :
    ∃ v, d.get m buf k = .ok v := by
  have hmin : d.minSize ≤ buf.length := by
    simp only [Decl.newPacket] at hnew
    split at hnew
    · assumption
    · simp at hnew
  simp only [Decl.accepted, Bool.and_eq_true] at hacc
  exact get_fixed_ok hacc.1 (List.getElem?_eq_getElem hk) hfix m buf hsl hmin

example : ∃ v, sample.get .debug [0xAB, 0xCD, 0x00] 2 = .ok v :=
  C07_fixed_getters_total sample (by decide) 2 (by decide) (by decide) .debug _ (by decide) (by decide)

/-- **C07** with the value: a big-endian field is read from the bits after the earlier fields. -/
theorem C07_fixed_getter_value (d : Decl) (hacc : d.accepted = true) (k : Nat) (f : Field)
    (hf : d.fields[k]? = some f) (hfix : (d.fields.take (k + 1)).all isFixed = true)
    (hbig : plainTy f.ty = true) (m : Mode) (buf : Buf)
    (hnew : (d.newPacket buf).isSome = true) :
    d.get m buf k = .ok (decodeFixed (bitsOf buf) (fixedBits (d.fields.take k)) f.ty) := by
  have hmin : d.minSize ≤ buf.length := by
    simp only [Decl.newPacket] at hnew
    split at hnew
    · assumption
    · simp at hnew
  simp only [Decl.accepted, Bool.and_eq_true] at hacc
  have hb := minSize_bits d
  have hle := bitsSum_field_le hf
  have hd : d.bits = bitsSum d.fields := rfl
  rw [fixedBits_eq]
  exact get_fixed_big hacc.1 hf hfix hbig m buf (by omega)

example : sample.accepted = true ∧ (sample.fields.take 3).all isFixed = true ∧
    sample.get .debug [0xAB, 0xCD, 0x00] 1 = .ok (.num 0xBCD) := by decide

/-! ## C08 -/

/-- **C08**. When the length expressions evaluate (to `sizes` before the payload and `len` for the
payload, `self.packet.len()` if it has none) and the end of the payload does not overflow,
`payload()` returns the bytes from the payload offset on, at most `len` of them; in particular the
empty slice when the offset is at or past the end of the buffer. -/
theorem C08_payload_total (d : Decl) (m : Mode) (buf : Buf) (k : Nat) (f : Field)
    (hk : d.payloadIdx = some k) (hf : d.fields[k]? = some f) (sizes : List Nat) (len : Nat)
    (hsizes : Sizes d m buf k sizes) (hlen : HasLength d m buf k sizes f len)
    (hov : startOf d k sizes + len < 2 ^ 64) :
    d.payload m buf = .ok ((buf.drop (startOf d k sizes)).take len) := by
  have hkl : k < d.fields.length := (List.getElem?_eq_some_iff.mp hf).1
  have hs := sizes_lens hsizes (by omega)
  rw [← fieldLen_iff (by omega) hs (by omega)] at hlen
  rw [startOf_eq] at *
  exact payload_eq hk hf hs hlen hov

example := C08_payload_total sample .debug [0, 0, 2, 7, 8, 9] 4 _ rfl rfl [2] 6
  (.sized (sizes := []) (.plain (.plain (.plain .nil rfl rfl) rfl rfl) rfl rfl) rfl rfl (by decide)) rfl
  (by decide)

/-- **C08**, a packet without payload field has an empty payload. -/
theorem C08_no_payload (d : Decl) (m : Mode) (buf : Buf) (hk : d.payloadIdx = none) :
    d.payload m buf = .ok [] := by
  rw [Decl.payload, Decl.payloadBounds, hk]
  dsimp only
  rw [ok_bind]
  dsimp only
  split
  · rfl
  · rw [slice, if_pos (by omega)]; rfl

example : (⟨[fprim "a" 8]⟩ : Decl).payload .debug [1, 2] = .ok [] :=
  C08_no_payload ⟨[fprim "a" 8]⟩ .debug [1, 2] rfl

/-- Conversely `payload()` fails in the same way as the first length expression that fails (that of
the payload or of a field before it). -/
theorem C08_length_fails (d : Decl) (m : Mode) (buf : Buf) (k j : Nat) (f : Field) (e : LenExpr)
    (hk : d.payloadIdx = some k) (hjk : j ≤ k) (hkl : k < d.fields.length) (hf : d.fields[j]? = some f)
    (he : f.len = some e) (sizes : List Nat) (hsizes : Sizes d m buf j sizes)
    (hov : startOf d k sizes < 2 ^ 64) (x : Fail)
    (hx : evalLength d m buf j sizes e = .error x) : d.payload m buf = .error x := by
  have hjl : j < d.fields.length := (List.getElem?_eq_some_iff.mp hf).1
  have hmono := startOf_mono (d := d) hjk sizes []
  rw [List.append_nil] at hmono
  have hs := sizes_lens hsizes (by omega)
  rw [← lenExpr_eq (by omega) hs (by omega)] at hx
  rw [startOf_eq] at hov
  exact payload_fails hk hkl hjk hf he hs hov hx

/-- The length of an NDP option with length byte 32 overflows (C36). -/
example : ndpOption.payload .debug [1, 32] = panic :=
  C08_length_fails ndpOption .debug [1, 32] 2 2 _ _ rfl (by decide) (by decide) rfl rfl []
    (.plain (.plain .nil rfl rfl) rfl rfl) (by decide) _ (by decide)

/-- The sizes of the fields of `sample` in a packet with two bytes of `v`. -/
example : Sizes sample .debug [0, 0, 2, 7, 8, 9] 4 [2] :=
  .sized (sizes := []) (.plain (.plain (.plain .nil rfl rfl) rfl rfl) rfl rfl) rfl rfl (by decide)

example : sample.payloadIdx = some 4 ∧ startOf sample 4 [2] = 5 ∧
    sample.payload .debug [0, 0, 2, 7, 8, 9] = .ok [9] ∧
    sample.payload .debug [0, 0, 200, 7, 8, 9] = .ok [] := by decide

/-! ## C63 -/

/-- **C63**. `payload_mut()` is the slice `payload()` returns: overwriting it replaces exactly these
bytes and keeps those before and behind; it panics when `payload()` does. (Overwriting a slice with
`copy_from_slice` panics when the lengths differ.) -/
theorem C63_payload_mut (d : Decl) (m : Mode) (buf new : Buf) :
    (∀ p, d.payload m buf = .ok p → ∃ pre post, buf = pre ++ p ++ post ∧
      (new.length = p.length → d.payloadMutCopy m buf new = .ok (pre ++ new ++ post)) ∧
      (new.length ≠ p.length → d.payloadMutCopy m buf new = panic)) ∧
    (∀ e, d.payload m buf = .error e → d.payloadMutCopy m buf new = .error e) := by
  unfold Decl.payload Decl.payloadMutCopy
  cases d.payloadBounds m buf with
  | error e => exact ⟨fun p h => (by cases h), fun e h => (by cases h; rfl)⟩
  | ok ab =>
    obtain ⟨a, b⟩ := ab
    simp only [ok_bind]
    by_cases ha : buf.length ≤ a
    · simp only [if_pos ha]
      refine ⟨fun p h => ?_, fun e h => (by cases h)⟩
      cases h
      refine ⟨buf, [], by simp, fun hn => ?_, fun hn => if_neg hn⟩
      have hn : new = [] := List.length_eq_zero_iff.mp hn
      subst hn
      simp
    · simp only [if_neg ha]
      unfold slice
      by_cases hab : a ≤ b ∧ b ≤ buf.length
      · simp only [if_pos hab, ok_bind]
        refine ⟨fun p h => ?_, fun e h => (by cases h)⟩
        cases h
        have hlen : ((buf.take b).drop a).length = b - a := by
          rw [List.length_drop, List.length_take]; omega
        have hsplit : buf = buf.take a ++ (buf.take b).drop a ++ buf.drop b := by
          have h1 : buf.take a = (buf.take b).take a := by rw [List.take_take, Nat.min_eq_left hab.1]
          rw [h1, List.take_append_drop, List.take_append_drop]
        refine ⟨buf.take a, buf.drop b, hsplit, fun hn => ?_, fun hn => if_neg hn⟩
        rw [if_pos hn, copyInto, if_pos (by omega)]
        congr 3
        omega
      · simp only [if_neg hab]
        exact ⟨fun p h => (by cases h), fun e h => (by cases h; rfl)⟩

example : sample.payload .debug [0, 0, 2, 7, 8, 9, 9] = .ok [9, 9] ∧
    sample.payloadMutCopy .debug [0, 0, 2, 7, 8, 9, 9] [5, 6] = .ok [0, 0, 2, 7, 8, 5, 6] ∧
    sample.payloadMutCopy .debug [0, 0, 2, 7, 8, 9, 9] [5] = panic := by decide

/-! ## C10, generic part -/

/-- **C10**, exact condition for the raw getter of a variable-length field: it returns the field's
bytes when its offset is inside the buffer and panics when the offset is past the end. Missing from
the full claim: the second case, which crafted packets reach (`C10_false`). -/
theorem C10_raw_getter_partial (d : Decl) (m : Mode) (buf : Buf) (k : Nat) (f : Field)
    (hf : d.fields[k]? = some f) (sizes : List Nat) (len : Nat)
    (hsizes : Sizes d m buf k sizes) (hlen : HasLength d m buf k sizes f len)
    (hov : startOf d k sizes + len < 2 ^ 64) :
    (startOf d k sizes ≤ buf.length →
      d.getRaw m buf k = .ok ((buf.drop (startOf d k sizes)).take len)) ∧
    (buf.length < startOf d k sizes → d.getRaw m buf k = panic) := by
  have hkl : k < d.fields.length := (List.getElem?_eq_some_iff.mp hf).1
  have hs := sizes_lens hsizes (by omega)
  rw [← fieldLen_iff (by omega) hs (by omega)] at hlen
  rw [startOf_eq] at *
  exact getRaw_eq hf hs hlen hov

example := C10_raw_getter_partial sample .debug [0, 0, 2, 7, 8, 9] 3 _ rfl [] 2
  (.plain (.plain (.plain .nil rfl rfl) rfl rfl) rfl rfl) rfl (by decide)

/-- **C10**, the same for the getter of a `Vec<u8>` field, which returns the bytes of the raw
slice. -/
theorem C10_bytes_getter_partial (d : Decl) (m : Mode) (buf : Buf) (k : Nat) (f : Field)
    (hf : d.fields[k]? = some f) (e : Endianness) (hty : f.ty = .vecPrim ⟨8, e⟩) :
    d.get m buf k = (d.getRaw m buf k).map fun raw => .nums (raw.map (·.toNat)) := by
  simp only [Decl.get, Decl.getRaw, hf, hty, getField]
  cases varSlice m buf (curOff m (d.before m buf k).bit (d.before m buf k).lens)
      (fieldLen m buf (d.before m buf k) f) with
  | error e => rfl
  | ok raw => simp [getElems_u8 raw raw.length 0 (by omega), Except.map]

example : sample.getRaw .debug [0, 0, 2, 7, 8, 9] 3 = .ok [7, 8] ∧
    sample.get .debug [0, 0, 2, 7, 8, 9] 3 = .ok (.nums [7, 8]) ∧
    sample.getRaw .debug [0, 0, 9, 7, 8, 9] 4 = panic := by decide

/-! ## C12, C13 -/

/-- **C13**. `populate` of a struct whose lengths agree with its length fields stores the
concatenation of the encodings of the fields at the start of the buffer and leaves everything
after it unchanged. Missing: integers of other byte orders (`C13_byte_orders_partial` in
`ByteOrder.lean`) and vectors that do not start on a byte boundary (`C13_false` there). -/
theorem C13_populate_writes_encoding_partial (d : Decl) (m : Mode) (E : Nat → Wire)
    (hreg : regular d = true) (hlaw : LawfulElems m E d) (vs : List Val)
    (htyped : typedFields E 0 d.fields vs) (hlens : lensAgree m E 0 [] d.fields vs)
    (buf : Buf) (hsl : SliceLen buf.length)
    (hfit : (encFields E 0 d.fields vs).length ≤ 8 * buf.length) :
    ∃ new, d.populate m buf (.list vs) = .ok new ∧ new.length = buf.length ∧
      bitsOf new = encFields E 0 d.fields vs ++
        (bitsOf buf).drop (encFields E 0 d.fields vs).length :=
  populate_enc hreg hlaw htyped hlens buf hsl hfit

/-- **C12**. After `populate`, `from_packet` returns the struct, with integers reduced to their
field widths. A struct with an open-ended last vector needs a buffer of exactly its size, because
that vector is read up to the end of the buffer. Missing: integers of other byte orders
(`C12_byte_orders_partial` in `ByteOrder.lean`, which also has `C12_false`). -/
theorem C12_populate_from_packet_partial (d : Decl) (m : Mode) (E : Nat → Wire)
    (hreg : regular d = true) (hlaw : LawfulElems m E d) (vs : List Val)
    (htyped : typedFields E 0 d.fields vs) (hlens : lensAgree m E 0 [] d.fields vs)
    (buf : Buf) (hsl : SliceLen buf.length)
    (hfit : (encFields E 0 d.fields vs).length ≤ 8 * buf.length)
    (hopen : closed d = true ∨ (encFields E 0 d.fields vs).length = 8 * buf.length) :
    ∃ new, d.populate m buf (.list vs) = .ok new ∧
      d.fromPacket m new = .ok (.list (normFields E 0 d.fields vs)) := by
  obtain ⟨new, h1, h2, h3⟩ := populate_enc hreg hlaw htyped hlens buf hsl hfit
  refine ⟨new, h1, fromPacket_enc (by rw [h2]; exact hsl) hreg hlaw htyped
    (lensAgree_on _ hlens) h3 ?_⟩
  rcases hopen with h | h
  · exact .inl h
  · exact .inr (by rw [List.drop_eq_nil_of_le (by rw [bitsOf_length]; omega)])

/-- The struct of an inner packet type is lawful, so that C12 and C13 apply to structs containing
`Vec`s of it (at any depth). -/
theorem C12_inner_packets_lawful (d : Decl) (m : Mode) (E : Nat → Wire)
    (hreg : regular d = true) (hclosed : closed d = true) (hbytes : fixedBits d.fields % 8 = 0)
    (hpos : 8 ≤ fixedBits d.fields) (hlaw : LawfulElems m E d) :
    Lawful m d.codec (declWire m E d) := by
  rw [fixedBits_eq] at hbytes hpos
  exact lawful_codec hreg hclosed hbytes hpos hlaw

/-- Values of fixed width come back unchanged. -/
theorem C12_norm_id (w : Wire) (ty : Ty) (v : Val) (h : match ty, v with
      | .prim p, .num n => n < 2 ^ p.size
      | .vecPrim p, .nums ns => ∀ n ∈ ns, n < 2 ^ p.size
      | .misc args, .nums ns => ∀ x ∈ List.zip args ns, x.2 < 2 ^ x.1.size
      | .vecPkt _, .list vs => ∀ x ∈ vs, w.norm x = x
      | _, _ => True) (ht : typed w ty v) : normField w ty v = v := by
  cases ty <;> cases v <;> simp only [typed] at ht <;> simp only [normField]
  · rw [Nat.mod_eq_of_lt h]
  · rename_i args ns
    congr 1
    induction args generalizing ns with
    | nil => cases ns with
      | nil => rfl
      | cons _ _ => simp at ht
    | cons p ps ih => cases ns with
      | nil => simp at ht
      | cons n ns =>
        dsimp only at h
        rw [List.zipWith_cons_cons, ih ns (fun x hx => h x (by simp [hx])) (by simpa using ht),
          Nat.mod_eq_of_lt (h (p, n) (by simp))]
  · rename_i p ns
    congr 1
    conv => rhs; rw [← List.map_id ns]
    apply List.map_congr_left
    intro a ha
    exact Nat.mod_eq_of_lt (h a ha)
  · rename_i c vs
    congr 1
    conv => rhs; rw [← List.map_id vs]
    exact List.map_congr_left h

/-- No inner packet types: any wire format will do. -/
def noInner : Nat → Wire := fun _ => ⟨fun _ => [], id, fun _ => False⟩

example : ∃ new, sample.populate .debug [0, 0, 0, 0, 0, 0]
      (.list [.num 0x1A, .num 0xBCD, .num 2, .nums [7, 8], .nums [9]]) = .ok new ∧
    sample.fromPacket .debug new = .ok (.list [.num 0xA, .num 0xBCD, .num 2, .nums [7, 8], .nums [9]]) := by
  refine C12_populate_from_packet_partial sample .debug noInner (by decide) ?_
    [.num 0x1A, .num 0xBCD, .num 2, .nums [7, 8], .nums [9]] ?_ ?_ _ (by decide) (by decide)
    (.inr (by decide))
  · intro i f c hf hc
    match i, hf with
    | 0, hf | 1, hf | 2, hf | 3, hf | 4, hf => cases hf; cases hc
    | n + 5, hf => simp [sample] at hf
  · simp [typedFields, typed, sample, fprim, fbytes, fpayloadRest]
  · simp [lensAgree, sample, fprim, fbytes, fpayloadRest, lenNum, env, normField, Val.asNum,
      encField]

/-- An inner packet type: a length byte and as many bytes. -/
example : Lawful .debug (Decl.codec ⟨[fprim "n" 8, fbytes "v" (lenNum 0 id)]⟩)
    (declWire .debug noInner ⟨[fprim "n" 8, fbytes "v" (lenNum 0 id)]⟩) :=
  C12_inner_packets_lawful _ .debug noInner (by decide) (by decide) (by decide) (by decide) (by
    intro i f c hf hc
    match i, hf with
    | 0, hf | 1, hf => cases hf; cases hc
    | n + 2, hf => simp at hf)

end Verif.Props
