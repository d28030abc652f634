import Verif.Spec.Addresses
import Verif.Proofs.Protocols
import Verif.Props.Layouts

/-! # Helper lemmas for the address fields -/

namespace Verif
open Spec Props

/-- The field is where the table says and holds integers of the widths `ns`. -/
def addrOk (ns : List Nat) (e : AddrField) : Bool :=
  e.decl.accepted && slotOk e.decl e.no ⟨e.name, 8 * e.start, .tuple ns⟩

theorem macFields_ok : macFields.all (addrOk [8, 8, 8, 8, 8, 8]) = true := by decide +kernel
theorem v4Fields_ok : v4Fields.all (addrOk [8, 8, 8, 8]) = true := by decide +kernel
theorem v6Fields_ok : v6Fields.all (addrOk [16, 16, 16, 16, 16, 16, 16, 16]) = true := by decide +kernel

theorem addr_get {ns : List Nat} {e : AddrField} (h : addrOk ns e = true) (m : Mode) (buf : Buf)
    (hnew : (e.decl.newPacket buf).isSome = true) :
    e.decl.get m buf e.no = .ok (.nums (intsAt buf (8 * e.start) ns)) := by
  simp only [addrOk, Bool.and_eq_true] at h
  exact slot_get h.1 h.2 m buf (by rw [C06_minimum_packet_size]; exact (C06_new_iff _ buf).1.mp hnew)

theorem addr_room {ns : List Nat} {e : AddrField} (h : addrOk ns e = true) (buf : Buf)
    (hnew : (e.decl.newPacket buf).isSome = true) : 8 * e.start + ns.sum ≤ 8 * buf.length := by
  simp only [addrOk, Bool.and_eq_true] at h
  obtain ⟨-, hslot⟩ := h
  unfold slotOk at hslot
  cases hf : e.decl.fields[e.no]? with
  | none => rw [hf] at hslot; simp at hslot
  | some f =>
    rw [hf] at hslot
    simp only [Bool.and_eq_true, beq_iff_eq] at hslot
    obtain ⟨⟨⟨⟨-, h2⟩, h3⟩, -⟩, -⟩ := hslot
    have hb := new_bits hnew
    have hle := bitsSum_field_le hf
    cases hty : f.ty <;> rw [hty] at h3 <;> simp [Ty.hasShape] at h3
    rw [hty] at hle
    simp only [Ty.bits, h3] at hle
    omega

theorem addr_set {ns : List Nat} {e : AddrField} (h : addrOk ns e = true) (m : Mode) (buf : Buf)
    (hsl : SliceLen buf.length) (hnew : (e.decl.newPacket buf).isSome = true) (vs : List Nat)
    (hlen : vs.length = ns.length) (bytes : Buf) (hb : (List.zipWith toBits ns vs).flatten = bitsOf bytes) :
    e.decl.set m buf e.no (.nums vs) =
      .ok (buf.take e.start ++ bytes ++ buf.drop (e.start + bytes.length)) := by
  have hroom := addr_room h buf hnew
  have hsum : ns.sum = 8 * bytes.length := by
    have := congrArg List.length hb
    rw [bitsOf_length] at this
    rw [← this]
    clear this hb hroom h
    induction ns generalizing vs with
    | nil => cases vs <;> simp
    | cons n ns ih =>
      cases vs with
      | nil => simp at hlen
      | cons v vs => simp [toBits_length, ih vs (by simpa using hlen)]
  simp only [addrOk, Bool.and_eq_true] at h
  obtain ⟨hacc, hslot⟩ := h
  unfold slotOk at hslot
  cases hf : e.decl.fields[e.no]? with
  | none => rw [hf] at hslot; simp at hslot
  | some f =>
    rw [hf] at hslot
    simp only [Bool.and_eq_true, beq_iff_eq] at hslot
    obtain ⟨⟨⟨⟨-, h2⟩, h3⟩, h4⟩, h5⟩ := hslot
    cases hty : f.ty <;> rw [hty] at h3 <;> simp [Ty.hasShape] at h3
    rename_i args
    have hl : vs.length = args.length := by rw [hlen, ← h3, List.length_map]
    obtain ⟨new, e1, e2, e3⟩ := C03_declared_setter e.decl hacc e.no f hf h5 h4 m
      ⟨fun _ => [], id, fun _ => False⟩ (.nums vs) (by rw [hty]; exact hl) buf hsl hnew
    rw [e1]
    congr 1
    apply bitsOf_inj
    have hz : List.zipWith (fun (p : Prim) v => toBits p.size v) args vs = List.zipWith toBits ns vs := by
      rw [← h3, List.zipWith_map_left]
    rw [e3, fixedBits_eq, h2, hty]
    simp only [encField, intWidths, h3, hz, hb, bitsOf_append, bitsOf_take, bitsOf_drop, hsum]
    rw [show 8 * e.start + 8 * bytes.length = 8 * (e.start + bytes.length) by omega]

theorem intsAt_bytes {buf : Buf} {bytes rest : Buf} {o : Nat} (h : buf.drop o = bytes ++ rest) :
    intsAt buf (8 * o) (List.replicate bytes.length 8) = bytes.map (·.toNat) := by
  induction bytes generalizing o with
  | nil => rfl
  | cons b bs ih =>
    have h1 : bitsAt buf (8 * o) 8 = b.toNat := by
      have := C55_whole_bytes buf o 1
      rw [h] at this
      simpa [beNat] using this
    have h2 : buf.drop (o + 1) = bs ++ rest := by
      rw [← List.drop_drop, h]; rfl
    simp only [List.length_cons, List.replicate_succ, intsAt, List.map_cons, h1]
    rw [show 8 * o + 8 = 8 * (o + 1) by omega, ih h2]

theorem u16FromBe_val (a b : UInt8) : u16FromBe a b = a.toNat * 256 + b.toNat := by
  have hb := b.toNat_lt
  rw [u16FromBe, Nat.shiftLeft_eq, Nat.mul_comm, ← Nat.two_pow_add_eq_or_of_lt (i := 8) (by omega)]

theorem intsAt_word {buf : Buf} {a b : UInt8} {rest : Buf} {o : Nat} (h : buf.drop o = a :: b :: rest)
    (ns : List Nat) :
    intsAt buf (8 * o) (16 :: ns) = u16FromBe a b :: intsAt buf (8 * (o + 2)) ns ∧
      buf.drop (o + 2) = rest := by
  have h1 : bitsAt buf (8 * o) 16 = u16FromBe a b := by
    have := C55_whole_bytes buf o 2
    rw [h] at this
    have ha := a.toNat_lt
    have hb := b.toNat_lt
    rw [show (16 : Nat) = 8 * 2 from rfl, this, u16FromBe_val]
    simp [beNat]
    omega
  refine ⟨?_, by rw [← List.drop_drop, h]; rfl⟩
  simp only [intsAt, h1]
  rw [show 8 * o + 16 = 8 * (o + 2) by omega]

theorem toBits_byte (b : UInt8) : toBits 8 b.toNat = bitsOf [b] := by
  simp [bitsOf, byteBits, toBits]

theorem toBits_word (a b : UInt8) : toBits 16 (u16FromBe a b) = bitsOf [a, b] := by
  have h : ofBits (bitsOf [a, b]) = u16FromBe a b := by
    rw [← beNat_eq_ofBits]
    have hb := b.toNat_lt
    rw [u16FromBe_val]
    simp [beNat]
    omega
  rw [← h]
  have := toBits_ofBits (bitsOf [a, b])
  simpa using this

theorem word_high (a b : UInt8) : UInt8.ofNat (u16FromBe a b / 256) = a := by
  have ha := a.toNat_lt
  have hb := b.toNat_lt
  apply UInt8.toNat_inj.mp
  rw [u16FromBe_val]
  rw [UInt8.toNat_ofNat']
  omega

theorem word_low (a b : UInt8) : UInt8.ofNat (u16FromBe a b) = b := by
  have ha := a.toNat_lt
  have hb := b.toNat_lt
  apply UInt8.toNat_inj.mp
  rw [u16FromBe_val]
  rw [UInt8.toNat_ofNat']
  omega

theorem take_split {buf : Buf} {o n : Nat} (h : o + n ≤ buf.length) :
    ∃ bytes rest, bytes.length = n ∧ buf.drop o = bytes ++ rest :=
  ⟨(buf.drop o).take n, (buf.drop o).drop n, by simp; omega, (List.take_append_drop n _).symm⟩

/-- The getter part for each kind of address, and the setter part, give the round trip. -/
theorem addr_round {α : Type} {e : AddrField} {n : Nat} {m : Mode} {ofPrim : List Nat → Option α}
    {toPrim : α → List Nat} {bytes : α → Buf} (hlen : ∀ a, (bytes a).length = n)
    (hinj : ∀ a b, bytes a = bytes b → a = b)
    (hget : ∀ buf, (e.decl.newPacket buf).isSome = true → e.start + n ≤ buf.length ∧
      ∃ a, e.decl.getAs ofPrim m buf e.no = .ok a ∧ bytes a = (buf.drop e.start).take n)
    (buf : Buf) (hnew : (e.decl.newPacket buf).isSome = true)
    (hset : ∀ a, e.decl.setAs toPrim m buf e.no a =
      .ok (buf.take e.start ++ bytes a ++ buf.drop (e.start + (bytes a).length))) (a : α) :
    ∃ new, e.decl.setAs toPrim m buf e.no a = .ok new ∧
      new = buf.take e.start ++ bytes a ++ buf.drop (e.start + n) ∧
      e.decl.getAs ofPrim m new e.no = .ok a := by
  refine ⟨_, hset a, by rw [hlen], ?_⟩
  rw [hlen]
  have hroom := (hget buf hnew).1
  have hl : (buf.take e.start ++ bytes a ++ buf.drop (e.start + n)).length = buf.length := by
    simp [hlen]; omega
  have hnew' : (e.decl.newPacket (buf.take e.start ++ bytes a ++ buf.drop (e.start + n))).isSome = true := by
    rw [(C06_new_iff e.decl _).1, hl]; exact (C06_new_iff e.decl buf).1.mp hnew
  obtain ⟨b, h1, h2⟩ := (hget _ hnew').2
  rw [h1]
  congr 1
  apply hinj
  rw [h2, List.append_assoc, List.drop_left' (by simp; omega), List.take_left' (hlen a)]

/-- Numbers of the fields constructed from several values. -/
def multiFields (d : Decl) : List Nat :=
  (List.range d.fields.length).filter fun k =>
    match d.fields[k]? with
    | some f => match f.ty with
      | .misc args => args.length != 1
      | _ => false
    | none => false

end Verif
