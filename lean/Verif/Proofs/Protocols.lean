import Verif.Proofs.Crate
import Verif.Spec.Layouts

/-! Evaluating the crate's declarations on arbitrary buffers. -/

namespace Verif
open Spec

/-! ## Layouts -/

theorem decodeInts_eq (buf : Buf) (start : Nat) (ns : List Nat) :
    decodeInts (bitsOf buf) start ns = intsAt buf start ns := by
  induction ns generalizing start with
  | nil => rfl
  | cons n ns ih => simp [decodeInts, intsAt, bitsAt, ih]

/-- A field type as a shape. -/
def Ty.hasShape : Ty → Shape → Bool
  | .prim p, .int n => p.size == n
  | .misc args, .tuple ns => args.map (·.size) == ns
  | _, _ => false

/-- The declaration puts field `k` where the slot says. -/
def slotOk (d : Decl) (k : Nat) (s : Slot) : Bool :=
  match d.fields[k]? with
  | some f => f.name == s.name && bitsSum (d.fields.take k) == s.start && f.ty.hasShape s.shape &&
      plainTy f.ty && (d.fields.take (k + 1)).all Field.fixed
  | none => false

theorem slot_get {d : Decl} {k : Nat} {s : Slot} (hacc : d.accepted = true)
    (h : slotOk d k s = true) (m : Mode) (buf : Buf) (hmin : d.minSize ≤ buf.length) :
    d.get m buf k = .ok (s.read buf) := by
  unfold slotOk at h
  cases hf : d.fields[k]? with
  | none => rw [hf] at h; simp at h
  | some f =>
    rw [hf] at h
    simp only [Bool.and_eq_true, beq_iff_eq] at h
    obtain ⟨⟨⟨⟨-, h2⟩, h3⟩, h4⟩, h5⟩ := h
    simp only [Decl.accepted, Bool.and_eq_true] at hacc
    have hb := minSize_bits d
    have hle := bitsSum_field_le hf
    have hd : d.bits = bitsSum d.fields := rfl
    rw [get_fixed_big hacc.1 hf h5 h4 m buf (by omega), h2]
    congr 1
    cases hty : f.ty <;> cases hs : s.shape <;> rw [hty, hs] at h3 <;>
      simp [Ty.hasShape] at h3 <;> simp [decodeFixed, Slot.read, hs, h3, decodeInts_eq, bitsAt]

theorem slotOk_name {d : Decl} {k : Nat} {s : Slot} (h : slotOk d k s = true) :
    (d.fields[k]?).map (·.name) = some s.name := by
  unfold slotOk at h
  cases hf : d.fields[k]? with
  | none => rw [hf] at h; simp at h
  | some f =>
    rw [hf] at h
    simp only [Bool.and_eq_true, beq_iff_eq] at h
    simp [h.1.1.1.1]

/-- All slots of a layout. -/
def layoutOk (d : Decl) (L : List Slot) : Bool :=
  d.accepted && (List.range L.length).all fun k =>
    match L[k]? with
    | some s => slotOk d k s
    | none => false

theorem layoutOk_slot {d : Decl} {L : List Slot} (h : layoutOk d L = true) {k : Nat} {s : Slot}
    (hs : L[k]? = some s) : d.accepted = true ∧ slotOk d k s = true := by
  simp only [layoutOk, Bool.and_eq_true, List.all_eq_true, List.mem_range] at h
  have := h.2 k (List.getElem?_eq_some_iff.mp hs).1
  rw [hs] at this
  exact ⟨h.1, this⟩

theorem layoutOk_get {d : Decl} {L : List Slot} (h : layoutOk d L = true) {k : Nat} {s : Slot}
    (hs : L[k]? = some s) (m : Mode) (buf : Buf) (hmin : d.minSize ≤ buf.length) :
    d.get m buf k = .ok (s.read buf) :=
  slot_get (layoutOk_slot h hs).1 (layoutOk_slot h hs).2 m buf hmin

/-! ## Length expressions -/

theorem lenNum_eq {d : Decl} {m : Mode} {buf : Buf} {i k n : Nat} {g : Nat → Nat} (hi : i < k)
    (hk : k ≤ d.fields.length) (h : d.get m buf i = .ok (.num n)) :
    lenExpr m buf (d.before m buf k) (lenNum i g) = .ok (g n) := by
  rw [lenExpr, lenNum, before_get hi hk, h]; rfl

theorem bitsAt_lt (buf : Buf) (start n : Nat) : bitsAt buf start n < 2 ^ n := by
  unfold bitsAt
  have := ofBits_lt (bitSlice (bitsOf buf) start n)
  have h2 : (bitSlice (bitsOf buf) start n).length ≤ n := by simp [bitSlice]; omega
  exact Nat.lt_of_lt_of_le this (Nat.pow_le_pow_right (by decide) h2)

/-! ## Fields after a prefix of fixed-size fields -/

theorem payload_fixed {d : Decl} {m : Mode} {buf : Buf} {k : Nat} {f : Field}
    (hk : d.payloadIdx = some k) (hf : d.fields[k]? = some f)
    (hfix : (d.fields.take k).all Field.fixed = true) {len : Nat}
    (hlen : fieldLen m buf (d.before m buf k) f = .ok len)
    (hov : bitsSum (d.fields.take k) / 8 + len < 2 ^ 64) :
    d.payload m buf = .ok ((buf.drop (bitsSum (d.fields.take k) / 8)).take len) :=
  payload_eq (sizes := []) hk hf (before_fixed hfix m buf).2 hlen (by simpa using hov)

/-- An open-ended payload after fixed-size fields. -/
theorem payload_open {d : Decl} {m : Mode} {buf : Buf} {k : Nat} {f : Field}
    (hk : d.payloadIdx = some k) (hf : d.fields[k]? = some f)
    (hfix : (d.fields.take k).all Field.fixed = true) (hlen : f.len = none)
    (hsl : SliceLen buf.length) (hb : bitsSum (d.fields.take k) / 8 < 2 ^ 63) :
    d.payload m buf = .ok (buf.drop (bitsSum (d.fields.take k) / 8)) := by
  unfold SliceLen at hsl
  rw [payload_fixed hk hf hfix (len := buf.length) (by rw [fieldLen, hlen]) (by omega)]
  rw [List.take_of_length_le (by simp)]

theorem getRaw_fixed {d : Decl} {m : Mode} {buf : Buf} {k : Nat} {f : Field}
    (hf : d.fields[k]? = some f) (hfix : (d.fields.take k).all Field.fixed = true) {len : Nat}
    (hlen : fieldLen m buf (d.before m buf k) f = .ok len) (hmin : d.minSize ≤ buf.length)
    (hov : bitsSum (d.fields.take k) / 8 + len < 2 ^ 64) :
    d.getRaw m buf k = .ok ((buf.drop (bitsSum (d.fields.take k) / 8)).take len) := by
  have hb := minSize_bits d
  have hle := bitsSum_take_le d.fields k
  have hd : d.bits = bitsSum d.fields := rfl
  exact (getRaw_eq (sizes := []) hf (before_fixed hfix m buf).2 hlen (by simpa using hov)).1
    (by simp; omega)

theorem packetSize_eq {d : Decl} {m : Mode} {buf : Buf} {sizes : List Nat}
    (h : (d.before m buf d.fields.length).lens = sizes.map .ok)
    (hov : d.bits / 8 + sizes.sum < 2 ^ 64) :
    d.packetSize m buf = .ok (d.bits / 8 + sizes.sum) := by
  rw [Decl.packetSize, final_eq_before, h, before_bit, List.take_length]
  exact curOff_ok hov

/-! ## TCP -/

theorem tcp_layout : layoutOk tcp tcpLayout = true := by decide +kernel

theorem tcp_data_offset (m : Mode) (buf : Buf) (h : 20 ≤ buf.length) :
    tcp.get m buf 4 = .ok (.num (bitsAt buf 96 4)) :=
  layoutOk_get tcp_layout (k := 4) rfl m buf h

theorem tcp_lens10 (m : Mode) (buf : Buf) : (tcp.before m buf 10).lens = [] :=
  (before_fixed (d := tcp) (k := 10) (by decide) m buf).2

theorem tcp_optLen (m : Mode) (buf : Buf) (h : 20 ≤ buf.length) :
    lenExpr m buf (tcp.before m buf 10) (lenNum 4 tcpOptionsLength) =
      .ok (tcpOptionsLength (bitsAt buf 96 4)) :=
  lenNum_eq (by decide) (by decide) (tcp_data_offset m buf h)

theorem tcpOptionsLength_eq (n : Nat) : tcpOptionsLength n = 4 * n - 20 := by
  unfold tcpOptionsLength; split <;> omega

theorem tcp_lens11 (m : Mode) (buf : Buf) (h : 20 ≤ buf.length) :
    (tcp.before m buf 11).lens = [4 * bitsAt buf 96 4 - 20].map .ok := by
  rw [before_lens_succ (d := tcp) (k := 10) rfl rfl, tcp_lens10, tcp_optLen m buf h,
    tcpOptionsLength_eq]; rfl

/-! ## IPv4 -/

theorem ipv4_layout : layoutOk ipv4 ipv4Layout = true := by decide +kernel

theorem ipv4_header_len (m : Mode) (buf : Buf) (h : 20 ≤ buf.length) :
    ipv4.get m buf 1 = .ok (.num (bitsAt buf 4 4)) :=
  layoutOk_get ipv4_layout (k := 1) rfl m buf h

theorem ipv4_total_len (m : Mode) (buf : Buf) (h : 20 ≤ buf.length) :
    ipv4.get m buf 4 = .ok (.num (bitsAt buf 16 16)) :=
  layoutOk_get ipv4_layout (k := 4) rfl m buf h

theorem ipv4_lens13 (m : Mode) (buf : Buf) : (ipv4.before m buf 13).lens = [] :=
  (before_fixed (d := ipv4) (k := 13) (by decide) m buf).2

theorem ipv4_optLen (m : Mode) (buf : Buf) (h : 20 ≤ buf.length) :
    lenExpr m buf (ipv4.before m buf 13) (lenNum 1 ipv4OptionsLength) =
      .ok (4 * bitsAt buf 4 4 - 20) := by
  rw [lenNum_eq (by decide) (by decide) (ipv4_header_len m buf h), ipv4OptionsLength, Nat.mul_comm]

theorem ipv4_lens14 (m : Mode) (buf : Buf) (h : 20 ≤ buf.length) :
    (ipv4.before m buf 14).lens = [4 * bitsAt buf 4 4 - 20].map .ok := by
  rw [before_lens_succ (d := ipv4) (k := 13) rfl rfl, ipv4_lens13, ipv4_optLen m buf h]; rfl

theorem ipv4_payLen (m : Mode) (buf : Buf) (h : 20 ≤ buf.length) {f : Field}
    (hf : ipv4.fields[14]? = some f) :
    fieldLen m buf (ipv4.before m buf 14) f =
      .ok (bitsAt buf 16 16 - 4 * bitsAt buf 4 4) := by
  cases hf
  rw [fieldLen]
  dsimp only [fpayload]
  rw [lenExpr, before_get (by decide) (by decide), before_get (by decide) (by decide),
    ipv4_header_len m buf h, ipv4_total_len m buf h]
  simp [Val.asNum, ipv4PayloadLength, Nat.mul_comm]

end Verif
