import Verif.Spec.Transfer
import Verif.Props.Stack
import Verif.Props.Corruption
import Verif.Props.Addresses
import Verif.Props.Payloads
import Verif.Proofs.Incremental

/-! # Helper lemmas on sending and receiving datagrams -/

namespace Verif
open Spec Props

theorem internetChecksum_lt (ws : List Nat) : internetChecksum ws < 65536 := by
  unfold internetChecksum; omega

theorem zeroWord_storeWord_self (j c : Nat) (data : Buf) : zeroWord j (storeWord j c data) = zeroWord j data := by
  unfold zeroWord storeWord putWord
  rw [List.set_comm (i := 2 * j + 1) (j := 2 * j) _ _ (by omega), List.set_set, List.set_set]

/-- What is used of a transport protocol: its checksum field is an aligned word, and its checksum is the
Internet checksum of the segment with something before it. -/
structure TransportOk {α : Type} (t : Transport α) (j : Nat) (pre : α → α → Nat → Buf) : Prop where
  acc : t.d.accepted = true
  field : ∃ f, t.d.fields[t.sumField]? = some f ∧ f.ty = .prim ⟨16, .big⟩
  fixed : (t.d.fields.take (t.sumField + 1)).all isFixed = true
  pos : fixedBits (t.d.fields.take t.sumField) = 16 * j
  even : ∀ s d n, (pre s d n).length % 2 = 0
  sum : ∀ m seg s d, seg ≠ [] → seg.length ≤ 65535 →
    t.sum m seg s d = .ok (internetChecksum (words16 (pre s d seg.length ++ zeroWord j seg)))

/-- What is before the segment in the checksum. -/
def pre4 (t : Transport Ipv4Addr) (s d : Ipv4Addr) (n : Nat) : Buf :=
  if t.proto = 1 then [] else pseudo4 s.octets.toList d.octets.toList (.ofNat t.proto) n

def pre6 (t : Transport Ipv6Addr) (s d : Ipv6Addr) (n : Nat) : Buf :=
  pseudo6 s.octets.toList d.octets.toList (.ofNat t.proto) n

theorem transports4_ok : ∀ t ∈ transports4, ∃ j, TransportOk t j (pre4 t) := by
  intro t ht
  simp only [transports4, List.mem_cons, List.not_mem_nil, or_false] at ht
  rcases ht with rfl | rfl | rfl
  · refine ⟨1, by decide, ⟨_, rfl, rfl⟩, by decide, by decide, ?_, ?_⟩
    · intro s d n; rfl
    · intro m seg s d hne hl
      exact C23_rfc1071 m seg 1 hne (by omega)
  · refine ⟨3, by decide, ⟨_, rfl, rfl⟩, by decide, by decide, ?_, ?_⟩
    · intro s d n; exact pseudo4_even ..
    · intro m seg s d hne hl
      exact (C26_pseudo_header m seg hl).1 s d
  · refine ⟨8, by decide, ⟨_, rfl, rfl⟩, by decide, by decide, ?_, ?_⟩
    · intro s d n; exact pseudo4_even ..
    · intro m seg s d hne hl
      exact (C26_pseudo_header m seg hl).2.2.1 s d

theorem transports6_ok : ∀ t ∈ transports6, ∃ j, TransportOk t j (pre6 t) := by
  intro t ht
  simp only [transports6, List.mem_cons, List.not_mem_nil, or_false] at ht
  rcases ht with rfl | rfl | rfl
  · refine ⟨1, by decide, ⟨_, rfl, rfl⟩, by decide, by decide, ?_, ?_⟩
    · intro s d n; exact pseudo6_even ..
    · intro m seg s d hne hl
      exact (C26_pseudo_header m seg hl).2.2.2.2 s d
  · refine ⟨3, by decide, ⟨_, rfl, rfl⟩, by decide, by decide, ?_, ?_⟩
    · intro s d n; exact pseudo6_even ..
    · intro m seg s d hne hl
      exact (C26_pseudo_header m seg hl).2.1 s d
  · refine ⟨8, by decide, ⟨_, rfl, rfl⟩, by decide, by decide, ?_, ?_⟩
    · intro s d n; exact pseudo6_even ..
    · intro m seg s d hne hl
      exact (C26_pseudo_header m seg hl).2.2.2.1 s d

section Segment

variable {α : Type} {t : Transport α} {j : Nat} {pre : α → α → Nat → Buf} (ht : TransportOk t j pre)
include ht

theorem seg_room {seg : Buf} (hn : (t.d.newPacket seg).isSome = true) : 2 * j + 2 ≤ seg.length := by
  obtain ⟨f, hf, hty⟩ := ht.field
  have h1 := (C06_new_iff t.d seg).1.mp hn
  have h2 := bitsSum_field_le hf
  have h3 := ht.pos
  rw [fixedBits_eq] at h1 h3
  rw [hty, Ty.bits] at h2
  simp only at h2
  omega

/-- The checksum that was stored is accepted. -/
theorem stamp_check {m : Mode} {seg : Buf} {s d : α} (hn : (t.d.newPacket seg).isSome = true)
    (hl : seg.length ≤ 65535) :
    ∃ c, c < 65536 ∧ t.stamp m seg s d = t.d.set m seg t.sumField (.num c) ∧
      t.stamp m seg s d = .ok (storeWord j c seg) ∧ t.check m (storeWord j c seg) s d = .ok true := by
  have hroom := seg_room ht hn
  obtain ⟨f, hf, hty⟩ := ht.field
  have hsl : SliceLen seg.length := by unfold SliceLen; omega
  have hne : seg ≠ [] := by intro e; subst e; simp at hroom
  have hs := ht.sum m seg s d hne hl
  generalize hc : internetChecksum (words16 (pre s d seg.length ++ zeroWord j seg)) = c at hs
  have hclt : c < 65536 := hc ▸ internetChecksum_lt _
  have hset := (set_word ht.acc hf hty ht.fixed ht.pos m seg hsl hn c).2
  have e1 : t.stamp m seg s d = t.d.set m seg t.sumField (.num c) := by
    simp only [Transport.stamp, hs, ok_bind]
  refine ⟨c, hclt, e1, e1.trans hset, ?_⟩
  have hl' : (storeWord j c seg).length = seg.length := storeWord_length ..
  have hn' : (t.d.newPacket (storeWord j c seg)).isSome = true := by
    rw [(C06_new_iff _ _).1, hl']; exact (C06_new_iff _ _).1.mp hn
  obtain ⟨new, q1, q2⟩ := C02_declared_set_then_get t.d ht.acc t.sumField f hf ht.fixed (by rw [hty]; rfl) m
    (noElems 0) (.num c) (by rw [hty]; trivial) seg hsl hn
  rw [hset] at q1
  injection q1 with q1
  rw [← q1, hty] at q2
  have hs' := ht.sum m (storeWord j c seg) s d (by intro e; rw [e] at hl'; simp at hl'; omega) (by omega)
  rw [hl', zeroWord_storeWord_self, hc] at hs'
  unfold Transport.check
  cases hp : t.d.newPacket (storeWord j c seg) with
  | none => rw [hp] at hn'; cases hn'
  | some _ =>
    simp only [q2, normField, ok_bind, Val.asNum, hs', Nat.mod_eq_of_lt hclt]
    simp

/-- `check` on a segment that is long enough. -/
theorem check_value {m : Mode} {seg : Buf} {s d : α} (hn : (t.d.newPacket seg).isSome = true)
    (hl : seg.length ≤ 65535) :
    ∃ c, t.d.get m seg t.sumField = .ok (.num c) ∧ storeWord j c seg = seg ∧
      t.check m seg s d = .ok (c == internetChecksum (words16 (pre s d seg.length ++ zeroWord j seg))) := by
  have hroom := seg_room ht hn
  obtain ⟨f, hf, hty⟩ := ht.field
  have hne : seg ≠ [] := by intro e; subst e; simp at hroom
  have hget := C07_fixed_getter_value t.d ht.acc t.sumField f hf ht.fixed (by rw [hty]; rfl) m seg hn
  rw [hty] at hget
  refine ⟨_, hget, (get_word ht.acc hf hty ht.fixed ht.pos hn hget).2, ?_⟩
  unfold Transport.check
  cases hp : t.d.newPacket seg with
  | none => rw [hp] at hn; cases hn
  | some _ =>
    simp only [hget, ok_bind, decodeFixed, Val.asNum, ht.sum m seg s d hne hl]

/-- An accepted segment with what is before it is a multiple of 65535. -/
theorem check_mod {m : Mode} {seg : Buf} {s d : α} (hl : seg.length ≤ 65535)
    (hc : t.check m seg s d = .ok true) : messageNat (pre s d seg.length ++ seg) % 65535 = 0 := by
  cases hp : t.d.newPacket seg with
  | none => unfold Transport.check at hc; rw [hp] at hc; cases hc
  | some x =>
    have hn : (t.d.newPacket seg).isSome = true := by rw [hp]; rfl
    obtain ⟨c, h1, h2, h3⟩ := check_value ht (m := m) (s := s) (d := d) hn hl
    rw [hc] at h3
    injection h3 with h3
    exact holds_mod (ht.even ..) (seg_room ht hn) h2 (by simpa using h3.symm)

theorem check_total {m : Mode} {seg : Buf} {s d : α} (hl : seg.length ≤ 65535) :
    ∃ b, t.check m seg s d = .ok b := by
  cases hp : t.d.newPacket seg with
  | none => exact ⟨false, by unfold Transport.check; rw [hp]⟩
  | some x =>
    obtain ⟨c, -, -, h3⟩ := check_value ht (m := m) (s := s) (d := d) (by rw [hp]; rfl) hl
    exact ⟨_, h3⟩

end Segment

/-! ## Bits and bytes -/

theorem bitsAt_congr {a b : Buf} {k s n : Nat} (h : a.take k = b.take k) (hk : s + n ≤ 8 * k) :
    bitsAt a s n = bitsAt b s n := by
  have key : ∀ c : Buf, bitSlice (bitsOf c) s n = (((bitsOf (c.take k)).drop s).take n) := by
    intro c
    rw [bitSlice, bitsOf_take, List.drop_take, List.take_take, Nat.min_eq_left (by omega)]
  rw [bitsAt, bitsAt, key, key, h]

theorem storeWord_append {j c : Nat} {a b : Buf} (h : 2 * j + 2 ≤ a.length) :
    storeWord j c (a ++ b) = storeWord j c a ++ b := by
  unfold storeWord putWord
  rw [List.set_append_left _ _ (by omega), List.set_append_left _ _ (by simp; omega)]

theorem storeWord_take_lt {j c k : Nat} {a : Buf} (h : k ≤ 2 * j) : (storeWord j c a).take k = a.take k := by
  unfold storeWord putWord
  rw [List.take_set_of_le (by omega), List.take_set_of_le (by omega)]

theorem storeWord_drop {j c k : Nat} {a : Buf} (h : 2 * j + 2 ≤ k) : (storeWord j c a).drop k = a.drop k := by
  unfold storeWord putWord
  rw [List.drop_set_of_lt (by omega), List.drop_set_of_lt (by omega)]

theorem v4_ext {a b : Ipv4Addr} (h : a.octets.toList = b.octets.toList) : a = b := by
  cases a; cases b
  simp only [Ipv4Addr.mk.injEq]
  exact Vector.toList_inj.mp h

theorem v6_ext {a b : Ipv6Addr} (h : a.octets.toList = b.octets.toList) : a = b := by
  cases a; cases b
  simp only [Ipv6Addr.mk.injEq]
  exact Vector.toList_inj.mp h

/-! ## The IPv4 receiver -/

/-- The bytes of the header that the checksum covers. -/
def head4 (ip : Buf) : Nat := min ip.length (max 20 (4 * ((ip.getD 0 0).toNat % 16)))

theorem accept4_value {m : Mode} {t : Transport Ipv4Addr} {j : Nat} {pre : Ipv4Addr → Ipv4Addr → Nat → Buf}
    (ht : TransportOk t j pre) {ip : Buf} (h20 : 20 ≤ ip.length) (hsl : SliceLen ip.length) :
    ∃ src dst seg b, src.octets.toList = (ip.drop 12).take 4 ∧ dst.octets.toList = (ip.drop 16).take 4 ∧
      ipv4.getAs Ipv4Addr.ofPrimitive m ip 11 = .ok src ∧ ipv4.getAs Ipv4Addr.ofPrimitive m ip 12 = .ok dst ∧
      seg = (ip.drop (max 20 (4 * bitsAt ip 4 4))).take (bitsAt ip 16 16 - 4 * bitsAt ip 4 4) ∧
      seg.length ≤ 65535 ∧ t.check m seg src dst = .ok b ∧
      accept4 m t ip = .ok (if bitsAt ip 80 16 = internetChecksum (words16 (zeroWord 5 (ip.take (head4 ip)))) ∧
        bitsAt ip 72 8 = t.proto ∧ b = true then some (src, dst, seg) else none) := by
  have hn : (ipv4.newPacket ip).isSome = true :=
    (C06_new_iff ipv4 ip).1.mpr (by rw [show fixedBits ipv4.fields = 160 by decide]; omega)
  obtain ⟨-, ⟨src, hs1, hs2⟩, -⟩ := C72_ipv4 ⟨ipv4, 11, "source", 12⟩ (by simp [v4Fields]) m ip hsl hn
  obtain ⟨-, ⟨dst, hd1, hd2⟩, -⟩ := C72_ipv4 ⟨ipv4, 12, "destination", 16⟩ (by simp [v4Fields]) m ip hsl hn
  have hp := C09_ipv4 m ip h20
  have hlt := bitsAt_lt ip 16 16
  have hseg : ((ip.drop (max 20 (4 * bitsAt ip 4 4))).take (bitsAt ip 16 16 - 4 * bitsAt ip 4 4)).length ≤ 65535 := by
    rw [List.length_take]; omega
  obtain ⟨b, hb⟩ := check_total ht (m := m) (s := src) (d := dst) hseg
  refine ⟨src, dst, _, b, hs2, hd2, hs1, hd1, rfl, hseg, hb, ?_⟩
  have h10 : ipv4.get m ip 10 = .ok (.num (bitsAt ip 80 16)) :=
    layoutOk_get (L := ipv4Layout) (by decide +kernel) (k := 10) rfl m ip h20
  have h9 : ipv4.get m ip 9 = .ok (.nums [bitsAt ip 72 8]) :=
    layoutOk_get (L := ipv4Layout) (by decide +kernel) (k := 9) rfl m ip h20
  have hc := C29_ipv4_header_checksum m ip h20
  unfold head4
  generalize internetChecksum (words16 (zeroWord 5 (ip.take (min ip.length
    (max 20 (4 * ((ip.getD 0 0).toNat % 16))))))) = c at hc ⊢
  unfold accept4
  cases hnp : ipv4.newPacket ip with
  | none => rw [hnp] at hn; cases hn
  | some x =>
    simp only [h10, ok_bind, Val.asNum, hc, Decl.getAs, h9, Newtype.ofPrimitive]
    simp only [Decl.getAs] at hs1 hd1
    simp only [hs1, hd1, hp, ok_bind, hb]
    by_cases g1 : bitsAt ip 80 16 = c
    · by_cases g2 : bitsAt ip 72 8 = t.proto
      · cases b <;> simp [g1, g2]
      · simp [g1, g2]
    · simp [g1]

theorem wire_get {m : Mode} {l : Layer} {inner tail : Buf} (h : l.Fits m inner)
    (hsl : SliceLen (l.wire inner ++ tail).length) (ht : closed l.d = true) {k : Nat} {f : Field} {v : Val}
    (hf : l.d.fields[k]? = some f) (hv : l.header[k]? = some v) :
    l.d.get m (l.wire inner ++ tail) k = .ok (normField (l.E k) f.ty v) := by
  obtain ⟨_, _, _, c⟩ := carrier_iff h.carrier
  refine get_enc hsl c.reg h.lawful h.typed (lensAgree_on (bitsOf tail) h.lens)
    (by rw [bitsOf_append, wire_bits h]) (.inl ht) hf ?_
  rw [Layer.fields, List.getElem?_append_left (List.getElem?_eq_some_iff.mp hv).1, hv]

theorem head4_fits {m : Mode} {h : Head4} {proto : Nat} {seg : Buf} (hok : h.Ok m seg.length) :
    (h.layer m proto seg.length).Fits m seg := by
  have hw := hok.words
  have ht := hok.total
  refine ⟨show carrier ipv4 = true by decide, ?_, ?_, ?_⟩
  · exact lawful_one ipv4Option_inner (by simp only [Head4.layer]; unfold ipv4; simp [fprim, fmisc, fpayload])
  · simp [Layer.fields, Head4.layer, ipv4, fprim, fmisc, fpayload, typedFields, typed, bytesVal,
      Ipv4Addr.toPrimitive]
    exact hok.valid
  · have hs := hok.size
    simp [Layer.fields, Head4.layer, ipv4, fprim, fmisc, fpayload, lensAgree, lenNum, env, normField, Val.asNum,
      encField, bytesVal, bytes_flatMap, bitsOf_length, ipv4OptionsLength, ipv4PayloadLength]
    simp at hs
    omega

theorem head4_length {m : Mode} {h : Head4} {proto : Nat} {seg : Buf} (hok : h.Ok m seg.length) :
    ((h.layer m proto seg.length).wire seg).length = 4 * h.words + seg.length := by
  have hs := hok.size
  have hw := hok.words
  rw [Layer.wire, packBits_length]
  simp [Layer.fields, Head4.layer, ipv4, fprim, fmisc, fpayload, encFields, encField, bytesVal, bytes_flatMap,
    bitsOf_length, Ipv4Addr.toPrimitive]
  simp at hs
  omega

theorem v4_round (a : Ipv4Addr) : Ipv4Addr.ofPrimitive (a.toPrimitive.map (· % 256)) = some a := by
  obtain ⟨⟨⟨l⟩, hl⟩⟩ := a
  match l, hl with
  | [a, b, c, d], _ => simp [Ipv4Addr.ofPrimitive, Ipv4Addr.toPrimitive]

theorem v4_norm (w : Wire) (n : String) (a : Ipv4Addr) :
    normField w (fmisc n [8, 8, 8, 8]).ty (.nums a.toPrimitive) = .nums (a.toPrimitive.map (· % 256)) := by
  obtain ⟨⟨⟨l⟩, hl⟩⟩ := a
  match l, hl with
  | [a, b, c, d], _ => simp [Ipv4Addr.toPrimitive, normField, fmisc]

theorem deliver4 {m : Mode} {outer : List Layer} {h : Head4} {t : Transport Ipv4Addr} (ht : t ∈ transports4)
    {seg pad : Buf} (hok : h.Ok m seg.length)
    (hout : ∀ ip : Buf, ip.length = 4 * h.words + seg.length → StackFits m outer ip ∧
      SliceLen (stackWire outer ip ++ pad).length)
    (hpad : SliceLen (4 * h.words + seg.length + pad.length))
    (hn : (t.d.newPacket seg).isSome = true) :
    ∃ frame seg' c, send4 m outer h t seg = .ok frame ∧ t.d.set m seg t.sumField (.num c) = .ok seg' ∧
      receive4 m (outer.map (·.d)) t (frame ++ pad) = .ok (some (h.src, h.dst, seg')) := by
  obtain ⟨j, tok⟩ := transports4_ok t ht
  have htot := hok.total
  have hw := hok.words
  obtain ⟨c, hc, e1, e2, e3⟩ := stamp_check tok (m := m) (s := h.src) (d := h.dst) hn (by omega)
  have hlen1 : (storeWord j c seg).length = seg.length := storeWord_length ..
  generalize storeWord j c seg = seg1 at e2 e3 hlen1
  rw [← hlen1] at hok hout hpad htot
  have hfit := head4_fits (proto := t.proto) hok
  have hlen := head4_length (proto := t.proto) hok
  generalize hl : h.layer m t.proto seg1.length = l at hfit hlen
  have hd : l.d = ipv4 := by rw [← hl]; rfl
  have hcl : closed l.d = true := by rw [hd]; decide
  have hpop := wire_populate hfit (by rw [hlen]; unfold SliceLen at *; omega)
  rw [hd, hlen] at hpop
  generalize hip0 : l.wire seg1 = ip0 at hpop hlen
  have h20 : 20 ≤ ip0.length := by omega
  have hn0 : ∀ b : Buf, 20 ≤ b.length → (ipv4.newPacket b).isSome = true := fun b hb =>
    (C06_new_iff ipv4 b).1.mpr (by rw [show fixedBits ipv4.fields = 160 by decide]; omega)
  have hck := C29_ipv4_header_checksum m ip0 h20
  generalize hc4 : internetChecksum (words16 (zeroWord 5 (ip0.take (min ip0.length
    (max 20 (4 * ((ip0.getD 0 0).toNat % 16))))))) = c4 at hck
  have hc4lt : c4 < 65536 := hc4 ▸ internetChecksum_lt _
  have hset : ∀ b : Buf, 20 ≤ b.length → SliceLen b.length → ipv4.set m b 10 (.num c4) = .ok (storeWord 5 c4 b) :=
    fun b hb hs => (set_word (d := ipv4) (k := 10) (j := 5) (by decide) rfl rfl (by decide) (by decide) m b hs
      (hn0 b hb) c4).2
  have hset0 := hset ip0 h20 (by rw [hlen]; unfold SliceLen at *; omega)
  have hlenS : (storeWord 5 c4 ip0).length = ip0.length := storeWord_length ..
  obtain ⟨hfo, hso⟩ := hout (storeWord 5 c4 ip0) (by rw [hlenS, hlen])
  have hwr := C82_write m outer _ hfo (by rw [List.length_append] at hso; unfold SliceLen at *; omega)
  have hrd := C82_read m outer _ pad hfo hso
  refine ⟨stackWire outer (storeWord 5 c4 ip0), seg1, c, ?_, e1.symm.trans e2, ?_⟩
  · unfold send4
    simp only [e2, ok_bind, hl, hpop, hck, hset0]
    exact hwr
  · unfold receive4
    rw [hrd]
    simp only [ok_bind]
    obtain ⟨pad', hp', hin⟩ : ∃ pad' : Buf, pad'.length ≤ pad.length ∧
        (if outer.any (fun l => closed l.d) = true then storeWord 5 c4 ip0 else storeWord 5 c4 ip0 ++ pad) =
          storeWord 5 c4 (ip0 ++ pad') := by
      split
      · exact ⟨[], by simp, by simp⟩
      · exact ⟨pad, by simp, (storeWord_append (by omega)).symm⟩
    rw [hin]
    have hsl0 : SliceLen (ip0 ++ pad').length := by
      rw [List.length_append, hlen]; unfold SliceLen at *; omega
    have h20a : 20 ≤ (ip0 ++ pad').length := by rw [List.length_append]; omega
    have hlenA : (storeWord 5 c4 (ip0 ++ pad')).length = (ip0 ++ pad').length := storeWord_length ..
    obtain ⟨src, dst, seg2, b, o1, o2, -, -, o3, o4, o5, o6⟩ := accept4_value tok (m := m)
      (ip := storeWord 5 c4 (ip0 ++ pad')) (by omega) (by rw [hlenA]; exact hsl0)
    rw [o6]
    -- what was written
    have hwg : ∀ (k : Nat) (f : Field) (v : Val), ipv4.fields[k]? = some f → l.header[k]? = some v →
        ipv4.get m (ip0 ++ pad') k = .ok (normField (l.E k) f.ty v) := by
      intro k f v hf hv
      have := wire_get hfit (by rw [hip0]; exact hsl0) hcl (k := k) (f := f) (v := v) (by rw [hd]; exact hf) hv
      rwa [hip0, hd] at this
    have hg1 : ipv4.get m (ip0 ++ pad') 1 = .ok (.num (h.words % 16)) :=
      hwg 1 _ (.num h.words) rfl (by rw [← hl]; rfl)
    have hg9 : ipv4.get m (ip0 ++ pad') 9 = .ok (.nums [t.proto % 256]) :=
      hwg 9 _ (.nums [t.proto]) rfl (by rw [← hl]; rfl)
    have hg11 : ipv4.get m (ip0 ++ pad') 11 = .ok (.nums (h.src.toPrimitive.map (· % 256))) :=
      (hwg 11 _ (.nums h.src.toPrimitive) rfl (by rw [← hl]; rfl)).trans (congrArg _ (v4_norm ..))
    have hg12 : ipv4.get m (ip0 ++ pad') 12 = .ok (.nums (h.dst.toPrimitive.map (· % 256))) :=
      (hwg 12 _ (.nums h.dst.toPrimitive) rfl (by rw [← hl]; rfl)).trans (congrArg _ (v4_norm ..))
    have l1 : ipv4.get m (ip0 ++ pad') 1 = .ok (.num (bitsAt (ip0 ++ pad') 4 4)) :=
      layoutOk_get (L := ipv4Layout) (by decide +kernel) (k := 1) rfl m _ h20a
    have l9 : ipv4.get m (ip0 ++ pad') 9 = .ok (.nums [bitsAt (ip0 ++ pad') 72 8]) :=
      layoutOk_get (L := ipv4Layout) (by decide +kernel) (k := 9) rfl m _ h20a
    have l10 : ipv4.get m (storeWord 5 c4 (ip0 ++ pad')) 10 = .ok (.num (bitsAt (storeWord 5 c4 (ip0 ++ pad')) 80 16)) :=
      layoutOk_get (L := ipv4Layout) (by decide +kernel) (k := 10) rfl m _ (by rw [hlenA]; exact h20a)
    obtain ⟨new, q1, q2⟩ : ∃ new, ipv4.set m (ip0 ++ pad') 10 (.num c4) = .ok new ∧
        ipv4.get m new 10 = .ok (.num (c4 % 65536)) :=
      C02_declared_set_then_get ipv4 (by decide) 10 _ rfl (by decide) rfl m
        (noElems 0) (.num c4) trivial (ip0 ++ pad') hsl0 (hn0 _ h20a)
    rw [hset _ h20a hsl0] at q1
    injection q1 with q1
    rw [← q1, l10] at q2
    have v10 : bitsAt (storeWord 5 c4 (ip0 ++ pad')) 80 16 = c4 := by
      injection q2 with q2
      have : bitsAt (storeWord 5 c4 (ip0 ++ pad')) 80 16 = c4 % 65536 := by injection q2
      rw [this, Nat.mod_eq_of_lt hc4lt]
    have htk : ∀ k, k ≤ 10 → (storeWord 5 c4 (ip0 ++ pad')).take k = (ip0 ++ pad').take k := fun k hk =>
      storeWord_take_lt (by omega)
    have v9 : bitsAt (storeWord 5 c4 (ip0 ++ pad')) 72 8 = t.proto := by
      rw [bitsAt_congr (htk 10 (by omega)) (by omega)]
      rw [l9] at hg9
      injection hg9 with hg9
      have : bitsAt (ip0 ++ pad') 72 8 = t.proto % 256 := by simpa using hg9
      rw [this]
      simp only [transports4, List.mem_cons, List.not_mem_nil, or_false] at ht
      rcases ht with rfl | rfl | rfl <;> rfl
    have vnib : ((ip0 ++ pad').getD 0 0).toNat % 16 = h.words := by
      have := ipv4_header_length (m := m) h20a
      rw [hg1] at this
      injection this with this
      injection this with this
      rw [← this]
      omega
    have vnib0 : (ip0.getD 0 0).toNat % 16 = h.words := by
      rw [← vnib]
      simp [List.getD_eq_getElem?_getD, List.getElem?_append_left (show 0 < ip0.length by omega)]
    have vnib1 : ((storeWord 5 c4 (ip0 ++ pad')).getD 0 0).toNat % 16 = h.words := by
      rw [← vnib]
      have := congrArg (fun l : Buf => l[0]?) (htk 1 (by omega))
      simp only [List.getElem?_take, Nat.zero_lt_one, if_true] at this
      rw [List.getD_eq_getElem?_getD, List.getD_eq_getElem?_getD, this]
    have vsum : internetChecksum (words16 (zeroWord 5 ((storeWord 5 c4 (ip0 ++ pad')).take
        (head4 (storeWord 5 c4 (ip0 ++ pad')))))) = c4 := by
      have hh : head4 (storeWord 5 c4 (ip0 ++ pad')) = 4 * h.words := by
        unfold head4; rw [vnib1, hlenA, List.length_append]; omega
      rw [hh, storeWord_take, zeroWord_storeWord_self, List.take_append_of_le_length (by omega)]
      rw [← hc4, vnib0]
      congr 4
      omega
    have vseg : seg2 = seg1 := by
      have hp := wire_payload hfit (tail := pad') (by rw [hip0]; exact hsl0) (.inl hcl)
      rw [hip0, hd, C09_ipv4 m _ h20a] at hp
      injection hp with hp
      rw [o3, ← hp, bitsAt_congr (htk 10 (by omega)) (by omega), bitsAt_congr (htk 10 (by omega)) (by omega),
        storeWord_drop (by omega)]
    have vaddr : ∀ (k o : Nat) (a b : Ipv4Addr), 12 ≤ o →  AddrField.mk ipv4 k ((ipv4.fields[k]?).elim "" (·.name)) o ∈ v4Fields →
        ipv4.get m (ip0 ++ pad') k = .ok (.nums (a.toPrimitive.map (· % 256))) →
        b.octets.toList = ((storeWord 5 c4 (ip0 ++ pad')).drop o).take 4 → b = a := by
      intro k o a b ho hmem hg hb
      obtain ⟨-, ⟨a', h1, h2⟩, -⟩ := C72_ipv4 _ hmem m (ip0 ++ pad') hsl0 (hn0 _ h20a)
      simp only [Decl.getAs, hg, ok_bind, v4_round] at h1
      injection h1 with h1
      apply v4_ext
      rw [hb, storeWord_drop (by omega), h1, h2]
    have vsrc : src = h.src := vaddr 11 12 _ _ (by omega) (by simp [v4Fields, ipv4, fprim, fmisc]) hg11 o1
    have vdst : dst = h.dst := vaddr 12 16 _ _ (by omega) (by simp [v4Fields, ipv4, fprim, fmisc]) hg12 o2
    rw [vsrc, vdst, vseg, e3] at o5
    injection o5 with o5
    rw [if_pos ⟨v10.trans vsum.symm, v9, o5.symm⟩, vsrc, vdst, vseg]

/-! ## Bursts -/

theorem burst_take {n k : Nat} {p q : Buf} (hb : Burst n p q) (hne : p.take k ≠ q.take k) :
    ∃ n' ≤ n, Burst n' (p.take k) (q.take k) := by
  obtain ⟨-, a, x, y, b, h1, h2, h3, h4⟩ := hb
  refine ⟨min (8 * k - a.length) n, by omega, hne, a.take (8 * k), x.take (8 * k - a.length),
    y.take (8 * k - a.length), b.take (8 * k - a.length - n), ?_, ?_, by rw [List.length_take, h3],
    by rw [List.length_take, h4]⟩
  · rw [bitsOf_take, h1, List.take_append, List.take_append, List.length_append, h3]
    congr 2; omega
  · rw [bitsOf_take, h2, List.take_append, List.take_append, List.length_append, h4]
    congr 2; omega

theorem burst_drop {n k : Nat} {p q : Buf} (hb : Burst n p q) (hne : p.drop k ≠ q.drop k) :
    ∃ n' ≤ n, Burst n' (p.drop k) (q.drop k) := by
  obtain ⟨-, a, x, y, b, h1, h2, h3, h4⟩ := hb
  refine ⟨n - (8 * k - a.length), by omega, hne, a.drop (8 * k), x.drop (8 * k - a.length),
    y.drop (8 * k - a.length), b.drop (8 * k - a.length - n), ?_, ?_, by rw [List.length_drop, h3],
    by rw [List.length_drop, h4]⟩
  · rw [bitsOf_drop, h1, List.drop_append, List.drop_append, List.length_append, h3]
    congr 2; omega
  · rw [bitsOf_drop, h2, List.drop_append, List.drop_append, List.length_append, h4]
    congr 2; omega

theorem burst_append {n : Nat} {p q : Buf} (hb : Burst n p q) (pre : Buf) : Burst n (pre ++ p) (pre ++ q) := by
  obtain ⟨hne, a, x, y, b, h1, h2, h3, h4⟩ := hb
  refine ⟨fun e => hne (List.append_cancel_left e), bitsOf pre ++ a, x, y, b, ?_, ?_, h3, h4⟩
  · rw [bitsOf_append, h1]; simp [List.append_assoc]
  · rw [bitsOf_append, h2]; simp [List.append_assoc]

theorem safe4 {m : Mode} {t : Transport Ipv4Addr} (ht : t ∈ transports4) {p q : Buf} {n : Nat} (hn : n ≤ 15)
    (hsl : SliceLen p.length) (hb : Burst n p q) (hihl : (q.getD 0 0).toNat % 16 = (p.getD 0 0).toNat % 16)
    {r : Ipv4Addr × Ipv4Addr × Buf} (hp : accept4 m t p = .ok (some r)) :
    accept4 m t q = .ok none ∨ accept4 m t q = .ok (some r) := by
  obtain ⟨j, tok⟩ := transports4_ok t ht
  have hlen := burst_length hb
  by_cases h20 : 20 ≤ p.length
  · obtain ⟨src, dst, seg, b, o1, o2, -, -, o3, o4, o5, o6⟩ := accept4_value tok (m := m) h20 hsl
    obtain ⟨src', dst', seg', b', o1', o2', -, -, o3', o4', o5', o6'⟩ := accept4_value tok (m := m) (ip := q)
      (by omega) (by rw [← hlen]; exact hsl)
    rw [o6'] 
    rw [o6] at hp
    injection hp with hp
    split at hp
    · rename_i hc
      obtain ⟨c1, c2, c3⟩ := hc
      split
      · rename_i hc'
        obtain ⟨c1', c2', c3'⟩ := hc'
        have hh : head4 q = head4 p := by unfold head4; rw [hihl, hlen]
        have h20h : 20 ≤ head4 p := by unfold head4; omega
        -- the headers are equal
        have key : ∀ ip : Buf, 20 ≤ ip.length → 20 ≤ head4 ip →
            bitsAt ip 80 16 = internetChecksum (words16 (zeroWord 5 (ip.take (head4 ip)))) →
            messageNat (ip.take (head4 ip)) % 65535 = 0 := by
          intro ip h20 hh hc
          have hnew : (ipv4.newPacket ip).isSome = true :=
            (C06_new_iff ipv4 ip).1.mpr (by rw [show fixedBits ipv4.fields = 160 by decide]; omega)
          have l10 : ipv4.get m ip 10 = .ok (.num (bitsAt ip 80 16)) :=
            layoutOk_get (L := ipv4Layout) (by decide +kernel) (k := 10) rfl m _ h20
          have a := get_word (d := ipv4) (by decide) (k := 10) (j := 5) rfl rfl (by decide) (by decide) hnew l10
          exact holds_mod (pre := []) rfl (by rw [List.length_take]; omega)
            (by rw [← storeWord_take, a.2]) hc
        have kp := key p h20 h20h c1
        have kq := key q (by omega) (by omega) c1'
        rw [hh] at kq
        have heq : p.take (head4 p) = q.take (head4 p) := by
          apply Classical.byContradiction
          intro hne
          obtain ⟨n', hn', hb'⟩ := burst_take hb hne
          exact burst_mod (by omega) hb' (kp.trans kq.symm)
        have heq20 : p.take 20 = q.take 20 := by
          have := congrArg (List.take 20) heq
          rwa [List.take_take, List.take_take, Nat.min_eq_left h20h] at this
        have hsrc : src = src' := by
          apply v4_ext
          have := congrArg (fun l => (l.drop 12).take 4) heq20
          simp only [List.drop_take, List.take_take] at this
          rw [o1, o1']; exact this
        have hdst : dst = dst' := by
          apply v4_ext
          have := congrArg (fun l => (l.drop 16).take 4) heq20
          simp only [List.drop_take, List.take_take] at this
          rw [o2, o2']; exact this
        have b1 : bitsAt q 4 4 = bitsAt p 4 4 := (bitsAt_congr heq20 (by omega)).symm
        have b2 : bitsAt q 16 16 = bitsAt p 16 16 := (bitsAt_congr heq20 (by omega)).symm
        have hseg : seg = seg' := by
          apply Classical.byContradiction
          intro hne
          rw [b1, b2] at o3'
          obtain ⟨n1, hn1, hb1⟩ := burst_drop (k := max 20 (4 * bitsAt p 4 4)) hb (by
            intro e; apply hne; rw [o3, o3', e])
          obtain ⟨n2, hn2, hb2⟩ := burst_take (k := bitsAt p 16 16 - 4 * bitsAt p 4 4) hb1 (by
            rw [← o3, ← o3']; exact hne)
          rw [← o3, ← o3'] at hb2
          have m1 := check_mod tok o4 (o5.trans (by rw [c3]))
          have m2 := check_mod tok o4' (o5'.trans (by rw [c3']))
          rw [← hsrc, ← hdst, ← burst_length hb2] at m2
          exact burst_mod (by omega) (burst_append hb2 _) (m1.trans m2.symm)
        right
        rw [← hp, hsrc, hdst, hseg]
      · exact .inl rfl
    · cases hp
  · unfold accept4 at hp
    cases hnp : ipv4.newPacket p with
    | none => rw [hnp] at hp; cases hp
    | some x =>
      have := (C06_new_iff ipv4 p).1.mp (by rw [hnp]; rfl)
      rw [show fixedBits ipv4.fields = 160 by decide] at this
      omega

/-! ## IPv6 -/

theorem accept6_value {m : Mode} {t : Transport Ipv6Addr} {j : Nat} {pre : Ipv6Addr → Ipv6Addr → Nat → Buf}
    (ht : TransportOk t j pre) {ip : Buf} (h40 : 40 ≤ ip.length) (hsl : SliceLen ip.length) :
    ∃ src dst seg b, src.octets.toList = (ip.drop 8).take 16 ∧ dst.octets.toList = (ip.drop 24).take 16 ∧
      seg = (ip.drop 40).take (bitsAt ip 32 16) ∧ seg.length ≤ 65535 ∧ t.check m seg src dst = .ok b ∧
      accept6 m t ip = .ok (if bitsAt ip 48 8 = t.proto ∧ b = true then some (src, dst, seg) else none) := by
  have hn : (ipv6.newPacket ip).isSome = true :=
    (C06_new_iff ipv6 ip).1.mpr (by rw [show fixedBits ipv6.fields = 320 by decide]; omega)
  obtain ⟨-, ⟨src, hs1, hs2⟩, -⟩ := C72_ipv6 ⟨ipv6, 6, "source", 8⟩ (by simp [v6Fields]) m ip hsl hn
  obtain ⟨-, ⟨dst, hd1, hd2⟩, -⟩ := C72_ipv6 ⟨ipv6, 7, "destination", 24⟩ (by simp [v6Fields]) m ip hsl hn
  have hp := C09_ipv6 m ip h40
  have hlt := bitsAt_lt ip 32 16
  have hseg : ((ip.drop 40).take (bitsAt ip 32 16)).length ≤ 65535 := by
    rw [List.length_take]; omega
  obtain ⟨b, hb⟩ := check_total ht (m := m) (s := src) (d := dst) hseg
  refine ⟨src, dst, _, b, hs2, hd2, rfl, hseg, hb, ?_⟩
  have h4 : ipv6.get m ip 4 = .ok (.nums [bitsAt ip 48 8]) :=
    layoutOk_get (L := ipv6Layout) (by decide +kernel) (k := 4) rfl m ip h40
  unfold accept6
  cases hnp : ipv6.newPacket ip with
  | none => rw [hnp] at hn; cases hn
  | some x =>
    simp only [ok_bind, Decl.getAs, h4, Newtype.ofPrimitive]
    simp only [Decl.getAs] at hs1 hd1
    simp only [hs1, hd1, hp, ok_bind, hb]
    by_cases g2 : bitsAt ip 48 8 = t.proto
    · cases b <;> simp [g2]
    · simp [g2]

theorem head6_fits {m : Mode} {h : Head6} {proto : Nat} {seg : Buf} (hl : seg.length < 65536) :
    (h.layer proto seg.length).Fits m seg := by
  refine ⟨show carrier ipv6 = true by decide, ?_, ?_, ?_⟩
  · exact lawful_none (by simp only [Head6.layer]; unfold ipv6; simp [fprim, fmisc, fpayload])
  · simp [Layer.fields, Head6.layer, ipv6, fprim, fmisc, fpayload, typedFields, typed, bytesVal,
      Ipv6Addr.toPrimitive, Ipv6Addr.segments]
  · simp [Layer.fields, Head6.layer, ipv6, fprim, fmisc, fpayload, lensAgree, lenNum, env, normField, Val.asNum,
      encField, bytesVal, bytes_flatMap, bitsOf_length]
    omega

theorem head6_length {h : Head6} {proto : Nat} {seg : Buf} :
    ((h.layer proto seg.length).wire seg).length = 40 + seg.length := by
  rw [Layer.wire, packBits_length]
  simp [Layer.fields, Head6.layer, ipv6, fprim, fmisc, fpayload, encFields, encField, bytesVal, bytes_flatMap,
    bitsOf_length, Ipv6Addr.toPrimitive, Ipv6Addr.segments]
  omega

theorem word_parts (a b : UInt8) : UInt8.ofNat (u16FromBe a b % 65536 / 256) = a ∧
    UInt8.ofNat (u16FromBe a b % 65536) = b := by
  have ha := a.toNat_lt
  have hb := b.toNat_lt
  rw [u16FromBe_eq]
  constructor <;> apply UInt8.toNat_inj.mp <;> simp only [UInt8.toNat_ofNat'] <;> omega

theorem v6_round (a : Ipv6Addr) : Ipv6Addr.ofPrimitive (a.toPrimitive.map (· % 65536)) = some a := by
  obtain ⟨⟨⟨l⟩, hl⟩⟩ := a
  match l, hl with
  | [a, b, c, d, e, f, g, h, i, j, k, l, m, n, o, p], _ =>
    simp only [Ipv6Addr.ofPrimitive, Ipv6Addr.toPrimitive, Ipv6Addr.segments, List.map_cons, List.map_nil,
      (word_parts _ _).1, (word_parts _ _).2]
    rfl

theorem v6_norm (w : Wire) (n : String) (a : Ipv6Addr) :
    normField w (fmisc n [16, 16, 16, 16, 16, 16, 16, 16]).ty (.nums a.toPrimitive) =
      .nums (a.toPrimitive.map (· % 65536)) := by
  simp [Ipv6Addr.toPrimitive, Ipv6Addr.segments, normField, fmisc]

theorem deliver6 {m : Mode} {outer : List Layer} {h : Head6} {t : Transport Ipv6Addr} (ht : t ∈ transports6)
    {seg pad : Buf} (htot : seg.length < 65536)
    (hout : ∀ ip : Buf, ip.length = 40 + seg.length → StackFits m outer ip ∧
      SliceLen (stackWire outer ip ++ pad).length)
    (hpad : SliceLen (40 + seg.length + pad.length))
    (hn : (t.d.newPacket seg).isSome = true) :
    ∃ frame seg' c, send6 m outer h t seg = .ok frame ∧ t.d.set m seg t.sumField (.num c) = .ok seg' ∧
      receive6 m (outer.map (·.d)) t (frame ++ pad) = .ok (some (h.src, h.dst, seg')) := by
  obtain ⟨j, tok⟩ := transports6_ok t ht
  obtain ⟨c, hc, e1, e2, e3⟩ := stamp_check tok (m := m) (s := h.src) (d := h.dst) hn (by omega)
  have hlen1 : (storeWord j c seg).length = seg.length := storeWord_length ..
  generalize storeWord j c seg = seg1 at e2 e3 hlen1
  rw [← hlen1] at hout hpad htot
  have hfit := head6_fits (m := m) (h := h) (proto := t.proto) htot
  have hlen := head6_length (h := h) (proto := t.proto) (seg := seg1)
  generalize hl : h.layer t.proto seg1.length = l at hfit hlen
  have hd : l.d = ipv6 := by rw [← hl]; rfl
  have hcl : closed l.d = true := by rw [hd]; decide
  have hpop := wire_populate hfit (by rw [hlen]; unfold SliceLen at *; omega)
  rw [hd, hlen] at hpop
  generalize hip0 : l.wire seg1 = ip0 at hpop hlen
  have hn0 : ∀ b : Buf, 40 ≤ b.length → (ipv6.newPacket b).isSome = true := fun b hb =>
    (C06_new_iff ipv6 b).1.mpr (by rw [show fixedBits ipv6.fields = 320 by decide]; omega)
  obtain ⟨hfo, hso⟩ := hout ip0 hlen
  have hwr := C82_write m outer _ hfo (by rw [List.length_append] at hso; unfold SliceLen at *; omega)
  have hrd := C82_read m outer _ pad hfo hso
  refine ⟨stackWire outer ip0, seg1, c, ?_, e1.symm.trans e2, ?_⟩
  · unfold send6
    simp only [e2, ok_bind, hl, hpop]
    exact hwr
  · unfold receive6
    rw [hrd]
    simp only [ok_bind]
    obtain ⟨pad', hp', hin⟩ : ∃ pad' : Buf, pad'.length ≤ pad.length ∧
        (if outer.any (fun l => closed l.d) = true then ip0 else ip0 ++ pad) = ip0 ++ pad' := by
      split
      · exact ⟨[], by simp, by simp⟩
      · exact ⟨pad, by simp, rfl⟩
    rw [hin]
    have hsl0 : SliceLen (ip0 ++ pad').length := by
      rw [List.length_append, hlen]; unfold SliceLen at *; omega
    have h40a : 40 ≤ (ip0 ++ pad').length := by rw [List.length_append]; omega
    obtain ⟨src, dst, seg2, b, o1, o2, o3, o4, o5, o6⟩ := accept6_value tok (m := m) h40a hsl0
    rw [o6]
    have hwg : ∀ (k : Nat) (f : Field) (v : Val), ipv6.fields[k]? = some f → l.header[k]? = some v →
        ipv6.get m (ip0 ++ pad') k = .ok (normField (l.E k) f.ty v) := by
      intro k f v hf hv
      have := wire_get hfit (by rw [hip0]; exact hsl0) hcl (k := k) (f := f) (v := v) (by rw [hd]; exact hf) hv
      rwa [hip0, hd] at this
    have hg4 : ipv6.get m (ip0 ++ pad') 4 = .ok (.nums [t.proto % 256]) :=
      hwg 4 _ (.nums [t.proto]) rfl (by rw [← hl]; rfl)
    have hg6 : ipv6.get m (ip0 ++ pad') 6 = .ok (.nums (h.src.toPrimitive.map (· % 65536))) :=
      (hwg 6 _ (.nums h.src.toPrimitive) rfl (by rw [← hl]; rfl)).trans (congrArg _ (v6_norm ..))
    have hg7 : ipv6.get m (ip0 ++ pad') 7 = .ok (.nums (h.dst.toPrimitive.map (· % 65536))) :=
      (hwg 7 _ (.nums h.dst.toPrimitive) rfl (by rw [← hl]; rfl)).trans (congrArg _ (v6_norm ..))
    have l4 : ipv6.get m (ip0 ++ pad') 4 = .ok (.nums [bitsAt (ip0 ++ pad') 48 8]) :=
      layoutOk_get (L := ipv6Layout) (by decide +kernel) (k := 4) rfl m _ h40a
    have v4 : bitsAt (ip0 ++ pad') 48 8 = t.proto := by
      rw [l4] at hg4
      injection hg4 with hg4
      have : bitsAt (ip0 ++ pad') 48 8 = t.proto % 256 := by simpa using hg4
      rw [this]
      simp only [transports6, List.mem_cons, List.not_mem_nil, or_false] at ht
      rcases ht with rfl | rfl | rfl <;> rfl
    have vseg : seg2 = seg1 := by
      have hp := wire_payload hfit (tail := pad') (by rw [hip0]; exact hsl0) (.inl hcl)
      rw [hip0, hd, C09_ipv6 m _ h40a] at hp
      injection hp with hp
      rw [o3, ← hp]
    have vaddr : ∀ (k o : Nat) (a b : Ipv6Addr),
        AddrField.mk ipv6 k ((ipv6.fields[k]?).elim "" (·.name)) o ∈ v6Fields →
        ipv6.get m (ip0 ++ pad') k = .ok (.nums (a.toPrimitive.map (· % 65536))) →
        b.octets.toList = ((ip0 ++ pad').drop o).take 16 → b = a := by
      intro k o a b hmem hg hb
      obtain ⟨-, ⟨a', h1, h2⟩, -⟩ := C72_ipv6 _ hmem m (ip0 ++ pad') hsl0 (hn0 _ h40a)
      simp only [Decl.getAs, hg, ok_bind, v6_round] at h1
      injection h1 with h1
      apply v6_ext
      rw [hb, h1, h2]
    have vsrc : src = h.src := vaddr 6 8 _ _ (by simp [v6Fields, ipv6, fprim, fmisc]) hg6 o1
    have vdst : dst = h.dst := vaddr 7 24 _ _ (by simp [v6Fields, ipv6, fprim, fmisc]) hg7 o2
    rw [vsrc, vdst, vseg, e3] at o5
    injection o5 with o5
    rw [if_pos ⟨v4, o5.symm⟩, vsrc, vdst, vseg]

/-- Moving the addresses behind the other words of the pseudo header. -/
theorem pseudo6_mod (s d : Ipv6Addr) (pr : UInt8) (n : Nat) (seg : Buf) :
    messageNat (pseudo6 s.octets.toList d.octets.toList pr n ++ seg) % 65535 =
      messageNat (pseudo6 [] [] pr n ++ (s.octets.toList ++ d.octets.toList ++ seg)) % 65535 := by
  rw [← words_sum_mod, ← words_sum_mod, words16_append _ seg (pseudo6_even ..),
    words16_append _ (_ ++ seg) (by simp [pseudo6]), words16_append _ seg (by simp)]
  simp only [pseudo6, List.nil_append]
  rw [words16_append _ [_, _, _, _, _, _, _, _] (by simp)]
  simp only [List.sum_append]
  congr 1
  omega

theorem safe6 {m : Mode} {t : Transport Ipv6Addr} (ht : t ∈ transports6) {p q : Buf} {n : Nat} (hn : n ≤ 15)
    (hsl : SliceLen p.length) (hb : Burst n p q) (hpl : bitsAt q 32 16 = bitsAt p 32 16)
    {r : Ipv6Addr × Ipv6Addr × Buf} (hp : accept6 m t p = .ok (some r)) :
    accept6 m t q = .ok none ∨ accept6 m t q = .ok (some r) := by
  obtain ⟨j, tok⟩ := transports6_ok t ht
  have hlen := burst_length hb
  by_cases h40 : 40 ≤ p.length
  · obtain ⟨src, dst, seg, b, o1, o2, o3, o4, o5, o6⟩ := accept6_value tok (m := m) h40 hsl
    obtain ⟨src', dst', seg', b', o1', o2', o3', o4', o5', o6'⟩ := accept6_value tok (m := m) (ip := q)
      (by omega) (by rw [← hlen]; exact hsl)
    rw [o6']
    rw [o6] at hp
    injection hp with hp
    split at hp
    · rename_i hc
      obtain ⟨c2, c3⟩ := hc
      split
      · rename_i hc'
        obtain ⟨c2', c3'⟩ := hc'
        have join : ∀ (ip : Buf) (k : Nat), 40 ≤ ip.length →
            (ip.drop 8).take 16 ++ (ip.drop 24).take 16 ++ (ip.drop 40).take k = (ip.drop 8).take (32 + k) := by
          intro ip k _
          rw [List.take_add, show (32 : Nat) = 16 + 16 from rfl, List.take_add, List.drop_drop, List.drop_drop]
        have jp := join p (bitsAt p 32 16) h40
        have jq := join q (bitsAt p 32 16) (by omega)
        rw [← o1, ← o2, ← o3] at jp
        rw [hpl] at o3'
        rw [← o1', ← o2', ← o3'] at jq
        have m1 := check_mod tok o4 (o5.trans (by rw [c3]))
        have m2 := check_mod tok o4' (o5'.trans (by rw [c3']))
        unfold pre6 at m1 m2
        rw [pseudo6_mod, jp] at m1
        rw [pseudo6_mod, jq] at m2
        have hsl' : seg'.length = seg.length := by
          rw [o3, o3', List.length_take, List.length_take, List.length_drop, List.length_drop, hlen]
        rw [hsl'] at m2
        have heq : (p.drop 8).take (32 + bitsAt p 32 16) = (q.drop 8).take (32 + bitsAt p 32 16) := by
          apply Classical.byContradiction
          intro hne
          obtain ⟨n1, hn1, hb1⟩ := burst_drop (k := 8) hb (by intro e; rw [e] at hne; exact hne rfl)
          obtain ⟨n2, hn2, hb2⟩ := burst_take hb1 hne
          exact burst_mod (by omega) (burst_append hb2 _) (m1.trans m2.symm)
        rw [← jp, ← jq] at heq
        obtain ⟨e1, e2⟩ := List.append_inj' heq hsl'.symm
        obtain ⟨e3, e4⟩ := List.append_inj e1 (by simp)
        right
        rw [← hp, v6_ext e3, v6_ext e4, e2]
      · exact .inl rfl
    · cases hp
  · unfold accept6 at hp
    cases hnp : ipv6.newPacket p with
    | none => rw [hnp] at hp; cases hp
    | some x =>
      have := (C06_new_iff ipv6 p).1.mp (by rw [hnp]; rfl)
      rw [show fixedBits ipv6.fields = 320 by decide] at this
      omega

end Verif
