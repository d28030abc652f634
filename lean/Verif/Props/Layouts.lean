import Verif.Proofs.Protocols
import Verif.Props.Vectors

/-! # Header layouts (C55) -/

namespace Verif.Props
open Spec

/-- The crate's header types with the layouts of their protocol documents. -/
def layouts : List (Decl × List Slot) := [
  (ethernet, ethernetLayout), (vlan, vlanLayout), (arp, arpLayout), (ipv4, ipv4Layout),
  (ipv4Option, ipv4OptionLayout), (ipv6, ipv6Layout), (extension, extensionLayout),
  (routing, routingLayout), (fragment, fragmentLayout), (udp, udpLayout), (tcp, tcpLayout),
  (tcpOption, tcpOptionLayout), (icmp, icmpLayout), (echoReply, echoLayout),
  (echoRequest, echoLayout), (destinationUnreachable, unusedLayout), (timeExceeded, unusedLayout),
  (icmpv6, icmpv6Layout), (routerSolicit, routerSolicitLayout), (routerAdvert, routerAdvertLayout),
  (neighborSolicit, neighborSolicitLayout), (neighborAdvert, neighborAdvertLayout),
  (redirect, redirectLayout), (ndpOption, ndpOptionLayout), (gre, greLayout)]

theorem layouts_ok : layouts.all (fun x => layoutOk x.1 x.2) = true := by decide +kernel

/-- **C55**. On every buffer accepted by `new`, the `k`-th field of each header type has the name
and the position given by the protocol document: its getter returns the bits there. -/
theorem C55_getters_read_rfc_positions (d : Decl) (L : List Slot) (h : (d, L) ∈ layouts) (k : Nat)
    (s : Slot) (hs : L[k]? = some s) (m : Mode) (buf : Buf)
    (hnew : (d.newPacket buf).isSome = true) :
    (d.fields[k]?).map (·.name) = some s.name ∧ d.get m buf k = .ok (s.read buf) := by
  have hok : layoutOk d L = true := List.all_eq_true.mp layouts_ok (d, L) h
  exact ⟨slotOk_name (layoutOk_slot hok hs).2,
    layoutOk_get hok hs m buf (by rw [C06_minimum_packet_size]; exact (C06_new_iff d buf).1.mp hnew)⟩

example : ethernet.get .debug [1, 2, 3, 4, 5, 6, 7, 8, 9, 10, 11, 12, 0x86, 0xdd] 2 = .ok (.nums [0x86dd]) :=
  (C55_getters_read_rfc_positions ethernet ethernetLayout (by simp [layouts]) 2 _ rfl .debug _ (by decide)).2

/-- Total number of bits of a layout. -/
def layoutBits (L : List Slot) : Nat :=
  (L.map fun s => match s.shape with | .int n => n | .tuple ns => ns.sum).sum

/-- **C55**: the layouts list all fixed-size fields, without gaps, so the fields after them
(options, payload) start right behind the header. -/
theorem C55_layouts_complete (d : Decl) (L : List Slot) (h : (d, L) ∈ layouts) :
    fixedBits d.fields = layoutBits L ∧
    ∀ k s, L[k]? = some s → s.start = layoutBits (L.take k) := by
  have key : layouts.all (fun x => fixedBits x.1.fields == layoutBits x.2 &&
      (List.range x.2.length).all fun k =>
        match x.2[k]? with
        | some s => s.start == layoutBits (x.2.take k)
        | none => false) = true := by decide +kernel
  have := List.all_eq_true.mp key (d, L) h
  simp only [Bool.and_eq_true, beq_iff_eq, List.all_eq_true, List.mem_range] at this
  refine ⟨this.1, fun k s hs => ?_⟩
  have h2 := this.2 k (List.getElem?_eq_some_iff.mp hs).1
  rw [hs] at h2
  simpa using h2

example : fixedBits tcp.fields = 160 := (C55_layouts_complete tcp tcpLayout (by simp [layouts])).1

/-- **C55**: the number in whole bytes is the big-endian number of those bytes. -/
theorem C55_whole_bytes (buf : Buf) (o n : Nat) :
    bitsAt buf (8 * o) (8 * n) = beNat ((buf.drop o).take n) := by
  rw [bitsAt, bitSlice, ← bitsOf_drop, ← bitsOf_take, ← beNat_eq_ofBits]

example : bitsAt [1, 2, 3, 4] 8 16 = 0x0203 := C55_whole_bytes [1, 2, 3, 4] 1 2

/-- **C55** for setters: setting field `k` writes the value's low bits at the slot's position and
changes nothing else. -/
theorem C55_setters_write_rfc_positions (d : Decl) (L : List Slot) (h : (d, L) ∈ layouts) (k : Nat)
    (s : Slot) (hs : L[k]? = some s) (n : Nat) (hn : s.shape = .int n) (m : Mode) (buf : Buf)
    (hsl : SliceLen buf.length) (hnew : (d.newPacket buf).isSome = true) (v : Nat) :
    ∃ new, d.set m buf k (.num v) = .ok new ∧ new.length = buf.length ∧
      bitsOf new = (bitsOf buf).take s.start ++ toBits n v ++ (bitsOf buf).drop (s.start + n) := by
  have hok : layoutOk d L = true := List.all_eq_true.mp layouts_ok (d, L) h
  obtain ⟨hacc, hslot⟩ := layoutOk_slot hok hs
  unfold slotOk at hslot
  cases hf : d.fields[k]? with
  | none => rw [hf] at hslot; simp at hslot
  | some f =>
    rw [hf] at hslot
    simp only [Bool.and_eq_true, beq_iff_eq] at hslot
    obtain ⟨⟨⟨⟨-, h2⟩, h3⟩, h4⟩, h5⟩ := hslot
    cases hty : f.ty <;> rw [hty, hn] at h3 <;> simp [Ty.hasShape] at h3
    obtain ⟨new, e1, e2, e3⟩ := C03_declared_setter d hacc k f hf h5 h4 m ⟨fun _ => [], id, fun _ => False⟩
      (.num v) (by rw [hty]; trivial) buf hsl hnew
    refine ⟨new, e1, e2, ?_⟩
    rw [e3, fixedBits_eq, h2, hty]
    simp [intWidths, encField, h3]

example := C55_setters_write_rfc_positions tcp tcpLayout (by simp [layouts]) 6 _ rfl 9 rfl .debug
  (List.replicate 20 0) (by decide) (by decide) 0x112

/-- **C55** for setters of addresses and newtypes: the values' low bits are written one after the
other from the slot's position on, and nothing else changes. -/
theorem C55_setters_write_tuples (d : Decl) (L : List Slot) (h : (d, L) ∈ layouts) (k : Nat)
    (s : Slot) (hs : L[k]? = some s) (ns : List Nat) (hn : s.shape = .tuple ns) (m : Mode) (buf : Buf)
    (hsl : SliceLen buf.length) (hnew : (d.newPacket buf).isSome = true) (vs : List Nat)
    (hl : vs.length = ns.length) :
    ∃ new, d.set m buf k (.nums vs) = .ok new ∧ new.length = buf.length ∧
      bitsOf new = (bitsOf buf).take s.start ++ (List.zipWith toBits ns vs).flatten ++
        (bitsOf buf).drop (s.start + ns.sum) := by
  have hok : layoutOk d L = true := List.all_eq_true.mp layouts_ok (d, L) h
  obtain ⟨hacc, hslot⟩ := layoutOk_slot hok hs
  unfold slotOk at hslot
  cases hf : d.fields[k]? with
  | none => rw [hf] at hslot; simp at hslot
  | some f =>
    rw [hf] at hslot
    simp only [Bool.and_eq_true, beq_iff_eq] at hslot
    obtain ⟨⟨⟨⟨-, h2⟩, h3⟩, h4⟩, h5⟩ := hslot
    cases hty : f.ty <;> rw [hty, hn] at h3 <;> simp [Ty.hasShape] at h3
    rename_i args
    obtain ⟨new, e1, e2, e3⟩ := C03_declared_setter d hacc k f hf h5 h4 m ⟨fun _ => [], id, fun _ => False⟩
      (.nums vs) (by rw [hty]; change vs.length = args.length; rw [hl, ← h3, List.length_map]) buf hsl hnew
    refine ⟨new, e1, e2, ?_⟩
    have hz : List.zipWith (fun (p : Prim) v => toBits p.size v) args vs = List.zipWith toBits ns vs := by
      rw [← h3, List.zipWith_map_left]
    rw [e3, fixedBits_eq, h2, hty]
    simp only [intWidths, encField, h3, hz]

example : (ethernet, ethernetLayout) ∈ layouts ∧
    ethernetLayout[2]? = some ⟨"ethertype", 96, .tuple [16]⟩ := by
  refine ⟨?_, rfl⟩
  simp [layouts]

example : (tcp, tcpLayout) ∈ layouts ∧ tcpLayout[6]? = some ⟨"flags", 103, .int 9⟩ ∧
    tcp.get .debug ([0, 80, 1, 187, 0, 0, 0, 1, 0, 0, 0, 2, 0x51, 0x12] ++ List.replicate 6 0) 6 =
      .ok (.num 0x112) := by
  refine ⟨?_, rfl, by decide +kernel⟩
  simp [layouts]

end Verif.Props
