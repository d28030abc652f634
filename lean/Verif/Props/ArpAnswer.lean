import Verif.Spec.ArpAnswer
import Verif.Props.Reflect

/-!
# C139: answers to ARP requests

The program is in `Spec/ArpAnswer`.
-/

set_option autoImplicit false

namespace Verif.Props
open Verif Verif.Spec

theorem patch_drop {a n : Nat} {new buf : Buf} (h : a + new.length ≤ buf.length) (hn : a + new.length ≤ n) :
    (patch a new buf).drop n = buf.drop n := by
  apply List.ext_getElem?
  intro i
  rw [List.getElem?_drop, List.getElem?_drop, patch_get h, if_neg (by omega)]

theorem newArp {b : Buf} (h : 28 ≤ b.length) : (arp.newPacket b).isSome = true :=
  (C06_new_iff arp b).1.mpr (by rw [show fixedBits arp.fields = 224 by decide]; omega)

theorem newEth {b : Buf} (h : 14 ≤ b.length) : (ethernet.newPacket b).isSome = true :=
  (C06_new_iff ethernet b).1.mpr (by rw [show fixedBits ethernet.fields = 112 by decide]; omega)

theorem set_op (m : Mode) {b : Buf} (hsl : SliceLen b.length) (h : 28 ≤ b.length) :
    arp.setAs Newtype.toPrimitive m b 4 2 = .ok (patch 6 [0, 2] b) := by
  obtain ⟨new, h1, h2, h3⟩ := C03_declared_setter arp (by decide) 4 _ rfl (by decide) (by decide) m
    (noInner 0) (.nums [2]) rfl b hsl (newArp h)
  unfold Decl.setAs Newtype.toPrimitive
  rw [h1]
  congr 1
  apply bitsOf_inj
  rw [h3, patch, bitsOf_append, bitsOf_append, bitsOf_take, bitsOf_drop]
  congr 2

theorem set_mac (m : Mode) (e : AddrField) (he : e ∈ macFields) {b : Buf} (hsl : SliceLen b.length)
    (hn : (e.decl.newPacket b).isSome = true) (a : MacAddr) :
    e.decl.setAs MacAddr.toPrimitive m b e.no a = .ok (patch e.start (macBytes a) b) := by
  obtain ⟨-, -, h⟩ := C72_mac e he m b hsl hn
  obtain ⟨new, h1, h2, -⟩ := h a
  rw [h1, h2]
  rfl

theorem set_v4 (m : Mode) (e : AddrField) (he : e ∈ v4Fields) {b : Buf} (hsl : SliceLen b.length)
    (hn : (e.decl.newPacket b).isSome = true) (a : Ipv4Addr) :
    e.decl.setAs Ipv4Addr.toPrimitive m b e.no a = .ok (patch e.start a.octets.toList b) := by
  obtain ⟨-, -, h⟩ := C72_ipv4 e he m b hsl hn
  obtain ⟨new, h1, h2, -⟩ := h a
  rw [h1, h2, patch, show a.octets.toList.length = 4 by simp]

theorem payloadMutEth (m : Mode) {frame new : Buf} (h : 14 < frame.length) (hsl : SliceLen frame.length)
    (hl : new.length = frame.length - 14) : ethernet.payloadMutCopy m frame new = .ok (patch 14 new frame) := by
  have hp := C09_open_payloads ethernet 14 (by simp [openPayloads]) m frame hsl
  have hb : ethernet.payloadBounds m frame = .ok (14, frame.length) := by
    have hco : curOff m (ethernet.before m frame 3).bit (ethernet.before m frame 3).lens = .ok 14 := by
      have := before_fixed (d := ethernet) (k := 3) (by decide) m frame
      rw [before_bit, this.2]
      exact curOff_ok (sizes := []) (by decide)
    rw [Decl.payloadBounds, show ethernet.payloadIdx = some 3 from rfl]
    dsimp only
    rw [show ethernet.fields[3]? = some _ from rfl]
    dsimp only
    rw [hco, ok_bind]
    simp [fpayloadRest]
  have hn : ¬ frame.length ≤ 14 := by omega
  rw [Decl.payload, hb, ok_bind] at hp
  dsimp only at hp
  rw [if_neg hn] at hp
  rw [Decl.payloadMutCopy, hb, ok_bind]
  dsimp only
  rw [if_neg hn, hp, ok_bind, if_pos (by simp only [List.length_drop]; omega), copyInto, if_pos (by omega)]
  rfl

theorem mac_prim {m : Mode} {d : Decl} {b : Buf} {k : Nat} {a : MacAddr} {w : Wire}
    (h : d.get m b k = .ok (normField w (.misc (List.replicate 6 (u 8))) (.nums a.toPrimitive))) :
    d.getAs MacAddr.ofPrimitive m b k = .ok a := by
  cases a
  simp [Decl.getAs, h, ok_bind, normField, MacAddr.toPrimitive, MacAddr.ofPrimitive, MacAddr.new, u, List.replicate]

theorem v4_prim {m : Mode} {d : Decl} {b : Buf} {k : Nat} {a : Ipv4Addr} {w : Wire}
    (h : d.get m b k = .ok (normField w (.misc (List.replicate 4 (u 8))) (.nums a.toPrimitive))) :
    d.getAs Ipv4Addr.ofPrimitive m b k = .ok a := by
  have : Ipv4Addr.ofPrimitive (List.zipWith (fun (p : Prim) v => v % 2 ^ p.size) (List.replicate 4 (u 8)) a.toPrimitive) = some a := by
    simp only [Ipv4Addr.toPrimitive, u, List.replicate, List.zipWith, Ipv4Addr.ofPrimitive]
    congr 1
    apply v4_ext
    obtain ⟨v⟩ := a
    rcases v with ⟨⟨l⟩, hl⟩
    match l, hl with
    | [a, b, c, d], _ => simp
  simp only [Decl.getAs, h, ok_bind, normField, this]

/-- The getters give the fields of `r`. -/
structure Sees (m : Mode) (frame : Buf) (r : ArpSeen) : Prop where
  dst : ethernet.getAs MacAddr.ofPrimitive m frame 0 = .ok r.dst
  src : ethernet.getAs MacAddr.ofPrimitive m frame 1 = .ok r.src
  hwType : arp.get m (frame.drop 14) 0 = .ok r.hwType
  protoType : arp.get m (frame.drop 14) 1 = .ok r.protoType
  hwLen : arp.get m (frame.drop 14) 2 = .ok r.hwLen
  protoLen : arp.get m (frame.drop 14) 3 = .ok r.protoLen
  op : arp.getAs Newtype.ofPrimitive m (frame.drop 14) 4 = .ok r.op
  senderHw : arp.getAs MacAddr.ofPrimitive m (frame.drop 14) 5 = .ok r.senderHw
  sender : arp.getAs Ipv4Addr.ofPrimitive m (frame.drop 14) 6 = .ok r.sender
  targetHw : arp.getAs MacAddr.ofPrimitive m (frame.drop 14) 7 = .ok r.targetHw
  target : arp.getAs Ipv4Addr.ofPrimitive m (frame.drop 14) 8 = .ok r.target

theorem readArp_of_sees {m : Mode} {frame : Buf} {r : ArpSeen} {ty : Nat} (h : 42 ≤ frame.length) (hsl : SliceLen frame.length)
    (ht : ethernet.getAs Newtype.ofPrimitive m frame 2 = .ok ty) (hs : Sees m frame r) :
    readArp m frame = .ok (if ty ≠ 0x0806 then none else some r) := by
  obtain ⟨x, hx⟩ := Option.isSome_iff_exists.mp (newEth (b := frame) (by omega))
  obtain ⟨y, hy⟩ := Option.isSome_iff_exists.mp (newArp (b := frame.drop 14) (by rw [List.length_drop]; omega))
  have hp := C09_open_payloads ethernet 14 (by simp [openPayloads]) m frame hsl
  unfold readArp
  simp only [hx, ht, ok_bind, hp, hy, hs.dst, hs.src, hs.hwType, hs.protoType, hs.hwLen, hs.protoLen, hs.op, hs.senderHw,
    hs.sender, hs.targetHw, hs.target]
  split <;> rfl

theorem readArp_value (m : Mode) {frame : Buf} (h : 42 ≤ frame.length) (hsl : SliceLen frame.length) :
    ∃ r ty, ethernet.getAs Newtype.ofPrimitive m frame 2 = .ok ty ∧ ethernet.get m frame 2 = .ok (.nums [ty]) ∧ Sees m frame r ∧
      ty = bitsAt frame 96 16 ∧ r.op = bitsAt (frame.drop 14) 48 16 := by
  have hb : 28 ≤ (frame.drop 14).length := by rw [List.length_drop]; omega
  have hbs : SliceLen (frame.drop 14).length := by unfold SliceLen at *; rw [List.length_drop]; omega
  obtain ⟨-, ⟨dst, h1, -⟩, -⟩ := C72_mac ⟨ethernet, 0, "destination", 0⟩ (by simp [macFields]) m frame hsl (newEth (by omega))
  obtain ⟨-, ⟨src, h2, -⟩, -⟩ := C72_mac ⟨ethernet, 1, "source", 6⟩ (by simp [macFields]) m frame hsl (newEth (by omega))
  obtain ⟨-, ⟨shw, h3, -⟩, -⟩ := C72_mac ⟨arp, 5, "sender_hw_addr", 8⟩ (by simp [macFields]) m _ hbs (newArp hb)
  obtain ⟨-, ⟨thw, h4, -⟩, -⟩ := C72_mac ⟨arp, 7, "target_hw_addr", 18⟩ (by simp [macFields]) m _ hbs (newArp hb)
  obtain ⟨-, ⟨sip, h5, -⟩, -⟩ := C72_ipv4 ⟨arp, 6, "sender_proto_addr", 14⟩ (by simp [v4Fields]) m _ hbs (newArp hb)
  obtain ⟨-, ⟨tip, h6, -⟩, -⟩ := C72_ipv4 ⟨arp, 8, "target_proto_addr", 24⟩ (by simp [v4Fields]) m _ hbs (newArp hb)
  have he : ethernet.get m frame 2 = .ok (.nums [bitsAt frame 96 16]) :=
    layoutOk_get (d := ethernet) (L := ethernetLayout) (by decide +kernel) (k := 2) rfl m frame (show 14 ≤ _ by omega)
  have hop : arp.get m (frame.drop 14) 4 = .ok (.nums [bitsAt (frame.drop 14) 48 16]) :=
    layoutOk_get (d := arp) (L := arpLayout) (by decide +kernel) (k := 4) rfl m _ hb
  exact ⟨⟨dst, src, _, _, _, _, bitsAt (frame.drop 14) 48 16, shw, sip, thw, tip⟩, bitsAt frame 96 16,
    by simp only [Decl.getAs, he, ok_bind, Newtype.ofPrimitive], he,
    ⟨h1, h2, layoutOk_get (d := arp) (L := arpLayout) (by decide +kernel) (k := 0) rfl m _ hb,
      layoutOk_get (d := arp) (L := arpLayout) (by decide +kernel) (k := 1) rfl m _ hb,
      layoutOk_get (d := arp) (L := arpLayout) (by decide +kernel) (k := 2) rfl m _ hb,
      layoutOk_get (d := arp) (L := arpLayout) (by decide +kernel) (k := 3) rfl m _ hb,
      by simp only [Decl.getAs, hop, ok_bind, Newtype.ofPrimitive], h3, h5, h4, h6⟩, rfl, rfl⟩

theorem readArp_short (m : Mode) {frame : Buf} (h : frame.length < 42) (hsl : SliceLen frame.length) :
    readArp m frame = .ok none := by
  unfold readArp
  by_cases h14 : 14 ≤ frame.length
  · obtain ⟨x, hx⟩ := Option.isSome_iff_exists.mp (newEth (b := frame) h14)
    have hp := C09_open_payloads ethernet 14 (by simp [openPayloads]) m frame hsl
    have he : ethernet.get m frame 2 = .ok (.nums [bitsAt frame 96 16]) :=
      layoutOk_get (d := ethernet) (L := ethernetLayout) (by decide +kernel) (k := 2) rfl m frame h14
    have hy : arp.newPacket (frame.drop 14) = none := by
      unfold Decl.newPacket
      rw [if_neg (by rw [show arp.minSize = 28 by decide, List.length_drop]; omega)]
    simp only [hx, Decl.getAs, he, ok_bind, Newtype.ofPrimitive, hp, hy]
    split <;> rfl
  · have hx : ethernet.newPacket frame = none := by
      unfold Decl.newPacket
      rw [if_neg (by rw [show ethernet.minSize = 14 by decide]; omega)]
    simp only [hx]

/-- The answer to a request that was read. -/
theorem answer_ok {m : Mode} {frame : Buf} {r : ArpSeen} (h : 42 ≤ frame.length) (hsl : SliceLen frame.length)
    (hr : readArp m frame = .ok (some r)) (hty : ethernet.get m frame 2 = .ok (.nums [0x0806])) (hs : Sees m frame r)
    (mac : MacAddr) (hop : r.op = 1) :
    ∃ out, answerArp m mac r.target frame = .ok (some out) ∧
      readArp m out = .ok (some { r with
        dst := r.src, src := mac, op := 2, senderHw := mac, sender := r.target, targetHw := r.senderHw, target := r.sender }) ∧
      out.length = frame.length ∧ out.drop 42 = frame.drop 42 := by
  have hp := C09_open_payloads ethernet 14 (by simp [openPayloads]) m frame hsl
  have hb : 28 ≤ (frame.drop 14).length := by rw [List.length_drop]; omega
  have hbs : SliceLen (frame.drop 14).length := by unfold SliceLen at *; rw [List.length_drop]; omega
  have hbl : (frame.drop 14).length = frame.length - 14 := List.length_drop
  have hbd : (frame.drop 14).drop 28 = frame.drop 42 := by rw [List.drop_drop]
  generalize hbody : frame.drop 14 = body at *
  have hm6 : ∀ a : MacAddr, (macBytes a).length = 6 := fun _ => rfl
  have ho4 : ∀ a : Ipv4Addr, a.octets.toList.length = 4 := fun a => by simp
  -- the ARP packet
  have w1 := set_op m hbs hb
  have l1 : (patch 6 [0, 2] body).length = body.length := patch_length (by simp only [List.length_cons, List.length_nil]; omega)
  have d1 : (patch 6 [0, 2] body).drop 28 = body.drop 28 := patch_drop (by simp only [List.length_cons, List.length_nil]; omega)
    (by simp only [List.length_cons, List.length_nil]; omega)
  generalize patch 6 [0, 2] body = b1 at w1 l1 d1
  have w2 := set_mac m ⟨arp, 7, "target_hw_addr", 18⟩ (by simp [macFields]) (b := b1) (by rw [l1]; exact hbs)
    (newArp (by omega)) r.senderHw
  have l2 : (patch 18 (macBytes r.senderHw) b1).length = b1.length := patch_length (by rw [hm6]; omega)
  have d2 : (patch 18 (macBytes r.senderHw) b1).drop 28 = b1.drop 28 := patch_drop (by rw [hm6]; omega) (by rw [hm6]; omega)
  dsimp only at w2
  generalize patch 18 (macBytes r.senderHw) b1 = b2 at w2 l2 d2
  have w3 := set_v4 m ⟨arp, 8, "target_proto_addr", 24⟩ (by simp [v4Fields]) (b := b2) (by rw [l2, l1]; exact hbs)
    (newArp (by omega)) r.sender
  have l3 : (patch 24 r.sender.octets.toList b2).length = b2.length := patch_length (by rw [ho4]; omega)
  have d3 : (patch 24 r.sender.octets.toList b2).drop 28 = b2.drop 28 := patch_drop (by rw [ho4]; omega) (by rw [ho4]; omega)
  dsimp only at w3
  generalize patch 24 r.sender.octets.toList b2 = b3 at w3 l3 d3
  have w4 := set_mac m ⟨arp, 5, "sender_hw_addr", 8⟩ (by simp [macFields]) (b := b3) (by rw [l3, l2, l1]; exact hbs)
    (newArp (by omega)) mac
  have l4 : (patch 8 (macBytes mac) b3).length = b3.length := patch_length (by rw [hm6]; omega)
  have d4 : (patch 8 (macBytes mac) b3).drop 28 = b3.drop 28 := patch_drop (by rw [hm6]; omega) (by rw [hm6]; omega)
  dsimp only at w4
  generalize patch 8 (macBytes mac) b3 = b4 at w4 l4 d4
  have w5 := set_v4 m ⟨arp, 6, "sender_proto_addr", 14⟩ (by simp [v4Fields]) (b := b4) (by rw [l4, l3, l2, l1]; exact hbs)
    (newArp (by omega)) r.target
  have l5 : (patch 14 r.target.octets.toList b4).length = b4.length := patch_length (by rw [ho4]; omega)
  have d5 : (patch 14 r.target.octets.toList b4).drop 28 = b4.drop 28 := patch_drop (by rw [ho4]; omega) (by rw [ho4]; omega)
  dsimp only at w5
  generalize patch 14 r.target.octets.toList b4 = b5 at w5 l5 d5
  obtain ⟨-, hA⟩ := C93_registers arp (by simp [crateDecls]) m (noInner 0)
    [.set 4 (.nums [2]), .set 7 (.nums r.senderHw.toPrimitive), .set 8 (.nums r.sender.toPrimitive),
      .set 5 (.nums mac.toPrimitive), .set 6 (.nums r.target.toPrimitive)] body b5 hbs (newArp hb) (by
      unfold Decl.setAs at w1 w2 w3 w4 w5
      simp only [Newtype.toPrimitive] at w1
      simp only [runWrites, Write.run, w1, w2, w3, w4, w5, ok_bind])
  -- the frame
  have v1 := payloadMutEth m (frame := frame) (new := b5) (by omega) hsl (by omega)
  have k1 : (patch 14 b5 frame).length = frame.length := patch_length (by omega)
  have e1 : (patch 14 b5 frame).drop 14 = b5 := by
    unfold patch
    rw [show 14 + b5.length = frame.length by omega, List.drop_length, List.append_nil,
      List.drop_left' (by rw [List.length_take]; omega)]
  generalize patch 14 b5 frame = f1 at v1 k1 e1
  have v2 := set_mac m ⟨ethernet, 0, "destination", 0⟩ (by simp [macFields]) (b := f1) (by rw [k1]; exact hsl)
    (newEth (by omega)) r.src
  have k2 : (patch 0 (macBytes r.src) f1).length = f1.length := patch_length (by rw [hm6]; omega)
  have e2 : (patch 0 (macBytes r.src) f1).drop 14 = f1.drop 14 := patch_drop (by rw [hm6]; omega) (by rw [hm6]; omega)
  dsimp only at v2
  generalize patch 0 (macBytes r.src) f1 = f2 at v2 k2 e2
  have v3 := set_mac m ⟨ethernet, 1, "source", 6⟩ (by simp [macFields]) (b := f2) (by rw [k2, k1]; exact hsl)
    (newEth (by omega)) mac
  have k3 : (patch 6 (macBytes mac) f2).length = f2.length := patch_length (by rw [hm6]; omega)
  have e3 : (patch 6 (macBytes mac) f2).drop 14 = f2.drop 14 := patch_drop (by rw [hm6]; omega) (by rw [hm6]; omega)
  dsimp only at v3
  generalize patch 6 (macBytes mac) f2 = f3 at v3 k3 e3
  obtain ⟨-, hE⟩ := C93_registers ethernet (by simp [crateDecls]) m (noInner 0)
    [.payload b5, .set 0 (.nums r.src.toPrimitive), .set 1 (.nums mac.toPrimitive)] frame f3 hsl (newEth (by omega)) (by
      unfold Decl.setAs at v2 v3
      simp only [runWrites, Write.run, v1, v2, v3, ok_bind])
  have hf3 : f3.drop 14 = b5 := by rw [e3, e2, e1]
  refine ⟨f3, ?_, ?_, by omega, ?_⟩
  · simp only [answerArp, hr, ok_bind, hop, ne_eq, not_true_eq_false, or_self, if_false, hp, w1, w2, w3, w4, w5, v1, v2, v3]
    rfl
  · have ht : ethernet.get m f3 2 = .ok (.nums [0x0806]) := by
      rw [← hty]
      exact (hE 2 _ rfl rfl).2 rfl
    rw [readArp_of_sees (m := m) (frame := f3) (ty := 0x0806) (by omega) (by rw [k3, k2, k1]; exact hsl)
      (by simp only [Decl.getAs, ht, ok_bind, Newtype.ofPrimitive])
      (r := { r with
        dst := r.src, src := mac, op := 2, senderHw := mac, sender := r.target, targetHw := r.senderHw, target := r.sender })]
    · rfl
    · have u0 : arp.get m body 0 = .ok r.hwType := by rw [← hbody]; exact hs.hwType
      have u1 : arp.get m body 1 = .ok r.protoType := by rw [← hbody]; exact hs.protoType
      have u2 : arp.get m body 2 = .ok r.hwLen := by rw [← hbody]; exact hs.hwLen
      have u3 : arp.get m body 3 = .ok r.protoLen := by rw [← hbody]; exact hs.protoLen
      have g4 : arp.get m b5 4 = .ok (.nums [2]) := (hA 4 _ rfl rfl).1 _ rfl
      exact ⟨mac_prim ((hE 0 _ rfl rfl).1 _ rfl), mac_prim ((hE 1 _ rfl rfl).1 _ rfl),
        by rw [hf3]; exact ((hA 0 _ rfl rfl).2 rfl).trans u0, by rw [hf3]; exact ((hA 1 _ rfl rfl).2 rfl).trans u1,
        by rw [hf3]; exact ((hA 2 _ rfl rfl).2 rfl).trans u2, by rw [hf3]; exact ((hA 3 _ rfl rfl).2 rfl).trans u3,
        by rw [hf3]; simp only [Decl.getAs, g4, ok_bind, Newtype.ofPrimitive],
        by rw [hf3]; exact mac_prim ((hA 5 _ rfl rfl).1 _ rfl), by rw [hf3]; exact v4_prim ((hA 6 _ rfl rfl).1 _ rfl),
        by rw [hf3]; exact mac_prim ((hA 7 _ rfl rfl).1 _ rfl), by rw [hf3]; exact v4_prim ((hA 8 _ rfl rfl).1 _ rfl)⟩
  · rw [show (42 : Nat) = 14 + 28 from rfl, ← List.drop_drop, hf3, ← List.drop_drop, hbody, d5, d4, d3, d2, d1]

/-- **C139.** A frame is read as ARP exactly when it has 42 bytes and its bytes 12 and 13 are 0x0806; the operation is what bytes
20 and 21 hold. -/
theorem C139_read (m : Mode) (frame : Buf) (hsl : SliceLen frame.length) :
    (42 ≤ frame.length ∧ bitsAt frame 96 16 = 0x0806 →
      ∃ r, readArp m frame = .ok (some r) ∧ r.op = bitsAt (frame.drop 14) 48 16) ∧
    (¬ (42 ≤ frame.length ∧ bitsAt frame 96 16 = 0x0806) → readArp m frame = .ok none) := by
  by_cases h : 42 ≤ frame.length
  · obtain ⟨r, ty, ht, -, hs, hty, ho⟩ := readArp_value m h hsl
    have hr := readArp_of_sees h hsl ht hs
    subst hty
    refine ⟨fun h1 => ⟨r, by rw [hr, if_neg (fun h2 => h2 h1.2)], ho⟩, fun h1 => ?_⟩
    rw [hr, if_pos fun h2 => h1 ⟨h, h2⟩]
  · exact ⟨fun h1 => absurd h1.1 h, fun _ => readArp_short m (by omega) hsl⟩

/-- **C139.** A frame is left unanswered exactly when it is not an ARP request for the responder's address. Otherwise the answer
is a reply from the responder to whoever asked. The other fields, the length and the padding after the ARP packet are those of the
request. -/
theorem C139_answer (m : Mode) (mac : MacAddr) (ip : Ipv4Addr) (frame : Buf) (hsl : SliceLen frame.length) :
    (answerArp m mac ip frame = .ok none ∧
      (readArp m frame = .ok none ∨ ∃ r, readArp m frame = .ok (some r) ∧ (r.op ≠ 1 ∨ r.target ≠ ip))) ∨
    ∃ r out, readArp m frame = .ok (some r) ∧ r.op = 1 ∧ r.target = ip ∧
      answerArp m mac ip frame = .ok (some out) ∧
      readArp m out = .ok (some { r with
        dst := r.src, src := mac, op := 2, senderHw := mac, sender := ip, targetHw := r.senderHw, target := r.sender }) ∧
      out.length = frame.length ∧ out.drop 42 = frame.drop 42 := by
  by_cases h : 42 ≤ frame.length
  · obtain ⟨r, ty, ht, hty, hs, -⟩ := readArp_value m h hsl
    have hr := readArp_of_sees h hsl ht hs
    by_cases h806 : ty = 0x0806
    · subst h806
      replace hr : readArp m frame = .ok (some r) := hr
      by_cases hq : r.op = 1 ∧ r.target = ip
      · obtain ⟨hop, rfl⟩ := hq
        obtain ⟨out, ho⟩ := answer_ok h hsl hr hty hs mac hop
        exact .inr ⟨r, out, hr, hop, rfl, ho⟩
      · have hq : r.op ≠ 1 ∨ r.target ≠ ip := by
          by_cases h1 : r.op = 1
          · exact .inr fun h2 => hq ⟨h1, h2⟩
          · exact .inl h1
        refine .inl ⟨?_, .inr ⟨r, hr, hq⟩⟩
        simp only [answerArp, hr, ok_bind, if_pos hq]
        rfl
    · rw [if_pos h806] at hr
      refine .inl ⟨?_, .inl hr⟩
      simp only [answerArp, hr, ok_bind]
      rfl
  · have hr := readArp_short m (by omega) hsl
    refine .inl ⟨?_, .inl hr⟩
    simp only [answerArp, hr, ok_bind]
    rfl

/-- **C139.** No responder answers an answer. -/
theorem C139_once (m : Mode) (mac mac' : MacAddr) (ip ip' : Ipv4Addr) (frame out : Buf) (hsl : SliceLen frame.length)
    (h : answerArp m mac ip frame = .ok (some out)) : answerArp m mac' ip' out = .ok none := by
  rcases C139_answer m mac ip frame hsl with ⟨h0, -⟩ | ⟨r, out', -, -, -, h1, h2, -, -⟩
  · rw [h0] at h
    simp at h
  · rw [h1] at h
    have h : out' = out := Option.some.inj (Except.ok.inj h)
    subst h
    simp only [answerArp, h2, ok_bind, if_pos (show (2 : Nat) ≠ 1 ∨ r.sender ≠ ip' from .inl (by decide))]
    rfl

/-- 10.0.0.1 asks who has 10.0.0.2, with two bytes of padding. -/
def arpRequest : Buf := [255, 255, 255, 255, 255, 255, 2, 0, 0, 0, 0, 1, 8, 6] ++
  [0, 1, 8, 0, 6, 4, 0, 1, 2, 0, 0, 0, 0, 1, 10, 0, 0, 1, 0, 0, 0, 0, 0, 0, 10, 0, 0, 2] ++ [7, 7]

/-- 10.0.0.2 answers. -/
def arpReply : Buf := [2, 0, 0, 0, 0, 1, 2, 0, 0, 0, 0, 2, 8, 6] ++
  [0, 1, 8, 0, 6, 4, 0, 2, 2, 0, 0, 0, 0, 2, 10, 0, 0, 2, 2, 0, 0, 0, 0, 1, 10, 0, 0, 1] ++ [7, 7]

example := (C139_read .debug arpRequest (by unfold SliceLen; decide)).1 (by decide +kernel)

example := C139_answer .debug ⟨2, 0, 0, 0, 0, 2⟩ ⟨#v[10, 0, 0, 2]⟩ arpRequest (by unfold SliceLen; decide)

theorem arpRequest_answered : answerArp .debug ⟨2, 0, 0, 0, 0, 2⟩ ⟨#v[10, 0, 0, 2]⟩ arpRequest = .ok (some arpReply) := by
  decide +kernel

example := C139_once .debug ⟨2, 0, 0, 0, 0, 2⟩ ⟨2, 0, 0, 0, 0, 1⟩ ⟨#v[10, 0, 0, 2]⟩ ⟨#v[10, 0, 0, 1]⟩ arpRequest arpReply
  (by unfold SliceLen; decide) arpRequest_answered

/-- Another host does not answer. -/
example : answerArp .debug ⟨2, 0, 0, 0, 0, 3⟩ ⟨#v[10, 0, 0, 3]⟩ arpRequest = .ok none := by decide +kernel

end Verif.Props
