import Verif.Spec.Translate
import Verif.Props.Router

/-!
# C136: address translation written with the crate

The translator is in `Spec/Translate`.
-/

set_option autoImplicit false

namespace Verif.Props
open Verif Verif.Spec

/-- Bytes written over others. -/
def patch (a : Nat) (new buf : Buf) : Buf := buf.take a ++ new ++ buf.drop (a + new.length)

theorem patch_length {a : Nat} {new buf : Buf} (h : a + new.length ≤ buf.length) :
    (patch a new buf).length = buf.length := by
  unfold patch
  simp only [List.length_append, List.length_take, List.length_drop]
  omega

theorem patch_get {a : Nat} {new buf : Buf} (h : a + new.length ≤ buf.length) (i : Nat) :
    (patch a new buf)[i]? = if a ≤ i ∧ i < a + new.length then new[i - a]? else buf[i]? := by
  have hl : (buf.take a).length = a := by rw [List.length_take]; omega
  unfold patch
  rw [List.append_assoc]
  by_cases h1 : i < a
  · rw [List.getElem?_append_left (by omega), if_neg (by omega), List.getElem?_take, if_pos h1]
  · rw [List.getElem?_append_right (by omega), hl]
    by_cases h2 : i < a + new.length
    · rw [List.getElem?_append_left (by omega), if_pos (by omega)]
    · rw [List.getElem?_append_right (by omega), if_neg (by omega), List.getElem?_drop]
      congr 1
      omega

theorem storeWord_get (j c : Nat) (b : Buf) {i : Nat} (h : i ≠ 2 * j ∧ i ≠ 2 * j + 1) : (storeWord j c b)[i]? = b[i]? := by
  unfold storeWord putWord
  rw [List.getElem?_set_ne (by omega), List.getElem?_set_ne (by omega)]

/-- Where `payload_mut()` of an IPv4 packet is. -/
theorem payloadMut4 (m : Mode) {ip new : Buf} (h : 20 ≤ ip.length)
    (hl : new.length = ((ip.drop (max 20 (4 * bitsAt ip 4 4))).take (bitsAt ip 16 16 - 4 * bitsAt ip 4 4)).length)
    (hne : new ≠ []) :
    max 20 (4 * bitsAt ip 4 4) + new.length ≤ ip.length ∧
    ipv4.payloadMutCopy m ip new = .ok (patch (max 20 (4 * bitsAt ip 4 4)) new ip) := by
  have hpos := List.length_pos_iff.mpr hne
  have hp := C09_ipv4 m ip h
  have hlt := bitsAt_lt ip 4 4
  have hlt2 := bitsAt_lt ip 16 16
  have hb : ∃ b, ipv4.payloadBounds m ip = .ok (max 20 (4 * bitsAt ip 4 4), b) := by
    have hlen := ipv4_payLen m ip h rfl
    have hco : curOff m (ipv4.before m ip 14).bit (ipv4.before m ip 14).lens = .ok (max 20 (4 * bitsAt ip 4 4)) := by
      rw [before_bit, ipv4_lens14 m ip h, curOff_ok (by
        rw [show bitsSum (ipv4.fields.take 14) = 160 from rfl]; unfold usizeCard; simp; omega),
        show bitsSum (ipv4.fields.take 14) = 160 from rfl]
      congr 1
      simp; omega
    rw [Decl.payloadBounds, show ipv4.payloadIdx = some 14 from rfl]
    dsimp only
    rw [show ipv4.fields[14]? = some _ from rfl]
    dsimp only
    rw [hco, ok_bind]
    rw [fieldLen] at hlen
    dsimp only [fpayload] at hlen ⊢
    rw [hlen, ok_bind, uadd_ok (by unfold usizeCard; omega), ok_bind]
    exact ⟨_, rfl⟩
  obtain ⟨b, hb⟩ := hb
  simp only [List.length_take, List.length_drop] at hl
  refine ⟨by omega, ?_⟩
  have hn : ¬ ip.length ≤ max 20 (4 * bitsAt ip 4 4) := by omega
  rw [Decl.payload, hb, ok_bind] at hp
  dsimp only at hp
  rw [if_neg hn] at hp
  rw [Decl.payloadMutCopy, hb, ok_bind]
  dsimp only
  rw [if_neg hn, hp, ok_bind, if_pos (by simp only [List.length_take, List.length_drop]; omega), copyInto,
    if_pos (by omega)]
  rfl

/-- A header with the checksum stored. -/
theorem stored4 {x : Buf} (h : 20 ≤ x.length) (hsl : SliceLen x.length) :
    (∀ m, ipv4.set m x 10 (.num (sum4 x)) = .ok (storeWord 5 (sum4 x) x)) ∧
    bitsAt (storeWord 5 (sum4 x) x) 80 16 = sum4 x ∧ sum4 (storeWord 5 (sum4 x) x) = sum4 x := by
  have w : ∀ m, ipv4.set m x 10 (.num (sum4 x)) = .ok (storeWord 5 (sum4 x) x) := fun m =>
    (set_word (d := ipv4) (by decide) (k := 10) (j := 5) rfl rfl (by decide) (by decide) m _ hsl (new4 h) _).2
  have hl : (storeWord 5 (sum4 x) x).length = x.length := storeWord_length ..
  obtain ⟨-, hr⟩ := C93_registers ipv4 (by simp [crateDecls]) .debug (noInner 0) [.set 10 (.num (sum4 x))] x _
    hsl (new4 h) (by simp only [runWrites, Write.run, w, ok_bind]; rfl)
  have e10 := (hr 10 _ rfl rfl).1 _ rfl
  rw [layoutOk_get (L := ipv4Layout) (by decide +kernel) (k := 10) rfl .debug _ (by rw [hl]; exact h)] at e10
  have a10 : bitsAt (storeWord 5 (sum4 x) x) 80 16 = sum4 x % 2 ^ 16 := Val.num.inj (Except.ok.inj e10)
  refine ⟨w, ?_, ?_⟩
  · rw [a10]
    unfold sum4
    rw [Nat.mod_eq_of_lt (internetChecksum_lt _)]
  · have hh : head4 (storeWord 5 (sum4 x) x) = head4 x := by
      unfold head4
      rw [hl]
      simp [storeWord, putWord, List.getD_eq_getElem?_getD]
    rw [sum4, hh, storeWord_take, zeroWord_storeWord_self]
    rfl

/-- What is used of UDP and TCP. -/
theorem ported4_ok {t : Transport Ipv4Addr} (ht : t ∈ ported4) :
    TransportOk t (sumAt t / 2) (pre4 t) ∧ 2 * (sumAt t / 2) = sumAt t ∧ 2 ≤ sumAt t ∧ t ∈ transports4 ∧
    (∃ f, t.d.fields[0]? = some f ∧ f.ty = .prim ⟨16, .big⟩ ∧ isFixed f = true) ∧ t.d ∈ crateDecls := by
  have hm : t ∈ transports4 := (List.mem_filter.mp ht).1
  obtain ⟨j, tok⟩ := transports4_ok t hm
  have hpos := tok.pos
  simp only [ported4, transports4, List.filter] at ht
  simp only [ne_eq, decide_not] at ht
  simp at ht
  rcases ht with rfl | rfl
  · rw [show fixedBits (udp.fields.take 3) = 48 by decide] at hpos
    have : j = 3 := by omega
    subst this
    exact ⟨tok, by decide, by decide, hm, ⟨_, rfl, rfl, rfl⟩, by simp [crateDecls]⟩
  · rw [show fixedBits (tcp.fields.take 8) = 128 by decide] at hpos
    have : j = 8 := by omega
    subst this
    exact ⟨tok, by decide, by decide, hm, ⟨_, rfl, rfl, rfl⟩, by simp [crateDecls]⟩

/-- A segment with another port. -/
theorem port_seg {t : Transport Ipv4Addr} (ht : t ∈ ported4) (m : Mode) {seg : Buf} {s d : Ipv4Addr}
    (hl : seg.length ≤ 65535) (hc : t.check m seg s d = .ok true) (src : Ipv4Addr) (port : Nat) (hp : port < 65536) :
    ∃ c, t.d.set m seg 0 (.num port) = .ok (storeWord 0 port seg) ∧
      t.stamp m (storeWord 0 port seg) src d = .ok (storeWord (sumAt t / 2) c (storeWord 0 port seg)) ∧
      t.check m (storeWord (sumAt t / 2) c (storeWord 0 port seg)) src d = .ok true ∧
      t.d.get m (storeWord (sumAt t / 2) c (storeWord 0 port seg)) 0 = .ok (.num port) ∧
      2 * (sumAt t / 2) + 2 ≤ seg.length ∧
      (∃ p, t.d.get m seg 0 = .ok (.num p) ∧ p < 65536) ∧
      (∀ p, t.d.get m seg 0 = .ok (.num p) → storeWord 0 p seg = seg) ∧
      (∀ b, zeroWord (sumAt t / 2) b = zeroWord (sumAt t / 2) seg → b.length = seg.length →
        t.stamp m b s d = .ok seg) := by
  obtain ⟨tok, ej, e2, hm, ⟨f, hf, hty, hfix⟩, hcr⟩ := ported4_ok ht
  have hn : (t.d.newPacket seg).isSome = true := by
    cases hp : t.d.newPacket seg with
    | none => unfold Transport.check at hc; rw [hp] at hc; cases hc
    | some x => rfl
  have hsl : SliceLen seg.length := by unfold SliceLen; omega
  have hfx : (t.d.fields.take 1).all isFixed = true := by
    cases hfs : t.d.fields with
    | nil => rw [hfs] at hf; cases hf
    | cons g rest => rw [hfs] at hf; cases hf; simpa using hfix
  have hroom := seg_room tok hn
  have w1 := (set_word tok.acc hf hty hfx (j := 0) rfl m seg hsl hn port).2
  have hl1 : (storeWord 0 port seg).length = seg.length := storeWord_length ..
  have hn1 : ∀ b : Buf, b.length = seg.length → (t.d.newPacket b).isSome = true := by
    intro b hb
    rw [(C06_new_iff _ _).1, hb]; exact (C06_new_iff _ _).1.mp hn
  obtain ⟨c, hclt, c1, c2, c3⟩ := stamp_check tok (m := m) (s := src) (d := d) (hn1 _ hl1) (by omega)
  obtain ⟨-, hr⟩ := C93_registers t.d hcr m (noInner 0) [.set 0 (.num port), .set t.sumField (.num c)] seg
    (storeWord (sumAt t / 2) c (storeWord 0 port seg)) hsl hn
    (by simp only [runWrites, Write.run, w1, ok_bind, ← c1, c2])
  have hsf : t.sumField ≠ 0 := by
    intro e
    have := tok.pos
    rw [e] at this
    simp [fixedBits] at this
    omega
  have hg := (hr 0 f hf hfix).1 (.num port) (by simp [lastWrite, hsf])
  rw [hty] at hg
  simp only [normField] at hg
  rw [Nat.mod_eq_of_lt (by simpa using hp)] at hg
  obtain ⟨c', g1, g2, g3⟩ := check_value tok (m := m) (s := s) (d := d) hn hl
  rw [hc] at g3
  injection g3 with g3
  have hc' : c' = internetChecksum (words16 (pre4 t s d seg.length ++ zeroWord (sumAt t / 2) seg)) := by simpa using g3.symm
  have hst : ∀ b, zeroWord (sumAt t / 2) b = zeroWord (sumAt t / 2) seg → b.length = seg.length →
        t.stamp m b s d = .ok seg := by
    intro b hz hb
    obtain ⟨f', hf', hty'⟩ := tok.field
    have hs := tok.sum m b s d (by intro e; rw [e] at hb; simp at hb; omega) (by omega)
    rw [hb, hz, ← hc'] at hs
    simp only [Transport.stamp, hs, ok_bind]
    rw [(set_word tok.acc hf' hty' tok.fixed tok.pos m b (by rw [hb]; exact hsl) (hn1 b hb) c').2]
    congr 1
    conv => rhs; rw [← g2]
    have key : ∀ x : Buf, storeWord (sumAt t / 2) c' x = storeWord (sumAt t / 2) c' (zeroWord (sumAt t / 2) x) := by
      intro x
      unfold zeroWord storeWord putWord
      rw [List.set_comm (i := 2 * (sumAt t / 2) + 1) (j := 2 * (sumAt t / 2)) _ _ (by omega), List.set_set, List.set_set]
    rw [key, hz, ← key]
  refine ⟨c, w1, c2, c3, hg, hroom, ?_, fun p hp => (get_word tok.acc hf hty hfx (j := 0) rfl hn hp).2, hst⟩
  · have := C07_fixed_getter_value t.d tok.acc 0 f hf hfx (by rw [hty]; rfl) m seg hn
    rw [hty] at this
    exact ⟨_, this, get_word_lt tok.acc hf hty hfx hn this⟩

/-- An IPv4 packet that is accepted, in bytes. -/
theorem accepted4 {m : Mode} {t : Transport Ipv4Addr} (ht : t ∈ transports4) {ip : Buf} (hsl : SliceLen ip.length)
    {s d : Ipv4Addr} {seg : Buf} :
    accept4 m t ip = .ok (some (s, d, seg)) ↔ 20 ≤ ip.length ∧ s.octets.toList = (ip.drop 12).take 4 ∧
      d.octets.toList = (ip.drop 16).take 4 ∧
      seg = (ip.drop (max 20 (4 * bitsAt ip 4 4))).take (bitsAt ip 16 16 - 4 * bitsAt ip 4 4) ∧
      bitsAt ip 80 16 = sum4 ip ∧ bitsAt ip 72 8 = t.proto ∧ seg.length ≤ 65535 ∧ t.check m seg s d = .ok true := by
  obtain ⟨j, tok⟩ := transports4_ok t ht
  by_cases h : 20 ≤ ip.length
  · obtain ⟨s', d', seg', b, a1, a2, -, -, a3, a6, a4, a5⟩ := accept4_value tok (m := m) h hsl
    rw [a5]
    constructor
    · intro e
      split at e
      · rename_i hc
        obtain ⟨h1, h2, h3⟩ := hc
        simp only [Except.ok.injEq, Option.some.injEq, Prod.mk.injEq] at e
        obtain ⟨rfl, rfl, rfl⟩ := e
        subst h3
        exact ⟨h, a1, a2, a3, h1, h2, a6, a4⟩
      · cases e
    · rintro ⟨-, b1, b2, b3, b4, b5, b6, b7⟩
      have e1 : s = s' := v4_ext (by rw [b1, a1])
      have e2 : d = d' := v4_ext (by rw [b2, a2])
      have e3 : seg = seg' := by rw [b3, a3]
      subst e1 e2 e3
      rw [b7] at a4
      cases a4
      rw [if_pos ⟨b4, b5, rfl⟩]
  · constructor
    · intro e
      unfold accept4 at e
      have : ipv4.newPacket ip = none := by
        unfold Decl.newPacket
        rw [if_neg (by rw [show ipv4.minSize = 20 by decide]; omega)]
      rw [this] at e
      cases e
    · intro e
      exact absurd e.1 h

theorem segmentAt_eq {ip : Buf} (h : 20 ≤ ip.length) : max 20 (4 * bitsAt ip 4 4) = segmentAt ip := by
  have h1 := ipv4_header_length (m := .debug) h
  rw [layoutOk_get (d := ipv4) (L := ipv4Layout) (by decide +kernel) (k := 1) rfl .debug ip h] at h1
  have h2 : bitsAt ip 4 4 = (ip.getD 0 0).toNat % 16 := Val.num.inj (Except.ok.inj h1)
  rw [h2]
  rfl

theorem storeWord_at (j c : Nat) {a b : Buf} (h : a.length = b.length) {i : Nat} (hi : i = 2 * j ∨ i = 2 * j + 1) :
    (storeWord j c a)[i]? = (storeWord j c b)[i]? := by
  unfold storeWord putWord
  rw [List.getElem?_set, List.getElem?_set, List.getElem?_set, List.getElem?_set, List.length_set, List.length_set, h]
  rcases hi with rfl | rfl
  · simp
  · simp

/-- The bytes of a translated packet. -/
theorem translated_get {ip seg : Buf} {src : Ipv4Addr} {a : Nat} (h20 : 20 ≤ a) (h : a + seg.length ≤ ip.length) (c : Nat)
    {i : Nat} (h1 : i ≠ 10) (h2 : i ≠ 11) :
    (storeWord 5 c (patch 12 src.octets.toList (patch a seg ip)))[i]? =
      if 12 ≤ i ∧ i < 16 then src.octets.toList[i - 12]? else if a ≤ i ∧ i < a + seg.length then seg[i - a]? else ip[i]? := by
  have h4 : src.octets.toList.length = 4 := by simp
  rw [storeWord_get _ _ _ (by omega), patch_get (by rw [h4, patch_length h]; omega), h4, patch_get h]

/-- What the translator makes of an accepted packet. -/
theorem translate4_value {m : Mode} {t : Transport Ipv4Addr} (ht : t ∈ ported4) {ip : Buf} (hsl : SliceLen ip.length)
    {s d : Ipv4Addr} {seg : Buf} (h : accept4 m t ip = .ok (some (s, d, seg))) (src : Ipv4Addr) {seg₁ seg₂ : Buf} {port : Nat}
    (h1 : t.d.set m seg 0 (.num port) = .ok seg₁) (h2 : t.stamp m seg₁ src d = .ok seg₂)
    (hl : seg₂.length = seg.length) (hne : seg₂ ≠ []) :
    let x := patch 12 src.octets.toList (patch (max 20 (4 * bitsAt ip 4 4)) seg₂ ip)
    max 20 (4 * bitsAt ip 4 4) + seg₂.length ≤ ip.length ∧ x.length = ip.length ∧
    translate4 m t src port ip = .ok (some (storeWord 5 (sum4 x) x)) := by
  intro x
  obtain ⟨h20, b1, b2, b3, b4, b5, b6, b7⟩ := (accepted4 (List.mem_filter.mp ht).1 hsl).mp h
  obtain ⟨p1, p2⟩ := payloadMut4 m (new := seg₂) h20 (by rw [hl, b3]) hne
  have hx0 := patch_length p1
  have h4 : src.octets.toList.length = 4 := by simp
  have hxl : x.length = ip.length := by
    show (patch 12 _ _).length = _
    rw [patch_length (by omega), hx0]
  obtain ⟨-, -, ha⟩ := C72_ipv4 ⟨ipv4, 11, "source", 12⟩ (by simp [v4Fields]) m
    (patch (max 20 (4 * bitsAt ip 4 4)) seg₂ ip) (by rw [hx0]; exact hsl) (new4 (by omega))
  obtain ⟨new, n1, n2, -⟩ := ha src
  have hpa : ∀ y : Buf, patch 12 src.octets.toList y = y.take 12 ++ src.octets.toList ++ y.drop (12 + 4) := by
    intro y
    rw [patch, h4]
  have hnew : new = x := n2.trans (hpa _).symm
  rw [hnew] at n1
  refine ⟨p1, hxl, ?_⟩
  have w := (stored4 (x := x) (by omega) (by rw [hxl]; exact hsl)).1 m
  simp only [translate4, h, ok_bind, h1, h2, p2, n1, sum4_eq m (ip := x) (by omega), w]
  rfl

/-- A packet that passes, and the way back. -/
theorem translate4_ok {m : Mode} {t : Transport Ipv4Addr} (ht : t ∈ ported4) {ip : Buf} (hsl : SliceLen ip.length)
    {s d : Ipv4Addr} {seg : Buf} (h : accept4 m t ip = .ok (some (s, d, seg))) (src : Ipv4Addr) {port : Nat}
    (hp : port < 65536) :
    ∃ out seg', translate4 m t src port ip = .ok (some out) ∧
      accept4 m t out = .ok (some (src, d, seg')) ∧ t.d.get m seg' 0 = .ok (.num port) ∧
      SameExcept [0, 1, sumAt t, sumAt t + 1] seg' seg ∧
      SameExcept [10, 11, 12, 13, 14, 15, segmentAt ip, segmentAt ip + 1, segmentAt ip + sumAt t,
        segmentAt ip + sumAt t + 1] out ip ∧
      ∃ p, p < 65536 ∧ t.d.get m seg 0 = .ok (.num p) ∧ translate4 m t s p out = .ok (some ip) := by
  obtain ⟨tok, ej, e2, hm, -, -⟩ := ported4_ok ht
  obtain ⟨h20, b1, b2, b3, b4, b5, b6, b7⟩ := (accepted4 hm hsl).mp h
  obtain ⟨c, q1, q2, q3, q4, q5, ⟨p, q6, q7⟩, q8, q9⟩ := port_seg ht m b6 b7 src port hp
  have q8 := q8 p q6
  generalize hs2 : storeWord (sumAt t / 2) c (storeWord 0 port seg) = seg₂ at *
  have hl2 : seg₂.length = seg.length := by rw [← hs2, storeWord_length, storeWord_length]
  have hne : seg₂ ≠ [] := by intro e; rw [e] at hl2; simp at hl2; omega
  obtain ⟨p1, p2, p3⟩ := translate4_value ht hsl h src q1 q2 hl2 hne
  have hs4 : src.octets.toList.length = 4 := by simp
  have hso4 : s.octets.toList.length = 4 := by simp
  have hseg2 : ∀ i, i ≠ 0 → i ≠ 1 → i ≠ sumAt t → i ≠ sumAt t + 1 → seg₂[i]? = seg[i]? := by
    intro i i0 i1 i2 i3
    rw [← hs2, storeWord_get _ _ _ (by omega), storeWord_get _ _ _ (by omega)]
  have ha20 : 20 ≤ max 20 (4 * bitsAt ip 4 4) := Nat.le_max_left ..
  have hat := segmentAt_eq h20
  have hlen : seg.length = min (bitsAt ip 16 16 - 4 * bitsAt ip 4 4) (ip.length - max 20 (4 * bitsAt ip 4 4)) := by
    rw [b3]; simp
  have hsegi : ∀ i, i < seg.length → seg[i]? = ip[max 20 (4 * bitsAt ip 4 4) + i]? := by
    intro i hi
    rw [b3, List.getElem?_take, if_pos (by omega), List.getElem?_drop]
  generalize hx : patch 12 src.octets.toList (patch (max 20 (4 * bitsAt ip 4 4)) seg₂ ip) = x at *
  obtain ⟨-, st1, st2⟩ := stored4 (x := x) (by omega) (by rw [p2]; exact hsl)
  have hget : ∀ i, i ≠ 10 → i ≠ 11 → (storeWord 5 (sum4 x) x)[i]? =
      if 12 ≤ i ∧ i < 16 then src.octets.toList[i - 12]? else
      if max 20 (4 * bitsAt ip 4 4) ≤ i ∧ i < max 20 (4 * bitsAt ip 4 4) + seg₂.length
      then seg₂[i - max 20 (4 * bitsAt ip 4 4)]? else ip[i]? := by
    intro i i1 i2
    have := translated_get (src := src) ha20 p1 (sum4 x) i1 i2
    rw [hx] at this
    exact this
  have hol : (storeWord 5 (sum4 x) x).length = ip.length := by rw [storeWord_length, p2]
  have st1 := st1.trans st2.symm
  generalize ho : storeWord 5 (sum4 x) x = out at *
  have htk : out.take 10 = ip.take 10 := by
    apply List.ext_getElem?
    intro i
    rw [List.getElem?_take, List.getElem?_take]
    split
    · rw [hget i (by omega) (by omega), if_neg (by omega), if_neg (by omega)]
    · rfl
  have f1 : bitsAt out 4 4 = bitsAt ip 4 4 := bitsAt_congr htk (by decide)
  have f2 : bitsAt out 16 16 = bitsAt ip 16 16 := bitsAt_congr htk (by decide)
  have f3 : bitsAt out 72 8 = bitsAt ip 72 8 := bitsAt_congr htk (by decide)
  have g1 : src.octets.toList = (out.drop 12).take 4 := by
    apply List.ext_getElem?
    intro i
    rw [List.getElem?_take]
    split
    · rw [List.getElem?_drop, hget _ (by omega) (by omega), if_pos (by omega)]
      congr 1
      omega
    · exact List.getElem?_eq_none (by omega)
  have g2 : d.octets.toList = (out.drop 16).take 4 := by
    rw [b2]
    apply List.ext_getElem?
    intro i
    rw [List.getElem?_take, List.getElem?_take]
    split
    · rw [List.getElem?_drop, List.getElem?_drop, hget _ (by omega) (by omega), if_neg (by omega), if_neg (by omega)]
    · rfl
  have g3 : seg₂ = (out.drop (max 20 (4 * bitsAt ip 4 4))).take (bitsAt ip 16 16 - 4 * bitsAt ip 4 4) := by
    apply List.ext_getElem?
    intro i
    rw [List.getElem?_take]
    split
    · rw [List.getElem?_drop, hget _ (by omega) (by omega), if_neg (by omega)]
      by_cases hi : i < seg₂.length
      · rw [if_pos (by omega)]
        congr 1
        omega
      · rw [if_neg (by omega), List.getElem?_eq_none (by omega), List.getElem?_eq_none (by omega)]
    · exact List.getElem?_eq_none (by omega)
  have hacc : accept4 m t out = .ok (some (src, d, seg₂)) :=
    (accepted4 hm (by rw [hol]; exact hsl)).mpr ⟨by omega, g1, g2, by rw [f1, f2]; exact g3, st1, by rw [f3]; exact b5,
      by omega, q3⟩
  refine ⟨out, seg₂, p3, hacc, q4, ⟨hl2, ?_⟩, ⟨hol, ?_⟩, p, q7, q6, ?_⟩
  · intro i hi
    simp only [List.mem_cons, List.not_mem_nil, or_false, not_or] at hi
    exact hseg2 i hi.1 hi.2.1 hi.2.2.1 hi.2.2.2
  · intro i hi
    simp only [List.mem_cons, List.not_mem_nil, or_false, not_or] at hi
    rw [hget i hi.1 hi.2.1, if_neg (by omega)]
    split
    · rw [hseg2 _ (by omega) (by omega) (by omega) (by omega), hsegi _ (by omega)]
      congr 1
      omega
    · rfl
  · obtain ⟨c', r1, -⟩ := port_seg ht m (by omega) q3 s p q7
    have hzero : zeroWord (sumAt t / 2) (storeWord 0 p seg₂) = zeroWord (sumAt t / 2) seg := by
      apply zeroWord_congr (by rw [storeWord_length, hl2])
      intro i i1 i2
      by_cases hi : i = 0 ∨ i = 1
      · rw [storeWord_at 0 p hl2 (by omega), q8]
      · rw [storeWord_get _ _ _ (by omega), hseg2 i (by omega) (by omega) (by omega) (by omega)]
    have r2 := q9 (storeWord 0 p seg₂) hzero (by rw [storeWord_length, hl2])
    obtain ⟨u1, u2, u3⟩ := translate4_value ht (by rw [hol]; exact hsl) hacc s r1 r2 (by omega)
      (by intro e; exact hne (List.length_eq_zero_iff.mp (by rw [hl2, e]; rfl)))
    rw [f1] at u1 u2 u3
    generalize hy : patch 12 s.octets.toList (patch (max 20 (4 * bitsAt ip 4 4)) seg out) = y at *
    have hyl : y.length = ip.length := by rw [u2, hol]
    have hyi : ∀ i, i ≠ 10 → i ≠ 11 → y[i]? = ip[i]? := by
      intro i i1 i2
      have := translated_get (src := s) ha20 u1 0 i1 i2
      rw [hy, storeWord_get _ _ _ (by omega)] at this
      rw [this]
      split
      · rw [b1, List.getElem?_take, if_pos (by omega), List.getElem?_drop]
        congr 1
        omega
      · split
        · rw [hsegi _ (by omega)]
          congr 1
          omega
        · rw [hget i i1 i2, if_neg (by assumption), if_neg (by omega)]
    have hhd : head4 y = head4 ip := by
      unfold head4
      rw [hyl, List.getD_eq_getElem?_getD, List.getD_eq_getElem?_getD, hyi 0 (by decide) (by decide)]
    have hsum : sum4 y = sum4 ip := by
      unfold sum4
      rw [hhd]
      congr 2
      apply zeroWord_congr (by rw [List.length_take, List.length_take, hyl])
      intro i i1 i2
      rw [List.getElem?_take, List.getElem?_take, hyi i (by omega) (by omega)]
    rw [u3, hsum, ← b4]
    congr 2
    have hw := (get_word (d := ipv4) (by decide) (k := 10) (j := 5) rfl rfl (by decide) (by decide) (m := m) (new4 h20)
      (layoutOk_get (L := ipv4Layout) (by decide +kernel) (k := 10) rfl m ip h20)).2
    apply List.ext_getElem?
    intro i
    by_cases hi : i = 10 ∨ i = 11
    · rw [storeWord_at 5 _ hyl (by omega), hw]
    · rw [storeWord_get _ _ _ (by omega), hyi i (by omega) (by omega)]

/-- **C136** The translator never panics and drops exactly the packets that are not accepted. A packet it passes is accepted
with the new source address and the new source port, and differs from the one it got only in the header checksum, the source
address, the source port and the segment's checksum. -/
theorem C136_translate (m : Mode) (t : Transport Ipv4Addr) (ht : t ∈ ported4) (src : Ipv4Addr) (port : Nat)
    (hp : port < 65536) (ip : Buf) (hsl : SliceLen ip.length) :
    (accept4 m t ip = .ok none ∧ translate4 m t src port ip = .ok none) ∨
    ∃ s d seg out seg', accept4 m t ip = .ok (some (s, d, seg)) ∧ translate4 m t src port ip = .ok (some out) ∧
      accept4 m t out = .ok (some (src, d, seg')) ∧ t.d.get m seg' 0 = .ok (.num port) ∧
      SameExcept [0, 1, sumAt t, sumAt t + 1] seg' seg ∧
      SameExcept [10, 11, 12, 13, 14, 15, segmentAt ip, segmentAt ip + 1, segmentAt ip + sumAt t,
        segmentAt ip + sumAt t + 1] out ip := by
  have hm := (List.mem_filter.mp ht).1
  cases ha : accept4 m t ip with
  | error e =>
    obtain ⟨j, tok⟩ := transports4_ok t hm
    by_cases h : 20 ≤ ip.length
    · obtain ⟨_, _, _, _, -, -, -, -, -, -, -, a5⟩ := accept4_value tok (m := m) h hsl
      rw [a5] at ha
      cases ha
    · unfold accept4 at ha
      have : ipv4.newPacket ip = none := by
        unfold Decl.newPacket
        rw [if_neg (by rw [show ipv4.minSize = 20 by decide]; omega)]
      rw [this] at ha
      cases ha
  | ok r =>
    cases r with
    | none => exact .inl ⟨rfl, by simp only [translate4, ha, ok_bind]; rfl⟩
    | some v =>
      obtain ⟨s, d, seg⟩ := v
      obtain ⟨out, seg', h1, h2, h3, h4, h5, -⟩ := translate4_ok ht hsl ha src hp
      exact .inr ⟨s, d, seg, out, seg', rfl, h1, h2, h3, h4, h5⟩

/-- **C136** Nothing is lost: translating a packet that was passed to the old source address and port gives exactly the packet
that came. -/
theorem C136_back (m : Mode) (t : Transport Ipv4Addr) (ht : t ∈ ported4) (src : Ipv4Addr) (port : Nat)
    (hp : port < 65536) (ip : Buf) (hsl : SliceLen ip.length) (s d : Ipv4Addr) (seg out : Buf)
    (ha : accept4 m t ip = .ok (some (s, d, seg))) (h : translate4 m t src port ip = .ok (some out)) :
    ∃ p, p < 65536 ∧ t.d.get m seg 0 = .ok (.num p) ∧ translate4 m t s p out = .ok (some ip) := by
  obtain ⟨out', -, h1, -, -, -, -, h2⟩ := translate4_ok ht hsl ha src hp
  rw [h] at h1
  cases h1
  exact h2

/-- The datagram of C113, translated to 192.0.2.7 port 40000 and back. -/
example : (do
    let o ← translate4 .debug ⟨udp, 17, 3, udpIpv4Checksum⟩ ⟨#v[192, 0, 2, 7]⟩ 40000 datagram4
    translate4 .debug ⟨udp, 17, 3, udpIpv4Checksum⟩ ⟨#v[10, 0, 0, 1]⟩ 65531 (o.getD [])) = .ok (some datagram4) ∧
    translate4 .debug ⟨udp, 17, 3, udpIpv4Checksum⟩ ⟨#v[192, 0, 2, 7]⟩ 40000 datagram4 ≠ .ok (some datagram4) := by
  decide +kernel

example := C136_translate .debug ⟨udp, 17, 3, udpIpv4Checksum⟩ (by simp [ported4, transports4]) ⟨#v[192, 0, 2, 7]⟩ 40000
  (by decide) datagram4 (by unfold SliceLen; decide)

example : ∃ out, translate4 .debug ⟨udp, 17, 3, udpIpv4Checksum⟩ ⟨#v[192, 0, 2, 7]⟩ 40000 datagram4 = .ok (some out) ∧
    ∃ p, p < 65536 ∧ udp.get .debug (datagram4.drop 20) 0 = .ok (.num p) ∧
      translate4 .debug ⟨udp, 17, 3, udpIpv4Checksum⟩ ⟨#v[10, 0, 0, 1]⟩ p out = .ok (some datagram4) := by
  have ha : accept4 .debug ⟨udp, 17, 3, udpIpv4Checksum⟩ datagram4 =
      .ok (some (⟨#v[10, 0, 0, 1]⟩, ⟨#v[10, 0, 0, 2]⟩, datagram4.drop 20)) := by decide +kernel
  have ht : (⟨udp, 17, 3, udpIpv4Checksum⟩ : Transport Ipv4Addr) ∈ ported4 := by simp [ported4, transports4]
  obtain ⟨out, -, h1, -⟩ := translate4_ok ht (by unfold SliceLen; decide) ha ⟨#v[192, 0, 2, 7]⟩ (port := 40000) (by decide)
  exact ⟨out, h1, C136_back .debug _ ht _ 40000 (by decide) datagram4 (by unfold SliceLen; decide) _ _ _ _ ha h1⟩

/-- A datagram with a wrong bit is dropped. -/
example : translate4 .debug ⟨udp, 17, 3, udpIpv4Checksum⟩ ⟨#v[192, 0, 2, 7]⟩ 40000 (datagram4.dropLast ++ [160]) = .ok none := by
  decide +kernel

end Verif.Props
