import Verif.Props.Options
import Verif.Props.Headers

/-! # Getters of variable-length fields and `from_packet` (C10, C11) -/

namespace Verif.Props
open Spec

/-! ## C10 -/

/-- **C10**, full claim: the raw getters of variable-length fields return on every buffer accepted
by `new`. -/
def C10_statement : Prop := ∀ d ∈ crateDecls, ∀ (m : Mode) (buf : Buf) (k : Nat) (f : Field),
  (d.newPacket buf).isSome = true → d.fields[k]? = some f → f.ty.isVec = true →
  ∃ raw, d.getRaw m buf k = .ok raw

/-- C10 is false: `get_offset_raw()` of a 4-byte GRE packet with the checksum bit. -/
theorem C10_false : ¬ C10_statement := by
  intro h
  obtain ⟨v, hv⟩ := h gre (by simp [crateDecls]) .debug [0x80, 0, 8, 0] 10 _ (by decide) rfl rfl
  have : gre.getRaw .debug [0x80, 0, 8, 0] 10 = panic := by decide +kernel
  rw [this] at hv; cases hv

/-- Further panicking getters: the payload getters (not the trait's `payload()`) of TCP and IPv4
packets with too large a header length, and `get_data` of a truncated option. -/
theorem C10_more_panics (m : Mode) : tcp.getRaw m shortTcp 11 = panic ∧
    ipv4.getRaw m ([0x4F] ++ List.replicate 19 0) 14 = panic ∧
    tcpOption.getRaw m [2] 2 = panic ∧ ipv4Option.getRaw m [2] 4 = panic := by
  cases m <;> decide +kernel

/-- **C10** holds for the first variable-length field of a packet type: when everything before it
has a fixed size and its length is known and not astronomically large, the raw getter returns the
field's bytes, cut at the end of the buffer. Missing: fields behind another variable-length field,
where `C10_raw_getter_partial` gives the exact condition. -/
theorem C10_first_variable_field_partial (d : Decl) (m : Mode) (buf : Buf) (k : Nat) (f : Field)
    (hnew : (d.newPacket buf).isSome = true) (hf : d.fields[k]? = some f)
    (hfix : (d.fields.take k).all isFixed = true) (len : Nat)
    (hlen : HasLength d m buf k [] f len)
    (hov : fixedBits (d.fields.take k) / 8 + len < 2 ^ 64) :
    d.getRaw m buf k = .ok ((buf.drop (fixedBits (d.fields.take k) / 8)).take len) := by
  have hkl : k < d.fields.length := (List.getElem?_eq_some_iff.mp hf).1
  rw [← fieldLen_iff (by omega) (before_fixed hfix m buf).2
    (by rw [startOf, List.sum_nil]; omega)] at hlen
  rw [fixedBits_eq] at *
  exact getRaw_fixed hf hfix hlen (new_len hnew) hov

example : (udp.newPacket (List.replicate 9 7)).isSome = true ∧
    (udp.fields.take 4).all isFixed = true ∧
    udp.getRaw .debug (List.replicate 9 7) 4 = .ok [7] := by decide +kernel

/-! ## C11 -/

/-- The packet types of C11. -/
def readDecls : List Decl := [tcp, ipv4, udp, ipv6, ethernet, vlan, arp, icmp]

/-- **C11**, full claim. -/
def C11_statement : Prop := ∀ d ∈ readDecls, ∀ (m : Mode) (buf : Buf), SliceLen buf.length →
  (d.newPacket buf).isSome = true → ∃ v, d.fromPacket m buf = .ok v

/-- C11 is false for TCP (data offset past the end of the buffer). -/
theorem C11_false : ¬ C11_statement := by
  intro h
  obtain ⟨v, hv⟩ := h tcp (by simp [readDecls]) .debug shortTcp (by unfold SliceLen; decide) (by decide)
  have : tcp.fromPacket .debug shortTcp = panic := by decide +kernel
  rw [this] at hv; cases hv

/-- **C11** for the types with one variable-length field (all of C11 but TCP and IPv4, and further
types of the crate). Missing: TCP and IPv4, see below. -/
theorem C11_one_vector_partial (d : Decl) (hd : d ∈ [udp, ipv6, ethernet, vlan, arp, icmp, echoReply,
      echoRequest, destinationUnreachable, timeExceeded, icmpv6, extension, routing, fragment])
    (m : Mode) (buf : Buf) (hsl : SliceLen buf.length) (hnew : (d.newPacket buf).isSome = true) :
    ∃ v, d.fromPacket m buf = .ok v := by
  have hmin := new_len hnew
  unfold SliceLen at hsl
  have key : ∀ (d : Decl) (k : Nat) (f : Field), d.accepted = true → d.fields.length = k + 1 →
      d.fields[k]? = some f → f.ty = .vecPrim (u 8) → (d.fields.take k).all Field.fixed = true →
      (d.newPacket buf).isSome = true → ∀ len, fieldLen m buf (d.before m buf k) f = .ok len →
      bitsSum (d.fields.take k) / 8 < 2 ^ 63 → len < 2 ^ 63 → ∃ v, d.fromPacket m buf = .ok v :=
    fun d k f h1 h2 h3 h4 h5 h6 len h7 h8 h9 =>
      fromPacket_one_vector h1 h2 h3 h4 h5 hsl h6 h7 (by omega)
  simp only [List.mem_cons, List.not_mem_nil, or_false] at hd
  rcases hd with rfl | rfl | rfl | rfl | rfl | rfl | rfl | rfl | rfl | rfl | rfl | rfl | rfl | rfl
  · exact key udp 4 _ (by decide +kernel) rfl rfl rfl rfl hnew _ rfl (by decide) hsl
  · have hlt := bitsAt_lt buf 32 16
    have hg : ipv6.get m buf 3 = .ok (.num (bitsAt buf 32 16)) :=
      layoutOk_get (L := ipv6Layout) (by decide +kernel) (k := 3) rfl m buf hmin
    exact key ipv6 8 _ (by decide +kernel) rfl rfl rfl rfl hnew _
      (lenNum_eq (g := id) (by decide) (by decide) hg) (by decide) (by simp; omega)
  · exact key ethernet 3 _ (by decide +kernel) rfl rfl rfl rfl hnew _ rfl (by decide) hsl
  · exact key vlan 4 _ (by decide +kernel) rfl rfl rfl rfl hnew _ rfl (by decide) hsl
  · exact key arp 9 _ (by decide +kernel) rfl rfl rfl rfl hnew 0 rfl (by decide) (by decide)
  · exact key icmp 3 _ (by decide +kernel) rfl rfl rfl rfl hnew _ rfl (by decide) hsl
  · exact key echoReply 5 _ (by decide +kernel) rfl rfl rfl rfl hnew _ rfl (by decide) hsl
  · exact key echoRequest 5 _ (by decide +kernel) rfl rfl rfl rfl hnew _ rfl (by decide) hsl
  · exact key destinationUnreachable 4 _ (by decide +kernel) rfl rfl rfl rfl hnew _ rfl (by decide) hsl
  · exact key timeExceeded 4 _ (by decide +kernel) rfl rfl rfl rfl hnew _ rfl (by decide) hsl
  · exact key icmpv6 3 _ (by decide +kernel) rfl rfl rfl rfl hnew _ rfl (by decide) hsl
  · have hlt := bitsAt_lt buf 8 8
    have hg : extension.get m buf 1 = .ok (.num (bitsAt buf 8 8)) :=
      layoutOk_get (L := extensionLayout) (by decide +kernel) (k := 1) rfl m buf hmin
    exact key extension 2 _ (by decide +kernel) rfl rfl rfl rfl hnew _
      (lenNum_eq (g := ipv6ExtensionLength) (by decide) (by decide) hg) (by decide)
      (by unfold ipv6ExtensionLength; omega)
  · have hlt := bitsAt_lt buf 8 8
    have hg : routing.get m buf 1 = .ok (.num (bitsAt buf 8 8)) :=
      layoutOk_get (L := routingLayout) (by decide +kernel) (k := 1) rfl m buf hmin
    exact key routing 4 _ (by decide +kernel) rfl rfl rfl rfl hnew _
      (lenNum_eq (g := routingExtensionLength) (by decide) (by decide) hg) (by decide)
      (by unfold routingExtensionLength; omega)
  · exact key fragment 4 _ (by decide +kernel) rfl rfl rfl rfl hnew 0 rfl (by decide) (by decide)

example : ∃ v, udp.fromPacket .debug (List.replicate 9 7) = .ok v :=
  C11_one_vector_partial udp (by simp) .debug _ (by decide) (by decide)

/-- **C11** for TCP: `from_packet` returns exactly when the announced header fits the buffer and its
options area does not end in a lone kind byte that needs a length; otherwise it panics. Missing from
the full claim: the panics (`C11_false`). -/
theorem C11_tcp_exact_partial (m : Mode) (buf : Buf) (hsl : SliceLen buf.length)
    (h : 20 ≤ buf.length) :
    (∃ v, tcp.fromPacket m buf = .ok v) ↔
      4 * bitsAt buf 96 4 ≤ buf.length ∧ ∃ os, OptParse tcpSolo (tcpArea buf) os := by
  have hlt := bitsAt_lt buf 96 4
  unfold SliceLen at hsl
  have hraw := getRaw_eq (d := tcp) (m := m) (buf := buf) (k := 11) (f := fpayloadRest "payload") rfl
    (tcp_lens11 m buf h) (len := buf.length) rfl
    (by rw [show bitsSum (tcp.fields.take 11) = 160 from rfl]; simp; omega)
  rw [show bitsSum (tcp.fields.take 11) = 160 from rfl] at hraw
  simp only [List.sum_cons, List.sum_nil] at hraw
  have hpay : tcp.get m buf 11 = _ := bytes_get (d := tcp) (k := 11) rfl rfl
  have hopt := C17_tcp_get_options_partial m buf h
  rw [fromPacket_ok_iff]
  constructor
  · intro hall
    refine ⟨?_, ?_⟩
    · obtain ⟨v, hv⟩ := hall 11 (by decide)
      apply Classical.byContradiction
      intro hn
      rw [hpay, hraw.2 (by omega)] at hv
      cases hv
    · obtain ⟨v, hv⟩ := hall 10 (by decide)
      apply Classical.byContradiction
      intro hn
      rw [hopt.2 (fun os ho => hn ⟨os, ho⟩)] at hv
      cases hv
  · rintro ⟨hfit, os, hos⟩ j hj
    have g : ∀ j (sl : Slot), tcpLayout[j]? = some sl → ∃ v, tcp.get m buf j = .ok v :=
      fun j sl hs => ⟨_, layoutOk_get tcp_layout hs m buf h⟩
    rw [show tcp.fields.length = 12 from rfl] at hj
    match j, hj with
    | 0, _ | 1, _ | 2, _ | 3, _ | 4, _ | 5, _ | 6, _ | 7, _ | 8, _ | 9, _ => exact g _ _ rfl
    | 10, _ => exact ⟨_, hopt.1 os hos⟩
    | 11, _ => exact ⟨_, by rw [hpay, hraw.1 (by omega)]; rfl⟩

/-- A header without options. -/
example : ∃ v, tcp.fromPacket .debug (List.replicate 12 0 ++ [0x50] ++ List.replicate 8 0) = .ok v :=
  (C11_tcp_exact_partial .debug _ (by decide) (by decide)).mpr ⟨by decide, [], .nil⟩

/-- **C11** for IPv4, likewise. -/
theorem C11_ipv4_exact_partial (m : Mode) (buf : Buf) (h : 20 ≤ buf.length) :
    (∃ v, ipv4.fromPacket m buf = .ok v) ↔
      4 * bitsAt buf 4 4 ≤ buf.length ∧ ∃ os, OptParse ipv4Solo (ipv4Area buf) os := by
  have hlt := bitsAt_lt buf 4 4
  have hlt' := bitsAt_lt buf 16 16
  have hraw := getRaw_eq (d := ipv4) (m := m) (buf := buf) (k := 14) rfl
    (ipv4_lens14 m buf h) (ipv4_payLen m buf h rfl)
    (by rw [show bitsSum (ipv4.fields.take 14) = 160 from rfl]; simp; omega)
  rw [show bitsSum (ipv4.fields.take 14) = 160 from rfl] at hraw
  simp only [List.sum_cons, List.sum_nil] at hraw
  have hpay : ipv4.get m buf 14 = _ := bytes_get (d := ipv4) (k := 14) rfl rfl
  have hopt := C17_ipv4_get_options_partial m buf h
  rw [fromPacket_ok_iff]
  constructor
  · intro hall
    refine ⟨?_, ?_⟩
    · obtain ⟨v, hv⟩ := hall 14 (by decide)
      apply Classical.byContradiction
      intro hn
      rw [hpay, hraw.2 (by omega)] at hv
      cases hv
    · obtain ⟨v, hv⟩ := hall 13 (by decide)
      apply Classical.byContradiction
      intro hn
      rw [hopt.2 (fun os ho => hn ⟨os, ho⟩)] at hv
      cases hv
  · rintro ⟨hfit, os, hos⟩ j hj
    have g : ∀ j (sl : Slot), ipv4Layout[j]? = some sl → ∃ v, ipv4.get m buf j = .ok v :=
      fun j sl hs => ⟨_, layoutOk_get ipv4_layout hs m buf h⟩
    rw [show ipv4.fields.length = 15 from rfl] at hj
    match j, hj with
    | 0, _ | 1, _ | 2, _ | 3, _ | 4, _ | 5, _ | 6, _ | 7, _ | 8, _ | 9, _ | 10, _ | 11, _
    | 12, _ => exact g _ _ rfl
    | 13, _ => exact ⟨_, hopt.1 os hos⟩
    | 14, _ => exact ⟨_, by rw [hpay, hraw.1 (by omega)]; rfl⟩

/-- A TCP segment with a no-operation, an MSS option and an end-of-list byte is read. -/
example : 4 * bitsAt (List.replicate 12 0 ++ [0x70] ++ List.replicate 7 0 ++
      [1, 2, 4, 5, 180, 0, 0, 0, 9]) 96 4 ≤ 29 ∧
    (tcp.fromPacket .debug (List.replicate 12 0 ++ [0x70] ++ List.replicate 7 0 ++
      [1, 2, 4, 5, 180, 0, 0, 0, 9])).isOk = true := by decide +kernel

end Verif.Props
