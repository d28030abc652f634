import Verif.Proofs.Truncation

/-! # C97: what is left of a packet when its end is cut off -/

namespace Verif.Props
open Spec

theorem lenConst_header (d : Decl) (n : Nat) : HeaderOnly d (lenConst n) := fun _ _ _ _ _ _ => rfl

theorem lenNum_header {d : Decl} {i : Nat} {f : Field} (hf : d.fields[i]? = some f) (hv : f.ty.isVec = false)
    (g : Nat → Nat) : HeaderOnly d (lenNum i g) := by
  intro m a b r r' h
  unfold lenNum
  rw [h i f hf hv]

/-- Every length of the packet types of C97 is computed from fields of fixed size. -/
theorem headerSized_lens : ∀ d ∈ headerSized, ∀ f ∈ d.fields, ∀ e, f.len = some e → HeaderOnly d e := by
  intro d hd
  simp only [headerSized, List.mem_cons, List.not_mem_nil, or_false] at hd
  rcases hd with rfl | rfl | rfl | rfl | rfl | rfl | rfl | rfl | rfl | rfl | rfl | rfl | rfl | rfl | rfl | rfl |
    rfl | rfl | rfl | rfl | rfl | rfl | rfl | rfl | rfl
  all_goals
    intro f hf e he
    simp only [ethernet, vlan, arp, ipv4, ipv6, extension, routing, fragment, udp, tcp, icmp, echoReply,
      echoRequest, destinationUnreachable, timeExceeded, icmpv6, ndpOption, routerSolicit, routerAdvert,
      neighborSolicit, neighborAdvert, redirect, u16BE, u32BE, gre, ndpTail, List.mem_append, List.mem_cons,
      List.not_mem_nil, or_false, or_assoc] at hf
    repeat' first
      | (rcases hf with rfl | hf)
      | (subst hf)
    all_goals first
      | cases he
      | skip
    all_goals first
      | exact lenConst_header _ _
      | exact lenNum_header rfl rfl _
      | skip
  · intro m g g' r r' h
    dsimp only
    rw [h 4 _ rfl rfl, h 1 _ rfl rfl]
  · intro m g g' r r' h
    dsimp only
    rw [h 1 _ rfl rfl]
  · intro m g g' r r' h
    unfold greOptLen
    rw [h 0 _ rfl rfl, h 1 _ rfl rfl]
  · intro m g g' r r' h
    unfold greOptLen
    rw [h 0 _ rfl rfl, h 1 _ rfl rfl]
  · intro m g g' r r' h
    dsimp only
    rw [h 1 _ rfl rfl]

theorem headerSized_crate : ∀ d ∈ headerSized, d ∈ crateDecls := by
  intro d hd
  simp only [headerSized, List.mem_cons, List.not_mem_nil, or_false] at hd
  rcases hd with rfl | rfl | rfl | rfl | rfl | rfl | rfl | rfl | rfl | rfl | rfl | rfl | rfl | rfl | rfl | rfl |
    rfl | rfl | rfl | rfl | rfl | rfl | rfl | rfl | rfl <;> simp [crateDecls]

/-- **C97**: the size and the fields of fixed size depend only on the first `minimum_packet_size()` bytes:
when the end of a packet is cut off, as in a capture with a limit, or anything else comes after the
header, `packet_size()` still returns the size of the whole packet. -/
theorem C97_header (d : Decl) (hd : d ∈ headerSized) (m : Mode) (a b : Buf)
    (ha : (d.newPacket a).isSome = true) (hb : (d.newPacket b).isSome = true)
    (h : a.take d.minSize = b.take d.minSize) :
    d.packetSize m a = d.packetSize m b ∧
    ∀ k f, d.fields[k]? = some f → f.ty.isVec = false → d.get m a k = d.get m b k := by
  rw [newPacket_isSome] at ha hb
  have hr := crate_recordlike d (headerSized_crate d hd)
  exact ⟨packetSize_header hr (headerSized_lens d hd) ha hb h,
    fun k f hf hv => get_header_any hr hf hv ha hb h⟩

/-- An IPv6 header that announces 500 bytes of payload, alone. -/
example : (ipv6.newPacket ([0x60, 0, 0, 0, 1, 0xF4] ++ List.replicate 34 7)).isSome = true ∧
    ipv6.packetSize .debug ([0x60, 0, 0, 0, 1, 0xF4] ++ List.replicate 34 7) = .ok 540 := by decide +kernel

/-- **C97**, payload: if the payload of a packet is `p`, then there is a place `o`, the same for all ways
of cutting, such that `p` is at `o` and the payload of the packet cut to `a` consists of the bytes at `o`,
up to the end of `a` or as many as in `p`. It never panics. -/
theorem C97_payload (d : Decl) (hd : d ∈ headerSized) (m : Mode) (b p : Buf)
    (hb : (d.newPacket b).isSome = true) (hp : d.payload m b = .ok p) :
    ∃ o, p = (b.drop o).take p.length ∧ ∀ a, a <+: b → (d.newPacket a).isSome = true →
      d.payload m a = .ok ((a.drop o).take p.length) := by
  rw [newPacket_isSome] at hb
  obtain ⟨o, h1, h2⟩ := payload_left (crate_recordlike d (headerSized_crate d hd)) (headerSized_lens d hd) hb hp
  exact ⟨o, h1, fun a hab ha => h2 a hab (newPacket_isSome.mp ha)⟩

/-- An IPv4 packet with four bytes of payload, cut after two of them. -/
example : ipv4.payload .debug ([0x45, 0, 0, 24] ++ List.replicate 16 9 ++ [1, 2, 3, 4]) = .ok [1, 2, 3, 4] ∧
    ipv4.payload .debug ([0x45, 0, 0, 24] ++ List.replicate 16 9 ++ [1, 2]) = .ok [1, 2] := by decide +kernel

/-- **C97**, so the payload of the cut packet is a prefix of the payload. -/
theorem C97_payload_prefix (d : Decl) (hd : d ∈ headerSized) (m : Mode) (a b p : Buf) (hab : a <+: b)
    (ha : (d.newPacket a).isSome = true) (hp : d.payload m b = .ok p) :
    ∃ q, d.payload m a = .ok q ∧ q <+: p := by
  have hm := newPacket_isSome.mp ha
  obtain ⟨o, h1, h2⟩ := C97_payload d hd m b p
    (newPacket_isSome.mpr (Nat.le_trans hm hab.length_le)) hp
  refine ⟨_, h2 a hab ha, ?_⟩
  have key : ∀ n, (a.drop o).take n <+: (b.drop o).take n := by
    intro n
    obtain ⟨t, rfl⟩ := hab
    rw [List.drop_append, List.take_append]
    exact List.prefix_append _ _
  have := key p.length
  rwa [← h1] at this

/-- The payload of a UDP datagram cut after its first byte. -/
example := C97_payload_prefix udp (by simp [headerSized]) .debug [0, 53, 0, 53, 0, 11, 0, 0, 1]
  [0, 53, 0, 53, 0, 11, 0, 0, 1, 2, 3] [1, 2, 3] ⟨[2, 3], rfl⟩ (by decide) (by decide)

/-- **C97**, `get_<field>_raw()` of a vector: the same, except that it panics when the packet is cut before
the place of the vector. -/
theorem C97_raw (d : Decl) (hd : d ∈ headerSized) (m : Mode) (k : Nat) (b p : Buf) (hsl : SliceLen b.length)
    (hp : d.getRaw m b k = .ok p) :
    ∃ o, p = (b.drop o).take p.length ∧ ∀ a, a <+: b → (d.newPacket a).isSome = true →
      d.getRaw m a k = if o ≤ a.length then .ok ((a.drop o).take p.length) else panic := by
  obtain ⟨o, h1, h2⟩ := getRaw_left (crate_recordlike d (headerSized_crate d hd)) (headerSized_lens d hd) hsl hp
  exact ⟨o, h1, fun a hab ha => h2 a hab (newPacket_isSome.mp ha)⟩

/-- The options of a TCP segment with data offset 7, cut after three bytes; the sequence number of a GRE
header cut after its checksum. -/
example : tcp.getRaw .debug (List.replicate 12 0 ++ [0x70] ++ List.replicate 7 0 ++ [1, 1, 1, 1, 1, 1, 1, 0]) 10 =
      .ok [1, 1, 1, 1, 1, 1, 1, 0] ∧
    tcp.getRaw .debug (List.replicate 12 0 ++ [0x70] ++ List.replicate 7 0 ++ [1, 1, 1]) 10 = .ok [1, 1, 1] ∧
    gre.getRaw .debug [0x90, 0, 8, 0, 1, 2, 0, 0, 0, 0, 0, 9] 12 = .ok [0, 0, 0, 9] ∧
    gre.getRaw .debug [0x90, 0, 8, 0, 1, 2] 12 = panic := by decide +kernel

/-- TCP and IPv4 options are different: their size is in a byte after the fixed part, and if it is cut off
the size is 2. -/
theorem C97_options (m : Mode) :
    tcpOption.packetSize m [2, 4, 5, 180] = .ok 4 ∧ tcpOption.packetSize m [2] = .ok 2 ∧
    ipv4Option.packetSize m [0x94, 4, 0, 0] = .ok 4 ∧ ipv4Option.packetSize m [0x94] = .ok 2 := by
  cases m <;> decide +kernel

end Verif.Props
