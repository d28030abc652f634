import Verif.Proofs.Trailing

/-!
# C81: bytes after the end of a packet

A packet whose fields all have a declared length is often read from a buffer that goes on after it
(padding of an Ethernet frame, the next option of a list). The accessors must not depend on those
bytes.
-/

namespace Verif.Props
open Verif Verif.Spec

/-- All that the read accessors of a packet type return is the same for two buffers:
`packet_size()`, `from_packet()`, `payload()`, every `get_<field>()` and, for the vector fields, every
`get_<field>_raw()`. -/
def SameReads (d : Decl) (m : Mode) (a b : Buf) : Prop :=
  d.packetSize m a = d.packetSize m b ∧ d.fromPacket m a = d.fromPacket m b ∧
  d.payload m a = d.payload m b ∧ (∀ k, d.get m a k = d.get m b k) ∧
  ∀ k f, d.fields[k]? = some f → f.ty.isVec = true → d.getRaw m a k = d.getRaw m b k

/-- The packet types of the crate in which every variable-length field has a `#[length]`. -/
def sizedDecls : List Decl := [arp, ipv4Option, ipv4, ipv6, extension, routing, fragment, tcpOption,
  ndpOption, u16BE, u32BE]

/-- **C81** as claimed: when `packet_size()` is at most the length of the buffer, everything read from
a packet depends only on its first `packet_size()` bytes. For a UDP datagram, whose size is in its
`length` field and not in `packet_size()`, the claim is that the bytes after the first `length` ones
are not part of it. -/
def C81_statement : Prop :=
  (∀ (m : Mode), ∀ d ∈ sizedDecls, ∀ (buf buf' : Buf) (n : Nat), SliceLen buf.length →
    d.packetSize m buf = .ok n → n ≤ buf.length → n ≤ buf'.length → buf'.take n = buf.take n →
    SameReads d m buf' buf) ∧
  (∀ (m : Mode) (buf tail : Buf), 8 ≤ buf.length → udp.get m buf 2 = .ok (.num buf.length) →
    udp.payload m (buf ++ tail) = udp.payload m buf)

/-- **C81** fails for UDP: a datagram of 8 bytes and `length` 8 followed by one byte of padding has a
payload of one byte. -/
theorem C81_false : ¬ C81_statement := by
  intro h
  have := h.2 .release [0, 53, 0, 53, 0, 8, 0, 0] [1] (by decide) (by decide)
  revert this
  decide

/-- **C81**, for any struct the macro accepts: if the integers are big-endian and the layout regular,
every vector field and the payload have a `#[length]` computed from earlier fields, the fixed part is a
whole number of bytes and the sizes do not overflow, then the read accessors depend only on the first
`packet_size()` bytes. -/
theorem C81_declared_lengths_partial (d : Decl) (m : Mode) (hreg : regular d = true)
    (hclosed : closed d = true) (hloc : localLens d.fields)
    (hpay : ∀ f ∈ d.fields, f.payload = true → f.len.isSome = true)
    (hbytes : fixedBits d.fields % 8 = 0) (hnw : NoWrap m d) (buf buf' : Buf) (n : Nat)
    (hsl : SliceLen buf.length) (hn : d.packetSize m buf = .ok n) (hle : n ≤ buf.length)
    (hle' : n ≤ buf'.length) (h : buf'.take n = buf.take n) : SameReads d m buf' buf := by
  rw [fixedBits_eq] at hbytes
  have hs := sameBits_of_take hle hle' h.symm
  refine ⟨?_, fromPacket_sameBits hreg hloc hnw hbytes hsl hn hs hclosed,
    payload_sameBits hreg hloc hnw hbytes hsl hn hs hpay, ?_, ?_⟩
  · rw [hn, packetSize_sameBits hreg hloc hnw hbytes hsl hn hs hclosed]
  · intro k
    cases hf : d.fields[k]? with
    | none => rw [Decl.get, Decl.get, hf]
    | some f =>
      exact get_sameBits hreg hloc hnw hbytes hsl hn hs hf (closed_fields hclosed f (List.mem_of_getElem? hf))
  · intro k f hf hv
    exact getRaw_sameBits hreg hloc hnw hbytes hsl hn hs hf (closed_fields hclosed f (List.mem_of_getElem? hf) hv)

example := C81_declared_lengths_partial tcpOption .debug (by decide) (by decide) tcpOption_inner.loc
  (by simp [tcpOption, fmisc, fbytes, fpayload]) (by decide) (tcpOption_inner.noWrap .debug) [2, 4, 5, 180, 7]
  [2, 4, 5, 180, 8, 9] 4 (by decide) (by decide) (by decide) (by decide) (by decide)

/-- **C81** for the crate's packet types with declared lengths, without further conditions. -/
theorem C81_crate_partial (m : Mode) (d : Decl) (hd : d ∈ sizedDecls) (buf buf' : Buf) (n : Nat)
    (hsl : SliceLen buf.length) (hn : d.packetSize m buf = .ok n) (hle : n ≤ buf.length)
    (hle' : n ≤ buf'.length) (h : buf'.take n = buf.take n) : SameReads d m buf' buf := by
  have key : ∀ d ∈ sizedDecls, d ∈ crateDecls ∧ closed d = true ∧
      (∀ f ∈ d.fields, f.payload = true → f.len.isSome = true) := by
    intro d hd
    have hc : (closed d && d.fields.all fun f => !f.payload || f.len.isSome) = true := by
      revert d hd
      exact List.all_eq_true.mp (by decide)
    rw [Bool.and_eq_true] at hc
    refine ⟨?_, hc.1, ?_⟩
    · simp only [sizedDecls, List.mem_cons, List.not_mem_nil, or_false] at hd
      rcases hd with h | h | h | h | h | h | h | h | h | h | h <;> subst h <;> simp [crateDecls]
    · intro f hf hp
      have := List.all_eq_true.mp hc.2 f hf
      simpa [hp] using this
  obtain ⟨h1, h2, h3⟩ := key d hd
  have hg := crateDecls_good d h1
  exact C81_declared_lengths_partial d m hg.reg h2 hg.local h3 (by rw [fixedBits_eq]; exact hg.bytes)
    (hg.noWrap m) buf buf' n hsl hn hle hle' h

/-- An IPv4 header with one byte of payload, followed by padding. -/
example : ipv4.packetSize .debug
    [0x45, 0, 0, 21, 0, 0, 0, 0, 64, 17, 0, 0, 10, 0, 0, 1, 10, 0, 0, 2, 0xAB, 0, 0, 0] = .ok 21 ∧
    ipv4.payload .debug
    [0x45, 0, 0, 21, 0, 0, 0, 0, 64, 17, 0, 0, 10, 0, 0, 1, 10, 0, 0, 2, 0xAB, 0, 0, 0] = .ok [0xAB] := by
  decide

/-- The condition that the packet fits is needed: the payload of a truncated packet grows with the
buffer. -/
example : ipv6.payload .debug ([0x60, 0, 0, 0, 0, 2] ++ List.replicate 34 0 ++ [1]) = .ok [1] ∧
    ipv6.payload .debug ([0x60, 0, 0, 0, 0, 2] ++ List.replicate 34 0 ++ [1, 2]) = .ok [1, 2] := by
  decide

/-- What is left for the packet types of the crate whose last field has no length (UDP, TCP, ICMP,
Ethernet, GRE and so on): the size and all other fields do not depend on the bytes after the first
`packet_size()` ones, and the last field is all of them. -/
theorem C81_open_partial (m : Mode) (d : Decl) (hd : d ∈ crateDecls) (k : Nat) (f : Field)
    (hlast : k + 1 = d.fields.length) (hf : d.fields[k]? = some f) (hopen : f.len = none)
    (buf tail : Buf) (n : Nat) (hsl : SliceLen (buf ++ tail).length)
    (hn : d.packetSize m buf = .ok n) (hle : n ≤ buf.length) :
    d.packetSize m (buf ++ tail) = .ok n ∧
    (∀ j < k, d.get m (buf ++ tail) j = d.get m buf j) ∧
    (f.ty.isVec = true → ∃ raw, d.getRaw m buf k = .ok raw ∧ d.getRaw m (buf ++ tail) k = .ok (raw ++ tail)) ∧
    (f.payload = true → d.payloadIdx = some k → ∃ p, d.payload m buf = .ok p ∧
      d.payload m (buf ++ tail) = .ok (p ++ tail)) ∧
    (f.payload = false → d.payload m (buf ++ tail) = d.payload m buf) := by
  have hg := crateDecls_good d hd
  have hs : SameBits buf (buf ++ tail) (8 * n) :=
    sameBits_of_take hle (by simp; omega) (by rw [List.take_append_of_le_length hle])
  have hsl' : SliceLen buf.length := by
    unfold SliceLen at *; simp at hsl; omega
  refine ⟨packetSize_openEnd hg.reg hg.local (hg.noWrap m) hg.bytes hsl' hn hs hf hlast hopen, ?_, ?_, ?_, ?_⟩
  · intro j hj
    have hj' : d.fields[j]? = some d.fields[j] := List.getElem?_eq_getElem (by omega)
    refine get_sameBits hg.reg hg.local (hg.noWrap m) hg.bytes hsl' hn hs hj' ?_
    refine closedFields_take hg.reg (show k < d.fields.length by omega) _ ?_
    exact List.mem_of_getElem? (i := j) (by rw [List.getElem?_take_of_lt hj, hj'])
  · intro _
    obtain ⟨o, ho, h1, h2⟩ := getRaw_openEnd hg.reg hg.local (hg.noWrap m) hg.bytes hsl' hn hs hf hopen hsl
    exact ⟨_, h1, by rw [h2, List.drop_append_of_le_length (by omega)]⟩
  · intro _ hk
    obtain ⟨o, ho, h1, h2⟩ := payload_openEnd hg.reg hg.local (hg.noWrap m) hg.bytes hsl' hn hs hk hf hopen hsl
    exact ⟨_, h1, by rw [h2, List.drop_append_of_le_length (by omega)]⟩
  · intro hp
    refine payload_sameBits hg.reg hg.local (hg.noWrap m) hg.bytes hsl' hn hs ?_
    have key : (crateDecls.all fun d => d.fields.all fun f => !f.payload || f.len.isSome ||
        ((d.fields.getLast?).map (·.payload) == some true)) = true := by decide
    intro g hgm hgp
    have := List.all_eq_true.mp (List.all_eq_true.mp key d hd) g hgm
    rw [List.getLast?_eq_getElem?, show d.fields.length - 1 = k by omega, hf] at this
    simpa [hgp, hp] using this

example : udp.packetSize .debug [0, 53, 0, 53, 0, 9, 0, 0, 7] = .ok 8 ∧ udp.fields.length = 5 ∧
    (udp.fields[4]?).map (·.len.isSome) = some false ∧ udp.payloadIdx = some 4 := by decide

/-- Neighbor discovery: the open field is `options`, not the payload. -/
example : (neighborSolicit.fields[6]?).map (·.payload) = some false ∧
    neighborSolicit.packetSize .debug (List.replicate 24 0) = .ok 24 := by decide

end Verif.Props
