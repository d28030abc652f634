import Verif.Proofs.Transfer

/-!
# C113: a datagram sent with the crate is accepted by a receiver that uses the crate

The programs of sender and receiver (`send4`, `receive4`, `send6`, `receive6`) are in `Spec/Transfer`.
-/

namespace Verif.Props
open Verif Verif.Spec

/-- **C113**, delivery over IPv4. For ICMP, UDP and TCP, all header values and options, all segments that
`new` accepts and any layers around IP: the sender does not panic, and the receiver accepts the frame,
also with padding behind it, and gets the addresses and the segment of the sender (with the checksum in
it). -/
theorem C113_v4_delivered (m : Mode) (outer : List Layer) (h : Head4) (t : Transport Ipv4Addr)
    (ht : t ∈ transports4) (seg pad : Buf) (hok : h.Ok m seg.length)
    (hnew : (t.d.newPacket seg).isSome = true)
    (hout : ∀ ip : Buf, ip.length = 4 * h.words + seg.length → StackFits m outer ip ∧
      SliceLen (stackWire outer ip ++ pad).length)
    (hpad : SliceLen (4 * h.words + seg.length + pad.length)) :
    ∃ frame seg' c, send4 m outer h t seg = .ok frame ∧ t.d.set m seg t.sumField (.num c) = .ok seg' ∧
      receive4 m (outer.map (·.d)) t (frame ++ pad) = .ok (some (h.src, h.dst, seg')) :=
  deliver4 ht hok hout hpad hnew

/-- **C113**, delivery over IPv6, for ICMPv6, UDP and TCP. -/
theorem C113_v6_delivered (m : Mode) (outer : List Layer) (h : Head6) (t : Transport Ipv6Addr)
    (ht : t ∈ transports6) (seg pad : Buf) (hlen : seg.length < 65536)
    (hnew : (t.d.newPacket seg).isSome = true)
    (hout : ∀ ip : Buf, ip.length = 40 + seg.length → StackFits m outer ip ∧
      SliceLen (stackWire outer ip ++ pad).length)
    (hpad : SliceLen (40 + seg.length + pad.length)) :
    ∃ frame seg' c, send6 m outer h t seg = .ok frame ∧ t.d.set m seg t.sumField (.num c) = .ok seg' ∧
      receive6 m (outer.map (·.d)) t (frame ++ pad) = .ok (some (h.src, h.dst, seg')) :=
  deliver6 ht hlen hout hpad hnew

/-- An Ethernet header. -/
def etherLayer (dst src : List Nat) (type : Nat) : Layer := ⟨ethernet, noElems, [.nums dst, .nums src, .nums [type]]⟩

theorem etherLayer_fits (m : Mode) {dst src : List Nat} (type : Nat) (h1 : dst.length = 6) (h2 : src.length = 6)
    (ip : Buf) : (etherLayer dst src type).Fits m ip ∧ ((etherLayer dst src type).wire ip).length = 14 + ip.length := by
  match dst, h1, src, h2 with
  | [a1, a2, a3, a4, a5, a6], _, [b1, b2, b3, b4, b5, b6], _ =>
    refine ⟨⟨show carrier ethernet = true by decide, ?_, ?_, ?_⟩, ?_⟩
    · exact lawful_none (by simp only [etherLayer]; unfold ethernet; simp [fmisc, fpayloadRest])
    · simp [etherLayer, Layer.fields, ethernet, fmisc, fpayloadRest, typedFields, typed, bytesVal]
    · simp [etherLayer, Layer.fields, ethernet, fmisc, fpayloadRest, lensAgree]
    · rw [Layer.wire, packBits_length]
      simp [etherLayer, Layer.fields, ethernet, fmisc, fpayloadRest, encFields, encField, bytesVal, bytes_flatMap,
        bitsOf_length]
      omega

/-- **C113** in Ethernet frames, for all addresses and all padding. -/
theorem C113_ethernet (m : Mode) (dst src : List Nat) (h1 : dst.length = 6) (h2 : src.length = 6) (seg pad : Buf)
    (hp : pad.length < 2 ^ 62) :
    (∀ t ∈ transports4, ∀ h : Head4, h.Ok m seg.length → (t.d.newPacket seg).isSome = true →
      ∃ frame seg' c, send4 m [etherLayer dst src 0x0800] h t seg = .ok frame ∧
        t.d.set m seg t.sumField (.num c) = .ok seg' ∧
        receive4 m [ethernet] t (frame ++ pad) = .ok (some (h.src, h.dst, seg'))) ∧
    (∀ t ∈ transports6, ∀ h : Head6, seg.length < 65536 → (t.d.newPacket seg).isSome = true →
      ∃ frame seg' c, send6 m [etherLayer dst src 0x86dd] h t seg = .ok frame ∧
        t.d.set m seg t.sumField (.num c) = .ok seg' ∧
        receive6 m [ethernet] t (frame ++ pad) = .ok (some (h.src, h.dst, seg'))) := by
  constructor
  · intro t ht h hok hn
    have := hok.total
    have := hok.words
    exact C113_v4_delivered m [etherLayer dst src 0x0800] h t ht seg pad hok hn (fun ip hip =>
      ⟨⟨(etherLayer_fits m _ h1 h2 ip).1, trivial⟩, by
        rw [List.length_append, stackWire, stackWire, (etherLayer_fits m _ h1 h2 ip).2]
        unfold SliceLen; omega⟩) (by unfold SliceLen; omega)
  · intro t ht h hl hn
    exact C113_v6_delivered m [etherLayer dst src 0x86dd] h t ht seg pad hl hn (fun ip hip =>
      ⟨⟨(etherLayer_fits m _ h1 h2 ip).1, trivial⟩, by
        rw [List.length_append, stackWire, stackWire, (etherLayer_fits m _ h1 h2 ip).2]
        unfold SliceLen; omega⟩) (by unfold SliceLen; omega)

/-- A header with a four-byte option. -/
def exampleHead : Head4 := ⟨6, 0, 0, 7, 2, 0, 64, ⟨#v[10, 0, 0, 1]⟩, ⟨#v[10, 0, 0, 2]⟩,
  [.list [.num 1, .num 0, .nums [20], .nums [4], .nums [0, 0]]]⟩

/-- The hypotheses hold for a UDP datagram of 11 bytes with that header, and for an ICMP message without
options. -/
example : udp.newPacket [0, 53, 0, 53, 0, 11, 0, 0, 1, 2, 3] ≠ none ∧ icmp.newPacket [8, 0, 0, 0] ≠ none ∧
    (⟨5, 0, 0, 7, 2, 0, 64, ⟨#v[10, 0, 0, 1]⟩, ⟨#v[10, 0, 0, 2]⟩, []⟩ : Head4).Ok .debug 4 :=
  ⟨by decide, by decide, ⟨by decide, by simp, by decide, by decide⟩⟩

example : exampleHead.Ok .debug 11 := by
  refine ⟨by decide, ?_, ?_, by decide⟩
  · intro o ho
    simp only [exampleHead, List.mem_singleton] at ho
    subst ho
    simp [declWire, typedFields, typed, lensAgree, ipv4Option, fprim, fmisc, fbytes, fpayload, encField, env,
      normField, Val.asTuple1, Val.asNums, ipv4OptionLength, ipv4OptionPayloadLength]
  · simp [exampleHead, declWire, packBits_length, encFields, encField, ipv4Option, fprim, fmisc, fbytes, fpayload]

/-- **C113**, safety over IPv4. If the receiver accepts a datagram and at most 15 consecutive bits of it
are changed, not in the header length, the receiver rejects it, or it gets the same addresses and the same
segment. -/
theorem C113_v4_burst (m : Mode) (t : Transport Ipv4Addr) (ht : t ∈ transports4) (p q : Buf) (n : Nat)
    (hn : n ≤ 15) (hsl : SliceLen p.length) (hb : Burst n p q)
    (hihl : (q.getD 0 0).toNat % 16 = (p.getD 0 0).toNat % 16) (r : Ipv4Addr × Ipv4Addr × Buf)
    (hp : accept4 m t p = .ok (some r)) : accept4 m t q = .ok none ∨ accept4 m t q = .ok (some r) :=
  safe4 ht hn hsl hb hihl hp

/-- **C113**, safety over IPv6: at most 15 consecutive bits are changed, not in the payload length. -/
theorem C113_v6_burst (m : Mode) (t : Transport Ipv6Addr) (ht : t ∈ transports6) (p q : Buf) (n : Nat)
    (hn : n ≤ 15) (hsl : SliceLen p.length) (hb : Burst n p q) (hpl : bitsAt q 32 16 = bitsAt p 32 16)
    (r : Ipv6Addr × Ipv6Addr × Buf)
    (hp : accept6 m t p = .ok (some r)) : accept6 m t q = .ok none ∨ accept6 m t q = .ok (some r) :=
  safe6 ht hn hsl hb hpl hp

/-- **C113**: the receiver does not panic, whatever the bytes. -/
theorem C113_receiver_total (m : Mode) (ip : Buf) (hsl : SliceLen ip.length) :
    (∀ t ∈ transports4, ∃ r, accept4 m t ip = .ok r) ∧ (∀ t ∈ transports6, ∃ r, accept6 m t ip = .ok r) := by
  constructor
  · intro t ht
    obtain ⟨j, tok⟩ := transports4_ok t ht
    cases hn : ipv4.newPacket ip with
    | none => exact ⟨none, by unfold accept4; rw [hn]⟩
    | some x =>
      have := (C06_new_iff ipv4 ip).1.mp (by rw [hn]; rfl)
      rw [show fixedBits ipv4.fields = 160 by decide] at this
      obtain ⟨_, _, _, _, _, _, _, _, _, _, _, h⟩ := accept4_value tok (m := m) (ip := ip) (by omega) hsl
      exact ⟨_, h⟩
  · intro t ht
    obtain ⟨j, tok⟩ := transports6_ok t ht
    cases hn : ipv6.newPacket ip with
    | none => exact ⟨none, by unfold accept6; rw [hn]⟩
    | some x =>
      have := (C06_new_iff ipv6 ip).1.mp (by rw [hn]; rfl)
      rw [show fixedBits ipv6.fields = 320 by decide] at this
      obtain ⟨_, _, _, _, _, _, _, _, _, h⟩ := accept6_value tok (m := m) (ip := ip) (by omega) hsl
      exact ⟨_, h⟩

/-- A UDP datagram in an IPv4 packet. -/
def datagram4 : Buf := [69, 252, 0, 32, 0, 7, 0, 0, 64, 17, 101, 200, 10, 0, 0, 1, 10, 0, 0, 2] ++
  [255, 251, 0, 0, 0, 12, 18, 52, 1, 2, 216, 161]

/-- The same with a burst of 8 bits in the header length and the two fields behind it. -/
def damaged4 : Buf := [0x46, 0x00] ++ datagram4.drop 2

/-- An ICMPv6 message in an IPv6 packet. -/
def datagram6 : Buf := [96, 0, 0, 0, 0, 10, 58, 64] ++
  [254, 128, 0, 0, 0, 0, 0, 0, 0, 0, 0, 0, 0, 0, 0, 1] ++ [254, 128, 0, 0, 0, 0, 0, 0, 0, 0, 0, 0, 0, 0, 0, 2] ++
  [128, 0, 130, 183, 0, 0, 0, 1, 255, 253]

/-- The same with one bit of the payload length changed: 8 instead of 10. -/
def damaged6 : Buf := datagram6.take 5 ++ [8] ++ datagram6.drop 6

/-- **C113**, the conditions of the two theorems are needed. Bytes of the header length and of the payload
length are covered by no checksum on their own: here the receiver accepts two damaged datagrams and gets
another segment than before. -/
theorem C113_lengths_unprotected (m : Mode) :
    Burst 8 datagram4 damaged4 ∧
    accept4 m transports4[1] datagram4 = .ok (some (⟨#v[10, 0, 0, 1]⟩, ⟨#v[10, 0, 0, 2]⟩, datagram4.drop 20)) ∧
    accept4 m transports4[1] damaged4 = .ok (some (⟨#v[10, 0, 0, 1]⟩, ⟨#v[10, 0, 0, 2]⟩, datagram4.drop 24)) ∧
    Burst 1 datagram6 damaged6 ∧
    (∃ src dst, accept6 m transports6[0] datagram6 = .ok (some (src, dst, datagram6.drop 40)) ∧
      accept6 m transports6[0] damaged6 = .ok (some (src, dst, (datagram6.drop 40).take 8))) := by
  refine ⟨⟨by decide, (bitsOf datagram4).take 6, ((bitsOf datagram4).drop 6).take 8,
      ((bitsOf damaged4).drop 6).take 8, (bitsOf datagram4).drop 14, by decide +kernel, by decide +kernel, by decide +kernel, by decide +kernel⟩,
    ?_, ?_, ⟨by decide, (bitsOf datagram6).take 46, ((bitsOf datagram6).drop 46).take 1,
      ((bitsOf damaged6).drop 46).take 1, (bitsOf datagram6).drop 47, by decide +kernel, by decide +kernel, by decide +kernel, by decide +kernel⟩,
    ⟨#v[254, 128, 0, 0, 0, 0, 0, 0, 0, 0, 0, 0, 0, 0, 0, 1]⟩, ⟨#v[254, 128, 0, 0, 0, 0, 0, 0, 0, 0, 0, 0, 0, 0, 0, 2]⟩, ?_, ?_⟩ <;> cases m <;> decide +kernel

/-- The hypotheses of the safety theorems hold for the same datagrams with other bursts: in the data of the
first, and in the source address of the second. -/
example : Burst 1 datagram4 (datagram4.take 28 ++ [0] ++ datagram4.drop 29) ∧
    ((datagram4.take 28 ++ [0] ++ datagram4.drop 29).getD 0 0).toNat % 16 = (datagram4.getD 0 0).toNat % 16 ∧
    accept4 .debug transports4[1] (datagram4.take 28 ++ [0] ++ datagram4.drop 29) = .ok none :=
  ⟨⟨by decide, (bitsOf datagram4).take 231, [true], [false], (bitsOf datagram4).drop 232,
    by decide +kernel, by decide +kernel, rfl, rfl⟩, by decide, by decide +kernel⟩

example : Burst 1 datagram6 (datagram6.take 23 ++ [0] ++ datagram6.drop 24) ∧
    bitsAt (datagram6.take 23 ++ [0] ++ datagram6.drop 24) 32 16 = bitsAt datagram6 32 16 ∧
    accept6 .debug transports6[0] (datagram6.take 23 ++ [0] ++ datagram6.drop 24) = .ok none :=
  ⟨⟨by decide, (bitsOf datagram6).take 191, [true], [false], (bitsOf datagram6).drop 192,
    by decide +kernel, by decide +kernel, rfl, rfl⟩, by decide +kernel, by decide +kernel⟩

/-- The other possibility: a bit of `dscp` is not changed without being noticed, one of `flow_label` is, and the
receiver gets the same. -/
example : accept4 .debug transports4[1] (datagram4.take 1 ++ [0xf8] ++ datagram4.drop 2) = .ok none ∧
    accept6 .debug transports6[0] (datagram6.take 3 ++ [1] ++ datagram6.drop 4) =
      accept6 .debug transports6[0] datagram6 := by decide +kernel

end Verif.Props
