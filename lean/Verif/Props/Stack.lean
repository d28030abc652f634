import Verif.Proofs.Stack

/-!
# C82: packets inside packets

Writing a stack of protocol layers with `populate` and reading it back with the getters and `payload()`
gives the values written, for any number of layers. If one of the layers has a length, padding after
the stack does not reach the layers inside it.
-/

namespace Verif.Props
open Verif Verif.Spec

/-- **C82**, writing. `populate`, applied from the innermost layer outwards to zeroed buffers of the
right size, never panics and produces the headers one after the other followed by the data. -/
theorem C82_write (m : Mode) (ls : List Layer) (data : Buf) (h : StackFits m ls data)
    (hsl : SliceLen (stackWire ls data).length) : writeStack m ls data = .ok (stackWire ls data) :=
  writeStack_wire ls data h hsl

/-- **C82**, reading. The getters of all layers return the header values written (integers reduced to
their field widths), and the last `payload()` is the data; with the padding behind it if no layer has a
length. -/
theorem C82_read (m : Mode) (ls : List Layer) (data pad : Buf) (h : StackFits m ls data)
    (hsl : SliceLen (stackWire ls data ++ pad).length) :
    readStack m (ls.map (·.d)) (stackWire ls data ++ pad) =
      .ok (ls.map (·.read), if ls.any (fun l => closed l.d) then data else data ++ pad) :=
  readStack_wire ls data pad h hsl

/-- All packet types of the crate outside `quic.rs` can carry another one, except the five messages of
neighbor discovery, whose last field is `options` (positions 19 to 23 of the list). -/
theorem C82_carriers : crateDecls.map carrier = List.replicate 19 true ++ List.replicate 5 false ++
    List.replicate 3 true := by decide

/-- TCP segments can carry data, neighbor solicitations cannot. -/
example : carrier tcp = true ∧ carrier neighborSolicit = false := by decide

/-- Header fields of an IPv4 packet without options around `inner`. -/
def ipv4Header (dscp ecn ident flags frag ttl proto checksum : Nat) (src dst : List Nat) (inner : Nat) :
    List Val :=
  [.num 4, .num 5, .num dscp, .num ecn, .num (20 + inner), .num ident, .num flags, .num frag, .num ttl,
    .nums [proto], .num checksum, .nums src, .nums dst, .list []]

/-- A UDP datagram in an IPv4 packet in an Ethernet frame. -/
def udpFrame (m : Mode) (ethDst ethSrc ipSrc ipDst : List Nat)
    (dscp ecn ident flags frag ttl ipSum sport dport udpSum : Nat) (data : Buf) : List Layer :=
  [⟨ethernet, noWire, [.nums ethDst, .nums ethSrc, .nums [0x0800]]⟩,
    ⟨ipv4, fun _ => declWire m noWire ipv4Option,
      ipv4Header dscp ecn ident flags frag ttl 17 ipSum ipSrc ipDst (8 + data.length)⟩,
    ⟨udp, noWire, [.num sport, .num dport, .num (8 + data.length), .num udpSum]⟩]

/-- **C82** for the most common stack, for all field values: the length fields are the sizes of what is
inside, MAC addresses have six and IP addresses four parts, and the datagram is not too long for IPv4. -/
theorem C82_udp_frame (m : Mode) (ethDst ethSrc ipSrc ipDst : List Nat)
    (dscp ecn ident flags frag ttl ipSum sport dport udpSum : Nat) (data pad : Buf)
    (h1 : ethDst.length = 6) (h2 : ethSrc.length = 6) (h3 : ipSrc.length = 4) (h4 : ipDst.length = 4)
    (hd : 28 + data.length < 2 ^ 16) (hp : pad.length < 2 ^ 62) :
    ∃ bytes, writeStack m (udpFrame m ethDst ethSrc ipSrc ipDst dscp ecn ident flags frag ttl ipSum sport
        dport udpSum data) data = .ok bytes ∧ bytes.length = 14 + 20 + 8 + data.length ∧
      readStack m [ethernet, ipv4, udp] (bytes ++ pad) = .ok
        ([[.nums (ethDst.map (· % 256)), .nums (ethSrc.map (· % 256)), .nums [0x0800]],
          [.num 4, .num 5, .num (dscp % 64), .num (ecn % 4), .num (28 + data.length), .num (ident % 65536),
            .num (flags % 8), .num (frag % 8192), .num (ttl % 256), .nums [17], .num (ipSum % 65536),
            .nums (ipSrc.map (· % 256)), .nums (ipDst.map (· % 256)), .list []],
          [.num (sport % 65536), .num (dport % 65536), .num (8 + data.length), .num (udpSum % 65536)]],
          data) := by
  match ethDst, h1, ethSrc, h2, ipSrc, h3, ipDst, h4 with
  | [a1, a2, a3, a4, a5, a6], _, [b1, b2, b3, b4, b5, b6], _, [c1, c2, c3, c4], _, [d1, d2, d3, d4], _ =>
  have hu : Layer.Fits m ⟨udp, noWire, [.num sport, .num dport, .num (8 + data.length), .num udpSum]⟩ data := by
    refine ⟨show carrier udp = true by decide, ?_, ?_, ?_⟩
    · exact lawful_none (by unfold udp; simp [fprim, fpayloadRest])
    · simp [Layer.fields, udp, fprim, fpayloadRest, typedFields, typed, bytesVal]
    · simp [Layer.fields, udp, fprim, fpayloadRest, lensAgree]
  have lu : (Layer.wire ⟨udp, noWire, [.num sport, .num dport, .num (8 + data.length), .num udpSum]⟩ data).length =
      8 + data.length := by
    rw [Layer.wire, packBits_length]
    simp [Layer.fields, udp, fprim, fpayloadRest, encFields, encField, bytesVal, bytes_flatMap, bitsOf_length]
    omega
  generalize hub : Layer.wire ⟨udp, noWire, [.num sport, .num dport, .num (8 + data.length), .num udpSum]⟩ data = ub
  rw [hub] at lu
  have hi : Layer.Fits m ⟨ipv4, fun _ => declWire m noWire ipv4Option,
      ipv4Header dscp ecn ident flags frag ttl 17 ipSum [c1, c2, c3, c4] [d1, d2, d3, d4] (8 + data.length)⟩ ub := by
    refine ⟨show carrier ipv4 = true by decide, ?_, ?_, ?_⟩
    · exact lawful_one ipv4Option_inner (by unfold ipv4; simp [fprim, fmisc, fpayload])
    · simp [Layer.fields, ipv4Header, ipv4, fprim, fmisc, fpayload, typedFields, typed, bytesVal]
    · simp [Layer.fields, ipv4Header, ipv4, fprim, fmisc, fpayload, lensAgree, lenNum, env, normField, Val.asNum,
        encField, bytesVal, bytes_flatMap, bitsOf_length, ipv4OptionsLength, ipv4PayloadLength]
      omega
  have li : (Layer.wire ⟨ipv4, fun _ => declWire m noWire ipv4Option,
      ipv4Header dscp ecn ident flags frag ttl 17 ipSum [c1, c2, c3, c4] [d1, d2, d3, d4] (8 + data.length)⟩ ub).length =
      28 + data.length := by
    rw [Layer.wire, packBits_length]
    simp [Layer.fields, ipv4Header, ipv4, fprim, fmisc, fpayload, encFields, encField, bytesVal, bytes_flatMap, bitsOf_length]
    omega
  generalize hib : Layer.wire ⟨ipv4, fun _ => declWire m noWire ipv4Option,
      ipv4Header dscp ecn ident flags frag ttl 17 ipSum [c1, c2, c3, c4] [d1, d2, d3, d4] (8 + data.length)⟩ ub = ib
  rw [hib] at li
  have he : Layer.Fits m ⟨ethernet, noWire, [.nums [a1, a2, a3, a4, a5, a6], .nums [b1, b2, b3, b4, b5, b6], .nums [0x0800]]⟩ ib := by
    refine ⟨show carrier ethernet = true by decide, ?_, ?_, ?_⟩
    · exact lawful_none (by unfold ethernet; simp [fmisc, fpayloadRest])
    · simp [Layer.fields, ethernet, fmisc, fpayloadRest, typedFields, typed, bytesVal]
    · simp [Layer.fields, ethernet, fmisc, fpayloadRest, lensAgree]
  have le : (Layer.wire ⟨ethernet, noWire, [.nums [a1, a2, a3, a4, a5, a6], .nums [b1, b2, b3, b4, b5, b6],
      .nums [0x0800]]⟩ ib).length = 42 + data.length := by
    rw [Layer.wire, packBits_length]
    simp [Layer.fields, ethernet, fmisc, fpayloadRest, encFields, encField, bytesVal, bytes_flatMap, bitsOf_length]
    omega
  have hfit : StackFits m (udpFrame m [a1, a2, a3, a4, a5, a6] [b1, b2, b3, b4, b5, b6] [c1, c2, c3, c4]
      [d1, d2, d3, d4] dscp ecn ident flags frag ttl ipSum sport dport udpSum data) data := by
    simp only [udpFrame, StackFits, stackWire, hub, hib]
    exact ⟨he, hi, hu, trivial⟩
  have hlen : (stackWire (udpFrame m [a1, a2, a3, a4, a5, a6] [b1, b2, b3, b4, b5, b6] [c1, c2, c3, c4]
      [d1, d2, d3, d4] dscp ecn ident flags frag ttl ipSum sport dport udpSum data) data).length = 42 + data.length := by
    simp only [udpFrame, stackWire, hub, hib, le]
  refine ⟨_, C82_write m _ data hfit (by unfold SliceLen; rw [hlen]; omega), by rw [hlen], ?_⟩
  have := C82_read m _ data pad hfit (by unfold SliceLen; rw [List.length_append, hlen]; omega)
  refine Eq.trans this ?_
  have hc : (udpFrame m [a1, a2, a3, a4, a5, a6] [b1, b2, b3, b4, b5, b6] [c1, c2, c3, c4]
      [d1, d2, d3, d4] dscp ecn ident flags frag ttl ipSum sport dport udpSum data).any (fun l => closed l.d) = true := by
    simp only [udpFrame, List.any_cons]
    decide
  rw [hc]
  have t1 : (28 + data.length) % 65536 = 28 + data.length := by omega
  have t2 : (8 + data.length) % 65536 = 8 + data.length := by omega
  simp [udpFrame, Layer.read, ethernet, ipv4, udp, ipv4Header, fprim, fmisc, fpayload, fpayloadRest, normFields,
    normField]
  omega

/-- Two frames: 3 bytes of data, and padding to the minimum frame size. -/
example := C82_udp_frame .debug [1, 2, 3, 4, 5, 6] [7, 8, 9, 10, 11, 12] [10, 0, 0, 1] [10, 0, 0, 2]
  0 0 1 2 0 64 0 53 53 0 [1, 2, 3] (List.replicate 15 0) rfl rfl rfl rfl (by decide) (by decide)

end Verif.Props
