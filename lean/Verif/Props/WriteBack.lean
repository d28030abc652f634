import Verif.Proofs.WriteBack
import Verif.Model.Quic
import Verif.Props.Options

/-!
# C86: writing back what was read

`x.populate(&x.from_packet())`, and each `x.set_<field>(x.get_<field>())`, should leave the packet as it
was. C12 is the other direction: reading back what was written.
-/

namespace Verif.Props
open Verif Verif.Spec

/-- **C86** as claimed, for the packet types outside `quic.rs`: when `from_packet()` returns, `populate`
with the result returns and changes no byte. -/
def C86_statement : Prop := ∀ (m : Mode), ∀ d ∈ crateDecls, ∀ (buf : Buf) (v : Val),
  SliceLen buf.length → d.fromPacket m buf = .ok v → d.populate m buf v = .ok buf

/-- A TCP segment with four bytes of options and four of payload. The one option has length byte 8:
it goes on after the options. -/
def longOption : Buf := List.replicate 12 0 ++ [0x60] ++ List.replicate 7 0 ++
  [5, 8, 0xAA, 0xBB] ++ [1, 2, 3, 4]

/-- C86 is false: `from_packet()` cuts an option that goes on after the end of the options area, and
`populate` panics on the result (the assertion in the setter of a list of packets compares the
`packet_size()` of the option, not the bytes written). -/
theorem C86_false : ¬ C86_statement := by
  intro h
  have h1 : tcp.fromPacket .release longOption = .ok (.list [.num 0, .num 0, .num 0, .num 0, .num 6,
      .num 0, .num 0, .num 0, .num 0, .num 0,
      .list [.list [.nums [5], .nums [8], .nums [0xAA, 0xBB]]], .nums [1, 2, 3, 4]]) := by
    decide +kernel
  have h2 := h .release tcp (by simp [crateDecls]) longOption _ (by unfold SliceLen; decide +kernel) h1
  have h3 : tcp.populate .release longOption (.list [.num 0, .num 0, .num 0, .num 0, .num 6,
      .num 0, .num 0, .num 0, .num 0, .num 0,
      .list [.list [.nums [5], .nums [8], .nums [0xAA, 0xBB]]], .nums [1, 2, 3, 4]]) = panic := by
    decide +kernel
  rw [h3] at h2
  cases h2

/-- **C86**, one field of any struct: setting a big-endian integer, a `construct_with` value made of
big-endian integers or a vector of bytes to the value its getter returns changes nothing and does not
panic, whatever the other fields. Missing: vectors of packets, and other byte orders (C04). -/
theorem C86_field_partial (d : Decl) (m : Mode) (buf : Buf) (k : Nat) (f : Field)
    (hf : d.fields[k]? = some f) (hplain : plainTy f.ty = true) (hflat : ∀ c, f.ty ≠ .vecPkt c) (v : Val)
    (h : d.get m buf k = .ok v) : d.set m buf k v = .ok buf :=
  set_get hf hplain hflat h

/-- The 13-bit fragment offset of an IPv4 packet. -/
example : ipv4.get .debug ([0x45, 0, 0, 20, 0, 0, 0x3A, 0xBC] ++ List.replicate 12 7) 7 =
      .ok (.num 0x1ABC) ∧
    ipv4.set .debug ([0x45, 0, 0, 20, 0, 0, 0x3A, 0xBC] ++ List.replicate 12 7) 7 (.num 0x1ABC) =
      .ok ([0x45, 0, 0, 20, 0, 0, 0x3A, 0xBC] ++ List.replicate 12 7) := by decide +kernel

/-- **C86**, whole packets of any struct without vectors of packets. -/
theorem C86_flat_partial (d : Decl) (m : Mode) (buf : Buf) (v : Val)
    (hplain : ∀ f ∈ d.fields, plainTy f.ty = true ∧ ∀ c, f.ty ≠ .vecPkt c)
    (h : d.fromPacket m buf = .ok v) : d.populate m buf v = .ok buf :=
  populate_fromPacket hplain h

example := C86_flat_partial udp .debug [0, 53, 0, 53, 0, 10, 0, 0, 1, 2]
  (.list [.num 53, .num 53, .num 10, .num 0, .nums [1, 2]])
  (by simp [udp, plainTy, fprim, fpayloadRest]) (by decide +kernel)

theorem isPkts_false {ty : Ty} (h : ty.isPkts = false) : ∀ c, ty ≠ .vecPkt c := by
  intro c hc
  rw [hc] at h
  cases h

/-- **C86** for the QUIC packets, without conditions. -/
theorem C86_quic (k : QuicKind) (m : Mode) (buf : Buf) (v : Val)
    (h : k.decl.fromPacket m buf = .ok v) : k.decl.populate m buf v = .ok buf := by
  refine populate_fromPacket (fun f hf => ?_) h
  have key : (k.decl.fields.all fun f => plainTy f.ty && !f.ty.isPkts) = true := by
    cases k <;> decide
  have := List.all_eq_true.mp key f hf
  simp only [Bool.and_eq_true, Bool.not_eq_true'] at this
  exact ⟨this.1, isPkts_false this.2⟩

example := C86_quic .oneRtt .debug [0x41, 1, 2, 3, 4, 5, 6, 7, 8, 9, 9, 5, 6]
  (.list [.num 0, .num 1, .num 0, .num 0, .num 0, .num 1, .nums [1, 2, 3, 4, 5, 6, 7, 8],
    .nums [9, 9], .nums [5, 6]]) (by decide +kernel)

/-- **C86** for the QUIC frames, without conditions. -/
theorem C86_frames (k : FrameKind) (m : Mode) (buf : Buf) (v : Val)
    (h : k.decl.fromPacket m buf = .ok v) : k.decl.populate m buf v = .ok buf := by
  refine populate_fromPacket (fun f hf => ?_) h
  have key : (k.decl.fields.all fun f => plainTy f.ty && !f.ty.isPkts) = true := by
    cases k <;> decide
  have := List.all_eq_true.mp key f hf
  simp only [Bool.and_eq_true, Bool.not_eq_true'] at this
  exact ⟨this.1, isPkts_false this.2⟩

/-- A `MAX_STREAM_DATA` frame with a two-byte and a four-byte integer, which cannot be written to a
zeroed buffer (C50), can be written back. -/
example : FrameKind.maxStreamData.decl.fromPacket .debug [0x11, 0x41, 0x02, 0x80, 1, 2, 3, 0xFF] =
      .ok (.list [.nums [0x11], .nums [0x41, 0x02], .nums [0x80, 1, 2, 3], .nums [0xFF]]) ∧
    FrameKind.maxStreamData.decl.populate .debug [0x11, 0x41, 0x02, 0x80, 1, 2, 3, 0xFF]
      (.list [.nums [0x11], .nums [0x41, 0x02], .nums [0x80, 1, 2, 3], .nums [0xFF]]) =
      .ok [0x11, 0x41, 0x02, 0x80, 1, 2, 3, 0xFF] := by decide +kernel

/-! ## Lists of packets -/

/-- Some packet `p` that the iterator `get_<field>_iter()` of a list yields is longer than the bytes
left for it: `p.packet_size()` is more than `p.packet().len()`. A list without `#[length]` (the options
of the neighbor discovery messages) is the last field; its setter allows for as many bytes more as there
are bytes before the list. -/
def Overruns (d : Decl) (m : Mode) (buf : Buf) : Prop :=
  ∃ k f c raw ps p s, d.fields[k]? = some f ∧ f.ty = .vecPkt c ∧ d.getRaw m buf k = .ok raw ∧
    c.items m raw.length raw = .ok ps ∧ p ∈ ps ∧ c.packetSize m p = .ok s ∧
    p.length + (if f.len.isSome then 0 else buf.length - raw.length) < s

/-- **C86** for every packet type outside `quic.rs`, exactly: writing back what `from_packet()` returned
panics if a packet in a list is too long, and otherwise returns without changing a byte. Missing from
the full claim: the first case (`C86_false`). -/
theorem C86_crate_partial (m : Mode) (d : Decl) (hd : d ∈ crateDecls) (buf : Buf) (v : Val)
    (hsl : SliceLen buf.length) (h : d.fromPacket m buf = .ok v) :
    (¬ Overruns d m buf → d.populate m buf v = .ok buf) ∧
    (Overruns d m buf → d.populate m buf v = panic) := by
  have hg := crateDecls_good d hd
  have hshape : listShape d = true := by
    revert d
    intro d hd _ _
    exact List.all_eq_true.mp (show crateDecls.all listShape = true by decide) d hd
  obtain ⟨vs, rfl, hl, hget⟩ := fromPacket_inv h
  have hall : ∀ k, k < d.fields.length → ∃ v, d.get m buf k = .ok v :=
    fun k hk => ⟨_, hget k (by omega)⟩
  -- every setter
  have step : ∀ k (hk : k < vs.length), (d.set m buf k vs[k] = .ok buf) ∨
      (Overruns d m buf ∧ d.set m buf k vs[k] = panic) := by
    intro k hk
    have hf : d.fields[k]? = some d.fields[k] := List.getElem?_eq_getElem (by omega)
    generalize d.fields[k] = f at hf
    cases hp : f.ty.isPkts with
    | false =>
      exact .inl (set_get hf (regular_plain hg.reg f (List.mem_of_getElem? hf)) (isPkts_false hp)
        (hget k hk))
    | true =>
      obtain ⟨c, hc⟩ : ∃ c, f.ty = .vecPkt c := by
        cases hty : f.ty with
        | vecPkt c => exact ⟨c, rfl⟩
        | prim p => rw [hty] at hp; cases hp
        | misc p => rw [hty] at hp; cases hp
        | vecPrim p => rw [hty] at hp; cases hp
      obtain ⟨raw, co, len, g1, g2, g3, g4, g5⟩ := list_slack hg hshape hsl hall hf hc
      obtain ⟨d', hd', rfl⟩ := (hg.fields f (List.mem_of_getElem? hf)).inner c hc
      obtain ⟨ps, i1, i2, i3⟩ := set_get_packets hf hc (hd'.rewrites m) hsl (hget k hk) g1 g2 g3 g4 g5
      by_cases hov : ∃ p ∈ ps, ∃ s, d'.codec.packetSize m p = .ok s ∧
          p.length + (if f.len.isSome then 0 else buf.length - raw.length) < s
      · obtain ⟨p, hpm, s, hs, hlt⟩ := hov
        exact .inr ⟨⟨k, f, _, raw, ps, p, s, hf, hc, g1, i1, hpm, hs, hlt⟩, i3 ⟨p, hpm, s, hs, hlt⟩⟩
      · refine .inl (i2 fun p hpm s hs => Nat.le_of_not_lt fun hlt => hov ⟨p, hpm, s, hs, hlt⟩)
  refine ⟨fun hno => ?_, fun hov => ?_⟩
  · refine populate_unchanged hl fun k hk => ?_
    rcases step k hk with h1 | ⟨h1, -⟩
    · exact h1
    · exact absurd h1 hno
  · refine populate_or_panic hl (fun k hk => (step k hk).imp_right (·.2)) ?_
    obtain ⟨k, f, c, raw, ps, p, s, hf, hc, g1, i1, hpm, hs, hlt⟩ := hov
    have hk : k < d.fields.length := (List.getElem?_eq_some_iff.mp hf).1
    obtain ⟨raw', co, len, g1', g2, g3, g4, g5⟩ := list_slack hg hshape hsl hall hf hc
    rw [g1] at g1'
    cases g1'
    obtain ⟨d', hd', rfl⟩ := (hg.fields f (List.mem_of_getElem? hf)).inner c hc
    obtain ⟨ps', i1', -, i3⟩ := set_get_packets hf hc (hd'.rewrites m) hsl (hget k (by omega)) g1 g2 g3 g4 g5
    rw [i1] at i1'
    cases i1'
    exact ⟨k, by omega, i3 ⟨p, hpm, s, hs, hlt⟩⟩

/-- The witness of `C86_false` is the second case. -/
example : Overruns tcp .release longOption :=
  ⟨10, _, _, [5, 8, 0xAA, 0xBB], [[5, 8, 0xAA, 0xBB]], [5, 8, 0xAA, 0xBB], 8, rfl, rfl,
    by decide +kernel, by decide +kernel, by simp, by decide +kernel, by decide⟩

/-- A neighbor solicitation whose option is longer than the message is read, and is written back, as
long as it is not longer by more than the 24 bytes before the options. -/
example : neighborSolicit.fromPacket .debug (List.replicate 24 0 ++ [1, 1, 9]) =
      .ok (.list [.nums [0], .nums [0], .num 0, .num 0, .nums [0, 0, 0, 0, 0, 0, 0, 0], .nums [],
        .list [.list [.nums [1], .num 1, .nums [9]]]]) ∧
    neighborSolicit.populate .debug (List.replicate 24 0 ++ [1, 1, 9])
      (.list [.nums [0], .nums [0], .num 0, .num 0, .nums [0, 0, 0, 0, 0, 0, 0, 0], .nums [],
        .list [.list [.nums [1], .num 1, .nums [9]]]]) = .ok (List.replicate 24 0 ++ [1, 1, 9]) ∧
    neighborSolicit.populate .debug (List.replicate 24 0 ++ [1, 4, 9])
      (.list [.nums [0], .nums [0], .num 0, .num 0, .nums [0, 0, 0, 0, 0, 0, 0, 0], .nums [],
        .list [.list [.nums [1], .num 4, .nums [9]]]]) = panic := by decide +kernel

/-- The packet types outside `quic.rs` that have no list of options. -/
def noOptionDecls : List Decl := [ethernet, vlan, arp, ipv4Option, ipv6, extension, routing, fragment,
  udp, tcpOption, icmp, echoReply, echoRequest, destinationUnreachable, timeExceeded, icmpv6, ndpOption,
  u16BE, u32BE, gre]

/-- **C86** for the packet types without options: no conditions. (The optional words of a GRE header
are lists of packets, but always end inside their field.) -/
theorem C86_no_options_partial (m : Mode) (d : Decl) (hd : d ∈ noOptionDecls) (buf : Buf) (v : Val)
    (hsl : SliceLen buf.length) (h : d.fromPacket m buf = .ok v) : d.populate m buf v = .ok buf := by
  have hflat : ∀ d ∈ noOptionDecls.dropLast, d.populate m buf v = .ok buf ∨ d.fromPacket m buf ≠ .ok v := by
    intro d hd
    by_cases h : d.fromPacket m buf = .ok v
    · refine .inl (populate_fromPacket (fun f hf => ?_) h)
      have key : (noOptionDecls.dropLast.all fun d => d.fields.all fun f =>
          plainTy f.ty && !f.ty.isPkts) = true := by decide
      have := List.all_eq_true.mp (List.all_eq_true.mp key d hd) f hf
      simp only [Bool.and_eq_true, Bool.not_eq_true'] at this
      exact ⟨this.1, isPkts_false this.2⟩
    · exact .inr h
  have hmem : d ∈ noOptionDecls.dropLast ∨ d = gre := by
    simp only [noOptionDecls, List.dropLast, List.mem_cons, List.not_mem_nil, or_false] at hd ⊢
    simpa only [or_assoc] using hd
  rcases hmem with hmem | rfl
  · rcases hflat d hmem with h1 | h1
    · exact h1
    · exact absurd h h1
  · refine (C86_crate_partial m gre (by simp [crateDecls]) buf v hsl h).1 ?_
    rintro ⟨k, f, c, raw, ps, p, s, hf, hc, g1, i1, hpm, hs, hlt⟩
    have hc' : c = u16BE.codec ∨ c = u32BE.codec := by
      have hk : k < 15 := (List.getElem?_eq_some_iff.mp hf).1
      have : k = 9 ∨ k = 10 ∨ k = 11 ∨ k = 12 := by
        have hp : f.ty.isPkts = true := by rw [hc]; rfl
        have key : ∀ k < 15, (gre.fields[k]?).map (·.ty.isPkts) = some true →
            k = 9 ∨ k = 10 ∨ k = 11 ∨ k = 12 := by decide
        exact key k hk (by rw [hf]; simp [hp])
      rcases this with rfl | rfl | rfl | rfl <;> cases hf <;> cases hc
      · exact .inl rfl
      · exact .inl rfl
      · exact .inr rfl
      · exact .inr rfl
    have hmin := items_min _ _ i1 p hpm
    rcases hc' with rfl | rfl
    · have : u16BE.packetSize m p = .ok 2 := packetSize_eq (d := u16BE) (sizes := [0]) rfl (by decide)
      rw [show u16BE.codec.packetSize m p = u16BE.packetSize m p from rfl, this] at hs
      cases hs
      have : u16BE.codec.minSize = 2 := by decide
      omega
    · have : u32BE.packetSize m p = .ok 4 := packetSize_eq (d := u32BE) (sizes := [0]) rfl (by decide)
      rw [show u32BE.codec.packetSize m p = u32BE.packetSize m p from rfl, this] at hs
      cases hs
      have : u32BE.codec.minSize = 4 := by decide
      omega

/-- A GRE header with checksum, offset and key, and one byte of payload. -/
example : (∃ v, gre.fromPacket .debug [0xA0, 0, 8, 0, 1, 2, 0, 0, 0, 0, 0, 9, 0x45] = .ok v) ∧
    gre ∈ noOptionDecls := by
  refine ⟨⟨.list [.num 1, .num 0, .num 1, .num 0, .num 0, .num 0, .num 0, .num 0, .num 0x800,
    .list [.list [.num 0x102, .nums []]], .list [.list [.num 0, .nums []]],
    .list [.list [.num 9, .nums []]], .list [], .nums [], .nums [0x45]], by decide +kernel⟩, ?_⟩
  simp [noOptionDecls]

/-- **C86** for TCP: a segment whose options area consists of whole options. -/
theorem C86_tcp_partial (m : Mode) (buf : Buf) (v : Val) (os : List Opt) (hsl : SliceLen buf.length)
    (hw : ∀ o ∈ os, o.whole tcpSolo) (harea : tcpArea buf = os.flatMap Opt.bytes)
    (h : tcp.fromPacket m buf = .ok v) : tcp.populate m buf v = .ok buf := by
  refine (C86_crate_partial m tcp (by simp [crateDecls]) buf v hsl h).1 ?_
  rintro ⟨k, f, c, raw, ps, p, s, hf, hc, g1, i1, hpm, hs, hlt⟩
  have hk : k = 10 := by
    have hk : k < 12 := (List.getElem?_eq_some_iff.mp hf).1
    have key : ∀ k < 12, (tcp.fields[k]?).map (·.ty.isPkts) = some true → k = 10 := by decide
    exact key k hk (by rw [hf]; simp [hc, Ty.isPkts])
  subst hk
  cases hf
  cases hc
  have h20 : 20 ≤ buf.length := by
    obtain ⟨a, l, b, h1, -, -, -, -, h6, -⟩ := varSlice_inv g1
    rw [(before_fixed (d := tcp) (k := 10) (by decide) m buf).2, before_bit] at h1
    cases h1
    exact h6
  rw [C17_tcp_options_raw m buf h20, harea] at g1
  cases g1
  have := items_whole (tcpOption_optCodec m) _ os hw i1 p hpm s hs
  omega

example := C86_tcp_partial .debug (List.replicate 12 0 ++ [0x60] ++ List.replicate 7 0 ++ [2, 4, 5, 180])
  (.list [.num 0, .num 0, .num 0, .num 0, .num 6, .num 0, .num 0, .num 0, .num 0, .num 0,
    .list [.list [.nums [2], .nums [4], .nums [5, 180]]], .nums []])
  [⟨2, some 4, [5, 180]⟩] (by decide) (by simp [Opt.whole, tcpSolo]) (by decide) (by decide +kernel)

/-- **C86** for IPv4: a packet whose options area consists of whole options. -/
theorem C86_ipv4_partial (m : Mode) (buf : Buf) (v : Val) (os : List Opt) (hsl : SliceLen buf.length)
    (hw : ∀ o ∈ os, o.whole ipv4Solo) (harea : ipv4Area buf = os.flatMap Opt.bytes)
    (h : ipv4.fromPacket m buf = .ok v) : ipv4.populate m buf v = .ok buf := by
  refine (C86_crate_partial m ipv4 (by simp [crateDecls]) buf v hsl h).1 ?_
  rintro ⟨k, f, c, raw, ps, p, s, hf, hc, g1, i1, hpm, hs, hlt⟩
  have hk : k = 13 := by
    have hk : k < 15 := (List.getElem?_eq_some_iff.mp hf).1
    have key : ∀ k < 15, (ipv4.fields[k]?).map (·.ty.isPkts) = some true → k = 13 := by decide
    exact key k hk (by rw [hf]; simp [hc, Ty.isPkts])
  subst hk
  cases hf
  cases hc
  have h20 : 20 ≤ buf.length := by
    obtain ⟨a, l, b, h1, -, -, -, -, h6, -⟩ := varSlice_inv g1
    rw [(before_fixed (d := ipv4) (k := 13) (by decide) m buf).2, before_bit] at h1
    cases h1
    exact h6
  rw [C17_ipv4_options_raw m buf h20, harea] at g1
  cases g1
  have := items_whole (ipv4Option_optCodec m) _ os hw i1 p hpm s hs
  omega

/-- A segment with a maximum segment size option and two no-operations. -/
example : tcpArea (List.replicate 12 0 ++ [0x70] ++ List.replicate 7 0 ++ [2, 4, 5, 180, 1, 1, 1, 1, 7]) =
      ([⟨2, some 4, [5, 180]⟩, ⟨1, none, []⟩, ⟨1, none, []⟩, ⟨1, none, []⟩, ⟨1, none, []⟩] :
        List Opt).flatMap Opt.bytes ∧
    (∀ o ∈ ([⟨2, some 4, [5, 180]⟩, ⟨1, none, []⟩] : List Opt), o.whole tcpSolo) := by
  refine ⟨by decide +kernel, ?_⟩
  simp [Opt.whole, tcpSolo]

end Verif.Props
