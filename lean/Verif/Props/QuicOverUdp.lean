import Verif.Spec.QuicOverUdp
import Verif.Props.QuicDatagram
import Verif.Props.QuicRelease
import Verif.Props.Transfer

/-!
# C133: QUIC datagrams sent over UDP and IP with the crate arrive

The programs of sender and receiver are in `Spec/QuicOverUdp`.
-/

set_option autoImplicit false

namespace Verif.Props
open Verif Verif.Spec Verif.Spec.Quic

theorem udpLayer_fits (m : Mode) (sport dport : Nat) (data : Buf) : (udpLayer sport dport data.length).Fits m data := by
  refine ⟨show carrier udp = true by decide, ?_, ?_, ?_⟩
  · exact lawful_none (by simp only [udpLayer]; unfold udp; simp [fprim, fpayloadRest])
  · simp [udpLayer, Layer.fields, udp, fprim, fpayloadRest, typedFields, typed, Spec.bytesVal]
  · simp [udpLayer, Layer.fields, udp, fprim, fpayloadRest, lensAgree]

theorem udpLayer_length (sport dport : Nat) (data : Buf) :
    ((udpLayer sport dport data.length).wire data).length = 8 + data.length := by
  rw [Layer.wire, packBits_length]
  simp [udpLayer, Layer.fields, udp, fprim, fpayloadRest, encFields, encField, Spec.bytesVal, bytes_flatMap, bitsOf_length]
  omega

theorem udpLayer_get {m : Mode} {sport dport : Nat} {data : Buf}
    (hsl : SliceLen ((udpLayer sport dport data.length).wire data).length) {k : Nat} {f : Field} {v : Val}
    (hf : udp.fields[k]? = some f) (hv : (udpLayer sport dport data.length).header[k]? = some v) :
    udp.get m ((udpLayer sport dport data.length).wire data) k = .ok (normField (noElems k) f.ty v) := by
  have h := udpLayer_fits m sport dport data
  obtain ⟨_, _, _, c⟩ := carrier_iff h.carrier
  have := get_enc (tail := []) hsl c.reg h.lawful h.typed (lensAgree_on (bitsOf []) h.lens)
    (by rw [wire_bits h]; simp) (.inr rfl) hf (v := v)
    (by rw [Layer.fields, List.getElem?_append_left (List.getElem?_eq_some_iff.mp hv).1, hv])
  exact this

/-- What is needed of a written UDP segment, also after its checksum was set. -/
theorem udp_segment (m : Mode) (sport dport : Nat) (data : Buf) (hs : sport < 65536) (hd : dport < 65536)
    (hlen : 8 + data.length < 65536) :
    ∃ seg, udp.populate m (List.replicate (8 + data.length) 0)
        (.list ((udpLayer sport dport data.length).fields data)) = .ok seg ∧ seg.length = 8 + data.length ∧
      (udp.newPacket seg).isSome = true ∧ ∀ c seg', udp.set m seg 3 (.num c) = .ok seg' →
        udp.get m seg' 0 = .ok (.num sport) ∧ udp.get m seg' 1 = .ok (.num dport) ∧ udp.payload m seg' = .ok data := by
  have hfit := udpLayer_fits m sport dport data
  have hl := udpLayer_length sport dport data
  have hsl : SliceLen ((udpLayer sport dport data.length).wire data).length := by rw [hl]; unfold SliceLen; omega
  have hpop := wire_populate hfit hsl
  rw [hl] at hpop
  have hg0 := udpLayer_get (m := m) hsl (k := 0) rfl rfl
  have hg1 := udpLayer_get (m := m) hsl (k := 1) rfl rfl
  have hpay : udp.payload m ((udpLayer sport dport data.length).wire data) = .ok data := by
    have := wire_payload hfit (tail := []) (by rw [List.append_nil]; exact hsl) (.inr rfl)
    rw [List.append_nil] at this
    exact this
  have hn : (udp.newPacket ((udpLayer sport dport data.length).wire data)).isSome = true :=
    (C06_new_iff udp _).1.mpr (by rw [show fixedBits udp.fields = 64 by decide, hl]; omega)
  refine ⟨_, hpop, hl, hn, ?_⟩
  intro c seg' hset
  have hacc : udp.accepted = true := by decide
  have hother : ∀ k, k = 0 ∨ k = 1 → udp.get m seg' k = udp.get m ((udpLayer sport dport data.length).wire data) k := by
    rintro k (rfl | rfl)
    · obtain ⟨new, h1, h2⟩ := C54_declared_other_getter udp hacc 3 0 (by decide) _ _ rfl rfl (by decide) (by decide) rfl rfl m
        (noElems 0) (.num c) trivial _ hsl hn
      rw [hset] at h1
      rw [Except.ok.inj h1]; exact h2
    · obtain ⟨new, h1, h2⟩ := C54_declared_other_getter udp hacc 3 1 (by decide) _ _ rfl rfl (by decide) (by decide) rfl rfl m
        (noElems 0) (.num c) trivial _ hsl hn
      rw [hset] at h1
      rw [Except.ok.inj h1]; exact h2
  have hw := (set_word (k := 3) (j := 3) hacc rfl rfl (by decide) (by decide) m _ hsl hn c).2
  rw [hset] at hw
  have hw := Except.ok.inj hw
  refine ⟨?_, ?_, ?_⟩
  · rw [hother 0 (.inl rfl), hg0]
    change Except.ok (Val.num (sport % 65536)) = _
    rw [Nat.mod_eq_of_lt hs]
  · rw [hother 1 (.inr rfl), hg1]
    change Except.ok (Val.num (dport % 65536)) = _
    rw [Nat.mod_eq_of_lt hd]
  · have hm : (udp, 8) ∈ openPayloads := by simp [openPayloads]
    rw [C09_open_payloads udp 8 hm m _ hsl] at hpay
    rw [C09_open_payloads udp 8 hm m _ (by rw [hw, storeWord_length]; exact hsl), hw, storeWord_drop (by decide)]
    exact hpay

/-- The segment of the sender, and what a receiver reads from it. -/
theorem quic_segment (m : Mode) (sport dport : Nat) (ps : List SentPacket) (last : SentLast) (hs : sport < 65536)
    (hd : dport < 65536) (hps : ∀ p ∈ ps, p.Valid) (hl : last.Valid) (hone : (∀ p ∈ ps, p.OneByte) ∧ last.OneByte)
    (hlen : 8 + (datagram ps last).length < 65536) :
    ∃ seg qs, quicSegment m sport dport ps last = .ok seg ∧ seg.length = 8 + (datagram ps last).length ∧
      (udp.newPacket seg).isSome = true ∧ AllArrive m last ps qs ∧
      ∀ c seg', udp.set m seg 3 (.num c) = .ok seg' → ∀ (α : Type) (src dst : α),
        openSegment m (some (src, dst, seg')) = .ok (some ⟨src, dst, sport, dport, some qs⟩) := by
  have hsl : SliceLen (datagram ps last).length := by unfold SliceLen; omega
  have hw := (C132_write m ps last hps hl hsl).1 hone
  obtain ⟨qs, hq, ha⟩ := C132_read m ps last hps hl hsl
  obtain ⟨seg, h1, h2, h3, h4⟩ := udp_segment m sport dport (datagram ps last) hs hd hlen
  refine ⟨seg, qs, ?_, h2, h3, ha, ?_⟩
  · unfold quicSegment
    rw [hw, ok_bind, h1]
  · intro c seg' hset α src dst
    obtain ⟨g1, g2, g3⟩ := h4 c seg' hset
    simp only [openSegment, g1, g2, g3, Val.asNum, ok_bind, hq]

/-- **C133** over IPv4: packets and frames whose variable-length integers take one byte are sent without a panic, and
the receiver, with any padding behind the frame, gets the addresses, the ports and all packets with their frames. -/
theorem C133_v4 (m : Mode) (outer : List Layer) (h : Head4) (sport dport : Nat) (ps : List SentPacket) (last : SentLast)
    (pad : Buf) (hs : sport < 65536) (hd : dport < 65536) (hps : ∀ p ∈ ps, p.Valid) (hl : last.Valid)
    (hone : (∀ p ∈ ps, p.OneByte) ∧ last.OneByte) (hok : h.Ok m (8 + (datagram ps last).length))
    (hout : ∀ ip : Buf, ip.length = 4 * h.words + (8 + (datagram ps last).length) → StackFits m outer ip ∧
      SliceLen (stackWire outer ip ++ pad).length)
    (hpad : SliceLen (4 * h.words + (8 + (datagram ps last).length) + pad.length)) :
    ∃ frame qs, sendQuic4 m outer h sport dport ps last = .ok frame ∧
      receiveQuic4 m (outer.map (·.d)) (frame ++ pad) = .ok (some ⟨h.src, h.dst, sport, dport, some qs⟩) ∧
      AllArrive m last ps qs := by
  have := hok.total
  obtain ⟨seg, qs, s1, s2, s3, s4, s5⟩ := quic_segment m sport dport ps last hs hd hps hl hone (by omega)
  rw [← s2] at hok hout hpad
  obtain ⟨frame, seg', c, f1, f2, f3⟩ := C113_v4_delivered m outer h udp4 (by simp [udp4, transports4]) seg pad hok s3 hout hpad
  refine ⟨frame, qs, ?_, ?_, s4⟩
  · unfold sendQuic4
    rw [s1, ok_bind, f1]
  · unfold receiveQuic4
    rw [f3, ok_bind]
    exact s5 c seg' f2 _ _ _

/-- **C133** over IPv6. -/
theorem C133_v6 (m : Mode) (outer : List Layer) (h : Head6) (sport dport : Nat) (ps : List SentPacket) (last : SentLast)
    (pad : Buf) (hs : sport < 65536) (hd : dport < 65536) (hps : ∀ p ∈ ps, p.Valid) (hl : last.Valid)
    (hone : (∀ p ∈ ps, p.OneByte) ∧ last.OneByte) (hlen : 8 + (datagram ps last).length < 65536)
    (hout : ∀ ip : Buf, ip.length = 40 + (8 + (datagram ps last).length) → StackFits m outer ip ∧
      SliceLen (stackWire outer ip ++ pad).length)
    (hpad : SliceLen (40 + (8 + (datagram ps last).length) + pad.length)) :
    ∃ frame qs, sendQuic6 m outer h sport dport ps last = .ok frame ∧
      receiveQuic6 m (outer.map (·.d)) (frame ++ pad) = .ok (some ⟨h.src, h.dst, sport, dport, some qs⟩) ∧
      AllArrive m last ps qs := by
  obtain ⟨seg, qs, s1, s2, s3, s4, s5⟩ := quic_segment m sport dport ps last hs hd hps hl hone hlen
  rw [← s2] at hlen hout hpad
  obtain ⟨frame, seg', c, f1, f2, f3⟩ := C113_v6_delivered m outer h udp6 (by simp [udp6, transports6]) seg pad hlen s3 hout hpad
  refine ⟨frame, qs, ?_, ?_, s4⟩
  · unfold sendQuic6
    rw [s1, ok_bind, f1]
  · unfold receiveQuic6
    rw [f3, ok_bind]
    exact s5 c seg' f2 _ _ _

/-- **C133** in Ethernet frames. -/
theorem C133_ethernet (m : Mode) (dst src : List Nat) (h1 : dst.length = 6) (h2 : src.length = 6) (sport dport : Nat)
    (ps : List SentPacket) (last : SentLast) (pad : Buf) (hp : pad.length < 2 ^ 62) (hs : sport < 65536)
    (hd : dport < 65536) (hps : ∀ p ∈ ps, p.Valid) (hl : last.Valid) (hone : (∀ p ∈ ps, p.OneByte) ∧ last.OneByte) :
    (∀ h : Head4, h.Ok m (8 + (datagram ps last).length) →
      ∃ frame qs, sendQuic4 m [etherLayer dst src 0x0800] h sport dport ps last = .ok frame ∧
        receiveQuic4 m [ethernet] (frame ++ pad) = .ok (some ⟨h.src, h.dst, sport, dport, some qs⟩) ∧
        AllArrive m last ps qs) ∧
    (∀ h : Head6, 8 + (datagram ps last).length < 65536 →
      ∃ frame qs, sendQuic6 m [etherLayer dst src 0x86dd] h sport dport ps last = .ok frame ∧
        receiveQuic6 m [ethernet] (frame ++ pad) = .ok (some ⟨h.src, h.dst, sport, dport, some qs⟩) ∧
        AllArrive m last ps qs) := by
  constructor
  · intro h hok
    have := hok.total
    have := hok.words
    exact C133_v4 m [etherLayer dst src 0x0800] h sport dport ps last pad hs hd hps hl hone hok (fun ip hip =>
      ⟨⟨(etherLayer_fits m _ h1 h2 ip).1, trivial⟩, by
        rw [List.length_append, stackWire, stackWire, (etherLayer_fits m _ h1 h2 ip).2]
        unfold SliceLen; omega⟩) (by unfold SliceLen; omega)
  · intro h hlen
    exact C133_v6 m [etherLayer dst src 0x86dd] h sport dport ps last pad hs hd hps hl hone hlen (fun ip hip =>
      ⟨⟨(etherLayer_fits m _ h1 h2 ip).1, trivial⟩, by
        rw [List.length_append, stackWire, stackWire, (etherLayer_fits m _ h1 h2 ip).2]
        unfold SliceLen; omega⟩) (by unfold SliceLen; omega)

theorem sent_one : (∀ p ∈ [sentInitial, sentHandshake [1]], p.OneByte) ∧ sentOneRtt.OneByte := by
  refine ⟨?_, sentFrames_one⟩
  intro p hp
  rcases List.mem_cons.mp hp with rfl | hp
  · exact ⟨sentFrames_one, rfl, rfl⟩
  · rw [List.mem_singleton.mp hp]; exact ⟨by simp [sentHandshake, SentPacket.frames], rfl⟩

/-- The three packets of the example of C132 from port 4433 to port 50000, in an Ethernet frame with four bytes of
padding. -/
example := (C133_ethernet .debug [1, 2, 3, 4, 5, 6] [6, 5, 4, 3, 2, 1] rfl rfl 4433 50000 [sentInitial, sentHandshake [1]]
  sentOneRtt [0, 0, 0, 0] (by decide) (by decide) (by decide) (sent_valid ⟨0, by decide, by decide, by decide, by decide⟩)
  sentOneRtt_valid sent_one).1 ⟨5, 0, 0, 7, 2, 0, 64, ⟨#v[10, 0, 0, 1]⟩, ⟨#v[10, 0, 0, 2]⟩, []⟩
  ⟨by decide, by simp, by decide, by decide⟩

/-- **C133** If the receiver gets QUIC packets from an IPv4 packet and at most 15 consecutive bits of it are changed, not
in the header length, it rejects the packet or gets the same. -/
theorem C133_v4_burst (m : Mode) (p q : Buf) (n : Nat) (hn : n ≤ 15) (hsl : SliceLen p.length) (hb : Burst n p q)
    (hihl : (q.getD 0 0).toNat % 16 = (p.getD 0 0).toNat % 16) (r : Received Ipv4Addr)
    (hp : receiveQuic4 m [] p = .ok (some r)) :
    receiveQuic4 m [] q = .ok none ∨ receiveQuic4 m [] q = .ok (some r) := by
  change (accept4 m udp4 p >>= openSegment m) = _ at hp
  change (accept4 m udp4 q >>= openSegment m) = _ ∨ (accept4 m udp4 q >>= openSegment m) = _
  cases ha : accept4 m udp4 p with
  | error e => rw [ha] at hp; cases hp
  | ok o =>
    cases o with
    | none => rw [ha] at hp; cases hp
    | some x =>
      rcases C113_v4_burst m udp4 (by simp [udp4, transports4]) p q n hn hsl hb hihl x ha with h | h
      · rw [h]; exact .inl rfl
      · rw [h, ← ha]; exact .inr hp

/-- **C133** The same over IPv6, outside the payload length. -/
theorem C133_v6_burst (m : Mode) (p q : Buf) (n : Nat) (hn : n ≤ 15) (hsl : SliceLen p.length) (hb : Burst n p q)
    (hpl : bitsAt q 32 16 = bitsAt p 32 16) (r : Received Ipv6Addr) (hp : receiveQuic6 m [] p = .ok (some r)) :
    receiveQuic6 m [] q = .ok none ∨ receiveQuic6 m [] q = .ok (some r) := by
  change (accept6 m udp6 p >>= openSegment m) = _ at hp
  change (accept6 m udp6 q >>= openSegment m) = _ ∨ (accept6 m udp6 q >>= openSegment m) = _
  cases ha : accept6 m udp6 p with
  | error e => rw [ha] at hp; cases hp
  | ok o =>
    cases o with
    | none => rw [ha] at hp; cases hp
    | some x =>
      rcases C113_v6_burst m udp6 (by simp [udp6, transports6]) p q n hn hsl hb hpl x ha with h | h
      · rw [h]; exact .inl rfl
      · rw [h, ← ha]; exact .inr hp

/-- A 1-RTT packet over UDP and IPv4. -/
def quicOver4 : Buf := [69, 0, 0, 39, 0, 7, 64, 0, 64, 17, 38, 189, 10, 0, 0, 1, 10, 0, 0, 2, 1, 187, 17, 81, 0, 19, 131, 50,
  64, 1, 2, 3, 4, 5, 6, 7, 8, 119, 1]

/-- The same over IPv6. -/
def quicOver6 : Buf := [96, 0, 0, 0, 0, 19, 17, 64, 254, 128, 0, 0, 0, 0, 0, 0, 0, 0, 0, 0, 0, 0, 0, 1,
  254, 128, 0, 0, 0, 0, 0, 0, 0, 0, 0, 0, 0, 0, 0, 2, 1, 187, 17, 81, 0, 19, 154, 48, 64, 1, 2, 3, 4, 5, 6, 7, 8, 119, 1]

/-- A bit of the connection id is changed on the way. -/
example := C133_v4_burst .debug quicOver4 (quicOver4.take 29 ++ [0] ++ quicOver4.drop 30) 1 (by decide)
  (by unfold SliceLen; decide) ⟨by decide, (bitsOf quicOver4).take 239, [true], [false], (bitsOf quicOver4).drop 240,
    by decide +kernel, by decide +kernel, rfl, rfl⟩ (by decide)
  ⟨⟨#v[10, 0, 0, 1]⟩, ⟨#v[10, 0, 0, 2]⟩, 443, 4433, some [⟨.oneRtt, quicOver4.drop 28⟩]⟩ (by decide +kernel)

example := C133_v6_burst .debug quicOver6 (quicOver6.take 49 ++ [0] ++ quicOver6.drop 50) 1 (by decide)
  (by unfold SliceLen; decide) ⟨by decide, (bitsOf quicOver6).take 399, [true], [false], (bitsOf quicOver6).drop 400,
    by decide +kernel, by decide +kernel, rfl, rfl⟩ (by decide +kernel)
  ⟨⟨#v[254, 128, 0, 0, 0, 0, 0, 0, 0, 0, 0, 0, 0, 0, 0, 1]⟩, ⟨#v[254, 128, 0, 0, 0, 0, 0, 0, 0, 0, 0, 0, 0, 0, 0, 2]⟩, 443, 4433,
    some [⟨.oneRtt, quicOver6.drop 48⟩]⟩ (by decide +kernel)

/-- An accepted UDP segment has a header. -/
theorem check_new {α : Type} {t : Transport α} {m : Mode} {seg : Buf} {src dst : α} (h : t.check m seg src dst = .ok true) :
    (t.d.newPacket seg).isSome = true := by
  unfold Transport.check at h
  cases hn : t.d.newPacket seg with
  | none => rw [hn] at h; cases h
  | some _ => rfl

/-- What reading an accepted segment does: it returns, unless `QuicPacket::new` panics on the data. -/
theorem open_outcome {α : Type} (m : Mode) (src dst : α) (seg : Buf) (hlen : seg.length ≤ 65535)
    (hn : (udp.newPacket seg).isSome = true) :
    (∃ r, openSegment m (some (src, dst, seg)) = .ok (some r)) ∨
      (openSegment m (some (src, dst, seg)) = panic ∧ QuicPacket.new m (seg.drop 8) = panic) := by
  have hsl : SliceLen seg.length := by unfold SliceLen; omega
  have hsl' : SliceLen (seg.drop 8).length := by rw [List.length_drop]; unfold SliceLen; omega
  have hacc : udp.accepted = true := by decide
  obtain ⟨v0, hg0⟩ : ∃ v, udp.get m seg 0 = .ok (.num v) :=
    ⟨_, C07_fixed_getter_value udp hacc 0 _ rfl (by decide) rfl m seg hn⟩
  obtain ⟨v1, hg1⟩ : ∃ v, udp.get m seg 1 = .ok (.num v) :=
    ⟨_, C07_fixed_getter_value udp hacc 1 _ rfl (by decide) rfl m seg hn⟩
  have hpay := C09_open_payloads udp 8 (by simp [openPayloads]) m seg hsl
  simp only [openSegment, hg0, hg1, hpay, Val.asNum, ok_bind]
  cases hq : QuicPacket.new m (seg.drop 8) with
  | ok o => exact .inl ⟨_, rfl⟩
  | error e =>
    cases e with
    | panic => exact .inr ⟨rfl, rfl⟩
    | hang => exact (C46_packet_new_terminates m _ hsl' hq).elim

theorem accepted4_length {m : Mode} {ip : Buf} {src dst : Ipv4Addr} {seg : Buf} (hsl : SliceLen ip.length)
    (ha : accept4 m udp4 ip = .ok (some (src, dst, seg))) : seg.length ≤ 65535 := by
  cases hn : ipv4.newPacket ip with
  | none => rw [show accept4 m udp4 ip = .ok none by unfold accept4; rw [hn]] at ha; cases ha
  | some x =>
    have h20 := (C06_new_iff ipv4 ip).1.mp (by rw [hn]; rfl)
    rw [show fixedBits ipv4.fields = 160 by decide] at h20
    obtain ⟨j, tok⟩ := transports4_ok udp4 (by simp [udp4, transports4])
    obtain ⟨src', dst', seg', b, -, -, -, -, -, hlen, hc, ha'⟩ := accept4_value tok (m := m) (ip := ip) (by omega) hsl
    rw [ha] at ha'
    split at ha'
    · cases ha'; exact hlen
    · cases ha'

theorem accepted6_length {m : Mode} {ip : Buf} {src dst : Ipv6Addr} {seg : Buf} (hsl : SliceLen ip.length)
    (ha : accept6 m udp6 ip = .ok (some (src, dst, seg))) : seg.length ≤ 65535 := by
  cases hn : ipv6.newPacket ip with
  | none => rw [show accept6 m udp6 ip = .ok none by unfold accept6; rw [hn]] at ha; cases ha
  | some x =>
    have h40 := (C06_new_iff ipv6 ip).1.mp (by rw [hn]; rfl)
    rw [show fixedBits ipv6.fields = 320 by decide] at h40
    obtain ⟨j, tok⟩ := transports6_ok udp6 (by simp [udp6, transports6])
    obtain ⟨src', dst', seg', b, -, -, -, hlen, hc, ha'⟩ := accept6_value tok (m := m) (ip := ip) (by omega) hsl
    rw [ha] at ha'
    split at ha'
    · cases ha'; exact hlen
    · cases ha'

theorem short_slice {seg : Buf} (h : seg.length ≤ 65535) : SliceLen (seg.drop 8).length := by
  rw [List.length_drop]; unfold SliceLen; omega

theorem short_payload (m : Mode) {seg : Buf} (h : seg.length ≤ 65535) : udp.payload m seg = .ok (seg.drop 8) :=
  C09_open_payloads udp 8 (by simp [openPayloads]) m seg (by unfold SliceLen; omega)

/-- **C133** On any bytes the receiver returns, unless the checksums are right and `QuicPacket::new` panics on the data;
over IPv4. -/
theorem C133_v4_outcome (m : Mode) (ip : Buf) (hsl : SliceLen ip.length) :
    (∃ r, receiveQuic4 m [] ip = .ok r) ∨ (receiveQuic4 m [] ip = panic ∧
      ∃ src dst seg, accept4 m udp4 ip = .ok (some (src, dst, seg)) ∧ QuicPacket.new m (seg.drop 8) = panic) := by
  have hmem : udp4 ∈ transports4 := by simp [udp4, transports4]
  change (∃ r, (accept4 m udp4 ip >>= openSegment m) = .ok r) ∨ ((accept4 m udp4 ip >>= openSegment m) = panic ∧ _)
  cases hn : ipv4.newPacket ip with
  | none =>
    refine .inl ⟨none, ?_⟩
    rw [show accept4 m udp4 ip = .ok none by unfold accept4; rw [hn]]
    rfl
  | some x =>
    have h20 := (C06_new_iff ipv4 ip).1.mp (by rw [hn]; rfl)
    rw [show fixedBits ipv4.fields = 160 by decide] at h20
    obtain ⟨j, tok⟩ := transports4_ok udp4 hmem
    obtain ⟨src, dst, seg, b, -, -, -, -, -, hlen, hc, ha⟩ := accept4_value tok (m := m) (ip := ip) (by omega) hsl
    split at ha
    · rename_i h
      obtain ⟨-, -, rfl⟩ := h
      rw [ha, ok_bind]
      rcases open_outcome m src dst seg hlen (check_new hc) with ⟨r, hr⟩ | ⟨h1, h2⟩
      · exact .inl ⟨_, hr⟩
      · exact .inr ⟨h1, src, dst, seg, rfl, h2⟩
    · rw [ha]; exact .inl ⟨none, rfl⟩

/-- **C133** The same over IPv6. -/
theorem C133_v6_outcome (m : Mode) (ip : Buf) (hsl : SliceLen ip.length) :
    (∃ r, receiveQuic6 m [] ip = .ok r) ∨ (receiveQuic6 m [] ip = panic ∧
      ∃ src dst seg, accept6 m udp6 ip = .ok (some (src, dst, seg)) ∧ QuicPacket.new m (seg.drop 8) = panic) := by
  have hmem : udp6 ∈ transports6 := by simp [udp6, transports6]
  change (∃ r, (accept6 m udp6 ip >>= openSegment m) = .ok r) ∨ ((accept6 m udp6 ip >>= openSegment m) = panic ∧ _)
  cases hn : ipv6.newPacket ip with
  | none =>
    refine .inl ⟨none, ?_⟩
    rw [show accept6 m udp6 ip = .ok none by unfold accept6; rw [hn]]
    rfl
  | some x =>
    have h40 := (C06_new_iff ipv6 ip).1.mp (by rw [hn]; rfl)
    rw [show fixedBits ipv6.fields = 320 by decide] at h40
    obtain ⟨j, tok⟩ := transports6_ok udp6 hmem
    obtain ⟨src, dst, seg, b, -, -, -, hlen, hc, ha⟩ := accept6_value tok (m := m) (ip := ip) (by omega) hsl
    split at ha
    · rename_i h
      obtain ⟨-, rfl⟩ := h
      rw [ha, ok_bind]
      rcases open_outcome m src dst seg hlen (check_new hc) with ⟨r, hr⟩ | ⟨h1, h2⟩
      · exact .inl ⟨_, hr⟩
      · exact .inr ⟨h1, src, dst, seg, rfl, h2⟩
    · rw [ha]; exact .inl ⟨none, rfl⟩

theorem open_not_ok {α : Type} {m : Mode} {src dst : α} {seg : Buf} {r : Option (Received α)}
    (hp : udp.payload m seg = .ok (seg.drop 8)) (hq : QuicPacket.new m (seg.drop 8) = panic) :
    openSegment m (some (src, dst, seg)) ≠ .ok r := by
  intro h
  simp only [openSegment] at h
  obtain ⟨a, -, h⟩ := bind_eq_ok.mp h
  obtain ⟨b, -, h⟩ := bind_eq_ok.mp h
  obtain ⟨c, -, h⟩ := bind_eq_ok.mp h
  obtain ⟨d, -, h⟩ := bind_eq_ok.mp h
  rw [hp, ok_bind, hq] at h
  cases h

theorem panicsOn_iff (m : Mode) (data : Buf) (hsl : SliceLen data.length) :
    QuicPacket.new m data = panic ↔ PanicsOn m data := by
  cases m with
  | debug => exact C43_new_panics_exactly_partial data hsl
  | release => exact (C87_outcome data hsl).2.2.1

/-- **C133** The receiver panics on exactly the accepted datagrams whose data consists of whole packets, maybe none, and
then at least 7 bytes that begin like a packet with a Length field but are none; over IPv4. -/
theorem C133_v4_panics_iff (m : Mode) (ip : Buf) (hsl : SliceLen ip.length) :
    receiveQuic4 m [] ip = panic ↔
      ∃ src dst seg, accept4 m udp4 ip = .ok (some (src, dst, seg)) ∧ PanicsOn m (seg.drop 8) := by
  constructor
  · intro h
    rcases C133_v4_outcome m ip hsl with ⟨r, hr⟩ | ⟨-, src, dst, seg, ha, hq⟩
    · rw [h] at hr; cases hr
    · exact ⟨src, dst, seg, ha, (panicsOn_iff m _ (short_slice (accepted4_length hsl ha))).mp hq⟩
  · rintro ⟨src, dst, seg, ha, hq⟩
    have hs := short_slice (accepted4_length hsl ha)
    rcases C133_v4_outcome m ip hsl with ⟨r, hr⟩ | ⟨h, -⟩
    · have hr' : (accept4 m udp4 ip >>= openSegment m) = .ok r := hr
      rw [ha, ok_bind] at hr'
      exact (open_not_ok (short_payload m (accepted4_length hsl ha)) ((panicsOn_iff m _ hs).mpr hq) hr').elim
    · exact h

/-- **C133** The same over IPv6. -/
theorem C133_v6_panics_iff (m : Mode) (ip : Buf) (hsl : SliceLen ip.length) :
    receiveQuic6 m [] ip = panic ↔
      ∃ src dst seg, accept6 m udp6 ip = .ok (some (src, dst, seg)) ∧ PanicsOn m (seg.drop 8) := by
  constructor
  · intro h
    rcases C133_v6_outcome m ip hsl with ⟨r, hr⟩ | ⟨-, src, dst, seg, ha, hq⟩
    · rw [h] at hr; cases hr
    · exact ⟨src, dst, seg, ha, (panicsOn_iff m _ (short_slice (accepted6_length hsl ha))).mp hq⟩
  · rintro ⟨src, dst, seg, ha, hq⟩
    have hs := short_slice (accepted6_length hsl ha)
    rcases C133_v6_outcome m ip hsl with ⟨r, hr⟩ | ⟨h, -⟩
    · have hr' : (accept6 m udp6 ip >>= openSegment m) = .ok r := hr
      rw [ha, ok_bind] at hr'
      exact (open_not_ok (short_payload m (accepted6_length hsl ha)) ((panicsOn_iff m _ hs).mpr hq) hr').elim
    · exact h

/-- An Initial packet that ends before its token length, over UDP and IPv4 with right checksums. -/
def crash4 : Buf := [69, 0, 0, 35, 0, 7, 64, 0, 64, 17, 38, 193, 10, 0, 0, 1, 10, 0, 0, 2, 1, 187, 17, 81, 0, 15, 23, 193,
  192, 0, 0, 0, 1, 0, 0]

/-- The same over IPv6. -/
def crash6 : Buf := [96, 0, 0, 0, 0, 15, 17, 64, 254, 128, 0, 0, 0, 0, 0, 0, 0, 0, 0, 0, 0, 0, 0, 1,
  254, 128, 0, 0, 0, 0, 0, 0, 0, 0, 0, 0, 0, 0, 0, 2, 1, 187, 17, 81, 0, 15, 46, 191, 192, 0, 0, 0, 1, 0, 0]

/-- **C133** Both outcomes happen: a receiver that only checks the checksums panics on these datagrams, in all builds. -/
theorem C133_crash (m : Mode) : receiveQuic4 m [] crash4 = panic ∧ receiveQuic6 m [] crash6 = panic := by
  cases m <;> decide +kernel

example : SliceLen crash4.length ∧ SliceLen quicOver4.length ∧ (∃ r, receiveQuic4 .release [] quicOver4 = .ok (some r)) ∧
    receiveQuic6 .debug [] (quicOver6.take 30) = .ok none :=
  ⟨by unfold SliceLen; decide, by unfold SliceLen; decide,
    ⟨⟨⟨#v[10, 0, 0, 1]⟩, ⟨#v[10, 0, 0, 2]⟩, 443, 4433, some [⟨.oneRtt, quicOver4.drop 28⟩]⟩, by decide +kernel⟩,
    by decide +kernel⟩

end Verif.Props
