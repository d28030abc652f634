import Verif.Proofs.ModesEq
import Verif.Props.Macro
import Verif.Props.Checksum
import Verif.Spec.Modes

/-! # C73, C74: builds with and without overflow checks -/

namespace Verif.Props
open Verif Spec

/-! ## C73 -/

/-- Whatever a method of the packet type returns in a debug build, it returns in a release build too. -/
def ReleaseKeeps (d : Decl) (buf : Buf) : Prop :=
  (∀ k, Below (d.get .debug buf k) (d.get .release buf k)) ∧
  (∀ k, Below (d.getRaw .debug buf k) (d.getRaw .release buf k)) ∧
  (∀ k v, Below (d.set .debug buf k v) (d.set .release buf k v)) ∧
  (∀ v, Below (d.populate .debug buf v) (d.populate .release buf v)) ∧
  Below (d.fromPacket .debug buf) (d.fromPacket .release buf) ∧
  Below (d.packetSize .debug buf) (d.packetSize .release buf) ∧
  Below (d.payload .debug buf) (d.payload .release buf) ∧
  (∀ new, Below (d.payloadMutCopy .debug buf new) (d.payloadMutCopy .release buf new)) ∧
  Below (d.debug .debug buf) (d.debug .release buf)

/-- **C73** for the methods of any declaration whose length expressions, and inner packet types, have
the property themselves. -/
theorem C73_generated {d : Decl} (hd : DeclBelow d) (buf : Buf) : ReleaseKeeps d buf :=
  ⟨get_below hd buf, getRaw_below hd buf, set_below hd buf, populate_below hd buf, fromPacket_below hd buf,
    packetSize_below hd buf, payload_below hd buf, payloadMut_below hd buf, debug_below hd buf⟩

/-- **C73** for every packet type of the crate. -/
theorem C73_crate (e : String × List RawField × Decl) (h : e ∈ crateSources) (buf : Buf) :
    ReleaseKeeps e.2.2 buf := by
  refine C73_generated ?_ buf
  unfold crateSources at h
  revert e
  refine List.forall_mem_cons.mpr ⟨ethernet_below, ?_⟩
  refine List.forall_mem_cons.mpr ⟨vlan_below, ?_⟩
  refine List.forall_mem_cons.mpr ⟨arp_below, ?_⟩
  refine List.forall_mem_cons.mpr ⟨ipv4_below, ?_⟩
  refine List.forall_mem_cons.mpr ⟨ipv4Option_below, ?_⟩
  refine List.forall_mem_cons.mpr ⟨ipv6_below, ?_⟩
  refine List.forall_mem_cons.mpr ⟨extension_below, ?_⟩
  refine List.forall_mem_cons.mpr ⟨routing_below, ?_⟩
  refine List.forall_mem_cons.mpr ⟨fragment_below, ?_⟩
  refine List.forall_mem_cons.mpr ⟨udp_below, ?_⟩
  refine List.forall_mem_cons.mpr ⟨tcp_below, ?_⟩
  refine List.forall_mem_cons.mpr ⟨tcpOption_below, ?_⟩
  refine List.forall_mem_cons.mpr ⟨icmp_below, ?_⟩
  refine List.forall_mem_cons.mpr ⟨echoReply_below, ?_⟩
  refine List.forall_mem_cons.mpr ⟨echoRequest_below, ?_⟩
  refine List.forall_mem_cons.mpr ⟨destinationUnreachable_below, ?_⟩
  refine List.forall_mem_cons.mpr ⟨timeExceeded_below, ?_⟩
  refine List.forall_mem_cons.mpr ⟨icmpv6_below, ?_⟩
  refine List.forall_mem_cons.mpr ⟨ndpOption_below, ?_⟩
  refine List.forall_mem_cons.mpr ⟨routerSolicit_below, ?_⟩
  refine List.forall_mem_cons.mpr ⟨routerAdvert_below, ?_⟩
  refine List.forall_mem_cons.mpr ⟨neighborSolicit_below, ?_⟩
  refine List.forall_mem_cons.mpr ⟨neighborAdvert_below, ?_⟩
  refine List.forall_mem_cons.mpr ⟨redirect_below, ?_⟩
  refine List.forall_mem_cons.mpr ⟨gre_below, ?_⟩
  refine List.forall_mem_cons.mpr ⟨u16BE_below, ?_⟩
  refine List.forall_mem_cons.mpr ⟨u32BE_below, ?_⟩
  refine List.forall_mem_cons.mpr ⟨versionNegotiation_below, ?_⟩
  refine List.forall_mem_cons.mpr ⟨initial_below, ?_⟩
  refine List.forall_mem_cons.mpr ⟨zeroRtt_below, ?_⟩
  refine List.forall_mem_cons.mpr ⟨handshake_below, ?_⟩
  refine List.forall_mem_cons.mpr ⟨retry_below, ?_⟩
  refine List.forall_mem_cons.mpr ⟨oneRtt_below, ?_⟩
  refine List.forall_mem_cons.mpr ⟨frameBare_below, ?_⟩
  refine List.forall_mem_cons.mpr ⟨frameBare_below, ?_⟩
  refine List.forall_mem_cons.mpr ⟨frameAck_below, ?_⟩
  refine List.forall_mem_cons.mpr ⟨frameResetStream_below, ?_⟩
  refine List.forall_mem_cons.mpr ⟨frameStopSending_below, ?_⟩
  refine List.forall_mem_cons.mpr ⟨frameCrypto_below, ?_⟩
  refine List.forall_mem_cons.mpr ⟨frameNewToken_below, ?_⟩
  refine List.forall_mem_cons.mpr ⟨frameStream_below, ?_⟩
  refine List.forall_mem_cons.mpr ⟨(frameOneVarint_below _), ?_⟩
  refine List.forall_mem_cons.mpr ⟨frameTwoVarints_below, ?_⟩
  refine List.forall_mem_cons.mpr ⟨(frameOneVarint_below _), ?_⟩
  refine List.forall_mem_cons.mpr ⟨(frameOneVarint_below _), ?_⟩
  refine List.forall_mem_cons.mpr ⟨frameTwoVarints_below, ?_⟩
  refine List.forall_mem_cons.mpr ⟨(frameOneVarint_below _), ?_⟩
  refine List.forall_mem_cons.mpr ⟨frameNewConnectionId_below, ?_⟩
  refine List.forall_mem_cons.mpr ⟨(frameOneVarint_below _), ?_⟩
  refine List.forall_mem_cons.mpr ⟨framePath_below, ?_⟩
  refine List.forall_mem_cons.mpr ⟨framePath_below, ?_⟩
  refine List.forall_mem_cons.mpr ⟨frameConnectionClose_below, ?_⟩
  refine List.forall_mem_cons.mpr ⟨frameBare_below, ?_⟩
  exact fun _ h => nomatch h

example : ("icmpv6::NdpOption", Source.srcIcmpv6NdpOption, ndpOption) ∈ crateSources ∧
    ndpOption.get .debug [1, 2, 7, 7] 2 = .ok (.nums [7, 7]) := by
  constructor
  · simp [crateSources]
  · decide +kernel

/-- **C73** for the checksum functions. -/
theorem C73_checksums (packet extra : Buf) (skip : Nat) (s4 d4 : Ipv4Addr) (s6 d6 : Ipv6Addr)
    (protocol : UInt8) :
    Below (checksum .debug packet skip) (checksum .release packet skip) ∧
    Below (ipv4Checksum .debug packet skip extra s4 d4 protocol)
      (ipv4Checksum .release packet skip extra s4 d4 protocol) ∧
    Below (ipv6Checksum .debug packet skip extra s6 d6 protocol)
      (ipv6Checksum .release packet skip extra s6 d6 protocol) ∧
    Below (ipv4HeaderChecksum .debug packet) (ipv4HeaderChecksum .release packet) ∧
    Below (icmpChecksum .debug packet) (icmpChecksum .release packet) ∧
    Below (icmpv6Checksum .debug packet s6 d6) (icmpv6Checksum .release packet s6 d6) ∧
    Below (tcpIpv4ChecksumAdv .debug packet extra s4 d4) (tcpIpv4ChecksumAdv .release packet extra s4 d4) ∧
    Below (tcpIpv6ChecksumAdv .debug packet extra s6 d6) (tcpIpv6ChecksumAdv .release packet extra s6 d6) ∧
    Below (tcpIpv4Checksum .debug packet s4 d4) (tcpIpv4Checksum .release packet s4 d4) ∧
    Below (tcpIpv6Checksum .debug packet s6 d6) (tcpIpv6Checksum .release packet s6 d6) ∧
    Below (udpIpv4ChecksumAdv .debug packet extra s4 d4) (udpIpv4ChecksumAdv .release packet extra s4 d4) ∧
    Below (udpIpv6ChecksumAdv .debug packet extra s6 d6) (udpIpv6ChecksumAdv .release packet extra s6 d6) ∧
    Below (udpIpv4Checksum .debug packet s4 d4) (udpIpv4Checksum .release packet s4 d4) ∧
    Below (udpIpv6Checksum .debug packet s6 d6) (udpIpv6Checksum .release packet s6 d6) :=
  ⟨checksum_below _ _, ipv4Checksum_below _ _ _ _ _ _, ipv6Checksum_below _ _ _ _ _ _,
    ipv4HeaderChecksum_below _, checksum_below _ _, ipv6Checksum_below _ _ _ _ _ _,
    ipv4Checksum_below _ _ _ _ _ _, ipv6Checksum_below _ _ _ _ _ _, ipv4Checksum_below _ _ _ _ _ _,
    ipv6Checksum_below _ _ _ _ _ _, ipv4Checksum_below _ _ _ _ _ _, ipv6Checksum_below _ _ _ _ _ _,
    ipv4Checksum_below _ _ _ _ _ _, ipv6Checksum_below _ _ _ _ _ _⟩

example : checksum .debug [1, 2, 3, 4] 1 = .ok 0xfefd := by decide +kernel

/-- **C73** for the IPv6 fragment helpers and `TcpOption::selective_ack`. -/
theorem C73_helpers (buf : Buf) (offset : Nat) (isLast : Bool) (acks : List Nat) :
    Below (getFragmentOffset .debug buf) (getFragmentOffset .release buf) ∧
    Below (isLastFragment .debug buf) (isLastFragment .release buf) ∧
    Below (setFragmentOffset .debug buf offset) (setFragmentOffset .release buf offset) ∧
    Below (setLastFragment .debug buf isLast) (setLastFragment .release buf isLast) ∧
    Below (tcpSelectiveAck .debug acks) (tcpSelectiveAck .release acks) :=
  ⟨(fragmentRaw_below buf).bind fun _ => .refl _, (fragmentRaw_below buf).bind fun _ => .refl _,
    (fragmentRaw_below buf).bind fun _ => set_below fragment_below _ _ _,
    (fragmentRaw_below buf).bind fun _ => set_below fragment_below _ _ _, tcpSelectiveAck_below acks⟩

example : getFragmentOffset .debug [0, 0, 0x12, 0x35, 0, 0, 0, 0] = .ok 0x1234 := by decide +kernel

/-- **C73** for QUIC: cutting a datagram into packets, a packet's accessors, and cutting a payload into
frames. -/
theorem C73_quic (packet : Buf) (p : QuicPacket) (f : Frame) :
    Below (QuicPacket.new .debug packet) (QuicPacket.new .release packet) ∧
    Below (p.version .debug) (p.version .release) ∧ Below (p.token .debug) (p.token .release) ∧
    Below (p.packetNumber .debug) (p.packetNumber .release) ∧ Below (p.destId .debug) (p.destId .release) ∧
    Below (p.srcId .debug) (p.srcId .release) ∧ Below (p.frames .debug) (p.frames .release) ∧
    Below (p.remaining .debug) (p.remaining .release) ∧
    Below (Frame.new .debug packet) (Frame.new .release packet) ∧ Below (f.ty .debug) (f.ty .release) ∧
    Below (f.payload .debug) (f.payload .release) ∧ Below (f.remaining .debug) (f.remaining .release) :=
  ⟨quicLoop_below _ _, quicVersion_below p, quicToken_below p, quicPacketNumber_below p, quicDestId_below p,
    quicSrcId_below p, quicFrames_below p, quicRemaining_below p, frameLoop_below _ _ _,
    get_below (frameKind_below _) _ _, payload_below (frameKind_below _) _, frameRemaining_below f⟩

example : ∃ fs, Frame.new .debug [1, 0, 0, 0x1e] = .ok (some fs) ∧ fs.length = 3 := by
  exact ⟨_, by rfl, by decide +kernel⟩

/-- C73: release builds return values where debug builds panic. The data of an `NdpOption` whose length
is 32: `32 * 8` overflows `u8`. -/
theorem C73_release_returns_more :
    ndpOption.get .debug [1, 32] 2 = panic ∧ ndpOption.get .release [1, 32] 2 = .ok (.nums []) := by
  decide +kernel

/-! ## C74 -/

/-- What it means for the methods of a packet type to do the same in both builds. -/
def SameInBothBuilds (d : Decl) (buf : Buf) : Prop :=
  (∀ k, d.get .debug buf k = d.get .release buf k) ∧
  (∀ k, d.getRaw .debug buf k = d.getRaw .release buf k) ∧
  (∀ k v, d.set .debug buf k v = d.set .release buf k v) ∧
  (∀ v, d.populate .debug buf v = d.populate .release buf v) ∧
  d.fromPacket .debug buf = d.fromPacket .release buf ∧
  d.packetSize .debug buf = d.packetSize .release buf ∧
  d.payload .debug buf = d.payload .release buf ∧
  (∀ new, d.payloadMutCopy .debug buf new = d.payloadMutCopy .release buf new) ∧
  d.debug .debug buf = d.debug .release buf

/-- Full statement of **C74**: the methods of every packet type of the crate behave the same in debug
and release builds, panics included. -/
def C74_statement : Prop := ∀ e ∈ crateSources, ∀ buf : Buf, SliceLen buf.length → SameInBothBuilds e.2.2 buf

/-- C74 is false: `NdpOption` with length 32. -/
theorem C74_false : ¬ C74_statement := by
  intro h
  have h1 := (h ("icmpv6::NdpOption", Source.srcIcmpv6NdpOption, ndpOption) (by simp [crateSources])
    [1, 32] (by decide)).1 2
  rw [C73_release_returns_more.1, C73_release_returns_more.2] at h1
  cases h1

/-- The packet types whose lengths involve neither `u8` multiplication nor subtraction: all but
neighbour discovery and QUIC. -/
def plainDecls : List Decl := [ethernet, vlan, arp, ipv4, ipv4Option, ipv6, extension, routing, fragment,
  udp, tcp, tcpOption, icmp, echoReply, echoRequest, destinationUnreachable, timeExceeded, icmpv6, gre,
  u16BE, u32BE]

/-- **C74** for all packet types but those of neighbour discovery and QUIC. Missing: these
(`C74_false`, `C43_modes_differ`). -/
theorem C74_plain_partial (d : Decl) (hd : d ∈ plainDecls) (buf : Buf) (hs : SliceLen buf.length) :
    SameInBothBuilds d buf := by
  have h : Steady d := by
    unfold plainDecls at hd
    revert d
    refine List.forall_mem_cons.mpr ⟨ethernet_steady, ?_⟩
    refine List.forall_mem_cons.mpr ⟨vlan_steady, ?_⟩
    refine List.forall_mem_cons.mpr ⟨arp_steady, ?_⟩
    refine List.forall_mem_cons.mpr ⟨ipv4_steady, ?_⟩
    refine List.forall_mem_cons.mpr ⟨ipv4Option_steady, ?_⟩
    refine List.forall_mem_cons.mpr ⟨ipv6_steady, ?_⟩
    refine List.forall_mem_cons.mpr ⟨extension_steady, ?_⟩
    refine List.forall_mem_cons.mpr ⟨routing_steady, ?_⟩
    refine List.forall_mem_cons.mpr ⟨fragment_steady, ?_⟩
    refine List.forall_mem_cons.mpr ⟨udp_steady, ?_⟩
    refine List.forall_mem_cons.mpr ⟨tcp_steady, ?_⟩
    refine List.forall_mem_cons.mpr ⟨tcpOption_steady, ?_⟩
    refine List.forall_mem_cons.mpr ⟨icmp_steady, ?_⟩
    refine List.forall_mem_cons.mpr ⟨echoReply_steady, ?_⟩
    refine List.forall_mem_cons.mpr ⟨echoRequest_steady, ?_⟩
    refine List.forall_mem_cons.mpr ⟨destinationUnreachable_steady, ?_⟩
    refine List.forall_mem_cons.mpr ⟨timeExceeded_steady, ?_⟩
    refine List.forall_mem_cons.mpr ⟨icmpv6_steady, ?_⟩
    refine List.forall_mem_cons.mpr ⟨gre_steady, ?_⟩
    refine List.forall_mem_cons.mpr ⟨u16BE_steady, ?_⟩
    refine List.forall_mem_cons.mpr ⟨u32BE_steady, ?_⟩
    exact fun _ h => nomatch h
  exact ⟨get_same h hs, getRaw_same h hs, set_same h hs, populate_same h hs, fromPacket_same h hs,
    packetSize_same h hs, payload_same h hs, payloadMut_same h hs, debug_same h hs⟩

example : ipv4 ∈ plainDecls ∧ ipv4.payload .debug (0x45 :: List.replicate 19 0) = .ok [] := by
  constructor
  · simp [plainDecls]
  · decide +kernel

/-- C74, the checksum of at most 131074 bytes is the same in both builds. Missing: longer slices, where
debug builds panic (`C28_exact`). -/
theorem C74_checksum_partial (data : Buf) (skip : Nat) (h : data.length ≤ 131074) :
    checksum .debug data skip = checksum .release data skip := by
  obtain ⟨c, hc⟩ := C28_no_overflow_partial .debug data skip h
  rw [hc, checksum_below data skip c hc]

example : checksum .debug [0xff, 0xff, 0xff] 5 = .ok 255 := by decide +kernel

end Verif.Props
