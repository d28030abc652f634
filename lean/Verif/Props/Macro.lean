import Verif.Proofs.Macro
import Verif.Model.Sources
import Verif.Model.Quic

/-! # C65, C66: the derive macro as a whole, and the crate's declarations as written -/

namespace Verif
open Spec

/-! ## C65 -/

/-- C65: the macro turns a declaration into code exactly when it is legal (C60) and every field fits
where it stands: integers on a byte boundary or with their leftover bits inside the first byte,
vectors of whole-byte integers of at most 64 bits or of named packets, `#[construct_with]` listing
integers only. The generated fields have the names, types, payload mark and lengths written. -/
theorem C65_macro_accepts (lenOk : String → Bool) (fields : List RawField) (ss : List Shape) :
    deriveMacro lenOk fields = .ok ss ↔
      (∀ i f, fields[i]? = some f → LegalField lenOk (i + 1 = fields.length) f) ∧
      (fields.flatMap (·.attrs)).count (.path (some "payload")) ≤ 1 ∧ Laid 0 fields ss :=
  deriveMacro_iff lenOk fields ss

example : deriveMacro (fun _ => true) [Source.field "a" [] "u4", Source.field "b" [] "u12be",
      Source.field "v" [Source.payload] "Vec < u16be >"] =
    .ok [⟨"a", .prim ⟨4, .big⟩, false, false⟩, ⟨"b", .prim ⟨12, .big⟩, false, false⟩,
      ⟨"v", .vecPrim ⟨16, .big⟩, true, false⟩] ∧
    deriveMacro (fun _ => true) [Source.field "v" [] "Vec < u12be >"] = .error .rejected := by
  decide +kernel

/-- C65: the declarations the other theorems quantify over (`d.accepted`) are exactly those that the
macro makes from some text, except that none of the names there are raw identifiers. -/
theorem C65_accepted_iff (d : Decl) :
    (d.accepted = true ∧ ∀ f ∈ d.fields, ∀ rest, f.name.toList ≠ 'r' :: '#' :: rest) ↔
      ∃ fields, deriveMacro (fun _ => true) fields = .ok (shapes d) :=
  accepted_iff_text d

example : Decl.accepted ⟨[⟨"a", .prim ⟨4, .big⟩, false, none⟩]⟩ = true ∧ "a".toList = ['a'] := by
  decide +kernel

/-- Every `#[derive(Packet)]` struct of `/repo/src`, as written, with its model. -/
def crateSources : List (String × List RawField × Decl) := [
  ("ethernet::Ethernet", Source.srcEthernet, ethernet),
  ("vlan::Vlan", Source.srcVlan, vlan),
  ("arp::Arp", Source.srcArp, arp),
  ("ipv4::Ipv4", Source.srcIpv4, ipv4),
  ("ipv4::Ipv4Option", Source.srcIpv4Option, ipv4Option),
  ("ipv6::Ipv6", Source.srcIpv6, ipv6),
  ("ipv6::Extension", Source.srcExtension, extension),
  ("ipv6::Routing", Source.srcRouting, routing),
  ("ipv6::Fragment", Source.srcFragment, fragment),
  ("udp::Udp", Source.srcUdp, udp),
  ("tcp::Tcp", Source.srcTcp, tcp),
  ("tcp::TcpOption", Source.srcTcpOption, tcpOption),
  ("icmp::Icmp", Source.srcIcmpIcmp, icmp),
  ("icmp::EchoReply", Source.srcIcmpEchoReply, echoReply),
  ("icmp::EchoRequest", Source.srcIcmpEchoRequest, echoRequest),
  ("icmp::DestinationUnreachable", Source.srcIcmpDestinationUnreachable, destinationUnreachable),
  ("icmp::TimeExceeded", Source.srcIcmpTimeExceeded, timeExceeded),
  ("icmpv6::Icmpv6", Source.srcIcmpv6Icmpv6, icmpv6),
  ("icmpv6::NdpOption", Source.srcIcmpv6NdpOption, ndpOption),
  ("icmpv6::RouterSolicit", Source.srcIcmpv6RouterSolicit, routerSolicit),
  ("icmpv6::RouterAdvert", Source.srcIcmpv6RouterAdvert, routerAdvert),
  ("icmpv6::NeighborSolicit", Source.srcIcmpv6NeighborSolicit, neighborSolicit),
  ("icmpv6::NeighborAdvert", Source.srcIcmpv6NeighborAdvert, neighborAdvert),
  ("icmpv6::Redirect", Source.srcIcmpv6Redirect, redirect),
  ("gre::Gre", Source.srcGre, gre),
  ("gre::U16BE", Source.srcU16BE, u16BE),
  ("gre::U32BE", Source.srcU32BE, u32BE),
  ("quic::VersionNegotiation", Source.srcQuicVersionNegotiation, versionNegotiation),
  ("quic::Initial", Source.srcQuicInitial, initial),
  ("quic::ZeroRtt", Source.srcQuicZeroRtt, zeroRtt),
  ("quic::Handshake", Source.srcQuicHandshake, handshake),
  ("quic::Retry", Source.srcQuicRetry, retry),
  ("quic::OneRtt", Source.srcQuicOneRtt, oneRtt),
  ("quic::Padding", Source.srcQuicPadding, frameBare),
  ("quic::Ping", Source.srcQuicPing, frameBare),
  ("quic::Ack", Source.srcQuicAck, frameAck),
  ("quic::ResetStream", Source.srcQuicResetStream, frameResetStream),
  ("quic::StopSending", Source.srcQuicStopSending, frameStopSending),
  ("quic::Crypto", Source.srcQuicCrypto, frameCrypto),
  ("quic::NewToken", Source.srcQuicNewToken, frameNewToken),
  ("quic::Stream", Source.srcQuicStream, frameStream),
  ("quic::MaxData", Source.srcQuicMaxData, (frameOneVarint "max_data")),
  ("quic::MaxStreamData", Source.srcQuicMaxStreamData, frameTwoVarints),
  ("quic::MaxStreams", Source.srcQuicMaxStreams, (frameOneVarint "max_streams")),
  ("quic::DataBlocked", Source.srcQuicDataBlocked, (frameOneVarint "max_data")),
  ("quic::StreamDataBlocked", Source.srcQuicStreamDataBlocked, frameTwoVarints),
  ("quic::StreamsBlocked", Source.srcQuicStreamsBlocked, (frameOneVarint "max_streams")),
  ("quic::NewConnectionId", Source.srcQuicNewConnectionId, frameNewConnectionId),
  ("quic::RetireConnectionId", Source.srcQuicRetireConnectionId, (frameOneVarint "sequence_number")),
  ("quic::PathChallenge", Source.srcQuicPathChallenge, framePath),
  ("quic::PathResponse", Source.srcQuicPathResponse, framePath),
  ("quic::ConnectionClose", Source.srcQuicConnectionClose, frameConnectionClose),
  ("quic::HandshakeDone", Source.srcQuicHandshakeDone, frameBare)]

/-- C65: the macro turns every `#[derive(Packet)]` struct of the crate, as written, into the fields of
its modelled declaration. -/
theorem C65_crate (e : String × List RawField × Decl) (h : e ∈ crateSources) :
    deriveMacro (lengthTextOk Source.tokens) e.2.1 = .ok (shapes e.2.2) := by
  have key : ∀ e ∈ crateSources,
      deriveMacro (lengthTextOk Source.tokens) e.2.1 = .ok (shapes e.2.2) := by
    decide +kernel
  exact key e h

example : ("tcp::Tcp", Source.srcTcp, tcp) ∈ crateSources := by
  simp [crateSources]

/-- C65: all declarations of the crate are therefore accepted. -/
theorem C65_crate_accepted (e : String × List RawField × Decl) (h : e ∈ crateSources) :
    e.2.2.accepted = true :=
  accepted_of_text (C65_crate e h)

example : crateSources.length = 53 := by decide +kernel

/-! ## C66 -/

/-- Full statement of C66: a declaration the macro cannot handle is reported as a compile error, the
macro itself never panics. -/
def C66_statement : Prop :=
  ∀ (lenOk : String → Bool) (isPub : Bool) (item : DeriveItem),
    derivePacket lenOk isPub item ≠ .error .panicked

/-- C66 is false: a 4-bit field starting at bit 5 makes the macro panic. -/
theorem C66_false : ¬ C66_statement := by
  intro h
  refine h (fun _ => true) true (.struct [Source.field "a" [] "u5", Source.field "b" [] "u4"]) ?_
  decide +kernel

/-- C66: on an item that is not public the macro reports an error, whatever the item. -/
theorem C66_private (lenOk : String → Bool) (item : DeriveItem) :
    derivePacket lenOk false item = .error .rejected := by
  simp [derivePacket]

/-- C66: further panics: a public enum, a `Vec` whose elements are named by a path, a 72-bit
integer, a field named `r#type`. -/
theorem C66_more_panics :
    derivePacket (fun _ => true) true .enumOrUnion = .error .panicked ∧
    derivePacket (fun _ => true) true (.struct [Source.field "v" [] "Vec < a :: B >"]) =
      .error .panicked ∧
    derivePacket (fun _ => true) true (.struct [Source.field "v" [] "u72be"]) = .error .panicked ∧
    derivePacket (fun _ => true) true (.struct [Source.field "r#type" [] "u8"]) = .error .panicked := by
  decide +kernel

/-- C66, exact panics for public structs that pass the parser (C60): some field, the earlier ones
being fine, is named by a raw identifier, does not fit where it stands, is a vector of integers of 0 or more than 64 bits, or a
vector of something that is not an identifier. Missing: the panics themselves. -/
theorem C66_panics_partial (lenOk : String → Bool) (fields : List RawField)
    (hlegal : ∀ i f, fields[i]? = some f → LegalField lenOk (i + 1 = fields.length) f)
    (hpay : (fields.flatMap (·.attrs)).count (.path (some "payload")) ≤ 1) :
    derivePacket lenOk true (.struct fields) = .error .panicked ↔
      ∃ pre f post ss ty, fields = pre ++ f :: post ∧ Laid 0 pre ss ∧
        TypeText true (tyToString f.ty) ty ∧
        (RawNamed f ∨
          KindPanics (ss.map fun s => kindBits s.kind).sum (constructTexts f.attrs) ty) := by
  obtain ⟨pfs, hp⟩ := (show (∃ pfs, parsePacket lenOk fields = .ok pfs) ↔ _ from
    fieldLoop_iff lenOk fields false).mpr ⟨hlegal, by simpa using hpay⟩
  obtain ⟨h1, h2⟩ := parsed_of_parsePacket hp
  have := genFields_panics h1 h2 0
  simp only [Nat.zero_add] at this
  simp only [derivePacket, deriveMacro, hp, if_true]
  exact this

example : ∃ fields pfs, parsePacket (fun _ => true) fields = .ok pfs ∧
    derivePacket (fun _ => true) true (.struct fields) = .error .panicked :=
  ⟨[Source.field "a" [] "u5", Source.field "b" [] "u4"], _, rfl, by decide +kernel⟩

end Verif
