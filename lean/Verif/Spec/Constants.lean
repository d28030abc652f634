import Verif.Model.Constants
import Verif.Model.Protocols

/-! # Specification: assigned numbers and flag bits -/

namespace Verif.Spec

/-- A flag of a header: declaration, number of the flags field, the module and name of the constant,
and the bit of the header (counted from 0 at the start of the packet) that it stands for. -/
structure Flag where
  decl : Decl
  no : Nat
  mod : String
  name : String
  bit : Nat

/-- The flags in the header diagrams of RFC 793 with RFC 3168 and RFC 3540 (TCP), RFC 791 (IPv4) and
RFC 4861, sections 4.2 and 4.4 (router and neighbour advertisement). -/
def flags : List Flag := [
  ⟨tcp, 6, "tcp::TcpFlags", "NS", 103⟩, ⟨tcp, 6, "tcp::TcpFlags", "CWR", 104⟩,
  ⟨tcp, 6, "tcp::TcpFlags", "ECE", 105⟩, ⟨tcp, 6, "tcp::TcpFlags", "URG", 106⟩,
  ⟨tcp, 6, "tcp::TcpFlags", "ACK", 107⟩, ⟨tcp, 6, "tcp::TcpFlags", "PSH", 108⟩,
  ⟨tcp, 6, "tcp::TcpFlags", "RST", 109⟩, ⟨tcp, 6, "tcp::TcpFlags", "SYN", 110⟩,
  ⟨tcp, 6, "tcp::TcpFlags", "FIN", 111⟩,
  ⟨ipv4, 6, "ipv4::Ipv4Flags", "DontFragment", 49⟩, ⟨ipv4, 6, "ipv4::Ipv4Flags", "MoreFragments", 50⟩,
  ⟨routerAdvert, 4, "icmpv6::ndp::RouterAdvertFlags", "ManagedAddressConf", 40⟩,
  ⟨routerAdvert, 4, "icmpv6::ndp::RouterAdvertFlags", "OtherConf", 41⟩,
  ⟨neighborAdvert, 3, "icmpv6::ndp::NeighborAdvertFlags", "Router", 32⟩,
  ⟨neighborAdvert, 3, "icmpv6::ndp::NeighborAdvertFlags", "Solicited", 33⟩,
  ⟨neighborAdvert, 3, "icmpv6::ndp::NeighborAdvertFlags", "Override", 34⟩]

/-- Assigned numbers, under the names the crate gives them: module of the constants, and names with
numbers. From IEEE 802.1Q (priority code points), the IANA registries of ARP, IP options, TCP options,
ICMP and ICMPv6 parameters, and RFC 9000, section 17 and table 3. -/
def registries : List (String × List (String × Nat)) := [
  ("arp::ArpOperations", [("Request", 1), ("Reply", 2)]),
  ("arp::ArpHardwareTypes", [("Ethernet", 1)]),
  ("vlan::ClassesOfService", [("BE", 0), ("BK", 1), ("EE", 2), ("CA", 3), ("VI", 4), ("VO", 5),
    ("IC", 6), ("NC", 7)]),
  ("ipv4::Ipv4OptionNumbers", [("EOL", 0), ("NOP", 1), ("SEC", 2), ("LSR", 3), ("TS", 4), ("ESEC", 5),
    ("CIPSO", 6), ("RR", 7), ("SID", 8), ("SSR", 9), ("ZSU", 10), ("MTUP", 11), ("MTUR", 12),
    ("FINN", 13), ("VISA", 14), ("ENCODE", 15), ("IMITD", 16), ("EIP", 17), ("TR", 18), ("ADDEXT", 19),
    ("RTRALT", 20), ("SDB", 21), ("DPS", 23), ("UMP", 24), ("QS", 25), ("EXP", 30)]),
  ("tcp::TcpOptionNumbers", [("EOL", 0), ("NOP", 1), ("MSS", 2), ("WSCALE", 3), ("SACK_PERMITTED", 4),
    ("SACK", 5), ("TIMESTAMPS", 8)]),
  ("icmp::IcmpTypes", [("EchoReply", 0), ("DestinationUnreachable", 3), ("SourceQuench", 4),
    ("RedirectMessage", 5), ("EchoRequest", 8), ("RouterAdvertisement", 9), ("RouterSolicitation", 10),
    ("TimeExceeded", 11), ("ParameterProblem", 12), ("Timestamp", 13), ("TimestampReply", 14),
    ("InformationRequest", 15), ("InformationReply", 16), ("AddressMaskRequest", 17),
    ("AddressMaskReply", 18), ("Traceroute", 30)]),
  ("icmp::echo_reply::IcmpCodes", [("NoCode", 0)]),
  ("icmp::echo_request::IcmpCodes", [("NoCode", 0)]),
  ("icmp::destination_unreachable::IcmpCodes", [("DestinationNetworkUnreachable", 0),
    ("DestinationHostUnreachable", 1), ("DestinationProtocolUnreachable", 2),
    ("DestinationPortUnreachable", 3), ("FragmentationRequiredAndDFFlagSet", 4),
    ("SourceRouteFailed", 5), ("DestinationNetworkUnknown", 6), ("DestinationHostUnknown", 7),
    ("SourceHostIsolated", 8), ("NetworkAdministrativelyProhibited", 9),
    ("HostAdministrativelyProhibited", 10), ("NetworkUnreachableForTOS", 11),
    ("HostUnreachableForTOS", 12), ("CommunicationAdministrativelyProhibited", 13),
    ("HostPrecedenceViolation", 14), ("PrecedenceCutoffInEffect", 15)]),
  ("icmp::time_exceeded::IcmpCodes", [("TimeToLiveExceededInTransit", 0),
    ("FragmentReasemblyTimeExceeded", 1)]),
  ("icmpv6::Icmpv6Types", [("DestinationUnreachable", 1), ("PacketTooBig", 2), ("TimeExceeded", 3),
    ("ParameterProblem", 4), ("EchoRequest", 128), ("EchoReply", 129), ("RouterSolicit", 133),
    ("RouterAdvert", 134), ("NeighborSolicit", 135), ("NeighborAdvert", 136), ("Redirect", 137)]),
  ("icmpv6::ndp::Icmpv6Codes", [("NoCode", 0)]),
  ("icmpv6::ndp::NdpOptionTypes", [("SourceLLAddr", 1), ("TargetLLAddr", 2), ("PrefixInformation", 3),
    ("RedirectedHeader", 4), ("MTU", 5)]),
  ("quic::HeaderForms", [("Short", 0), ("Long", 1)]),
  ("quic::LongPacketTypes", [("Initial", 0), ("ZeroRtt", 1), ("Handshake", 2), ("Retry", 3)]),
  ("quic::FrameTypes", [("Padding", 0), ("Ping", 1), ("Ack0", 2), ("Ack1", 3), ("ResetStream", 4),
    ("StopSending", 5), ("Crypto", 6), ("NewToken", 7), ("Stream0", 8), ("Stream1", 9), ("Stream2", 10),
    ("Stream3", 11), ("Stream4", 12), ("Stream5", 13), ("Stream6", 14), ("Stream7", 15),
    ("MaxData", 16), ("MaxStreamData", 17), ("MaxStreams0", 18), ("MaxStreams1", 19),
    ("DataBlocked", 20), ("StreamDataBlocked", 21), ("StreamsBlocked0", 22), ("StreamsBlocked1", 23),
    ("NewConnectionId", 24), ("RetireConnectionId", 25), ("PathChallenge", 26), ("PathResponse", 27),
    ("ConnectionClose0", 28), ("ConnectionClose1", 29), ("HandshakeDone", 30)])]

/-- The width of the Rust integer that a type name of the crate stands for. -/
def rustWidth (name : List Char) : Option Nat :=
  ((builtinTypes ++ typeAliases).find? fun t => t.1.toList == name).map (·.2)

/-- The modules that hold constants, with the type of their constants. -/
def constModules : List (String × String) := [
  ("arp::ArpOperations", "ArpOperation"),
  ("arp::ArpHardwareTypes", "ArpHardwareType"),
  ("vlan::ClassesOfService", "ClassOfService"),
  ("ipv4::Ipv4Flags", "u3"),
  ("ipv4::Ipv4OptionNumbers", "Ipv4OptionNumber"),
  ("tcp::TcpFlags", "u9be"),
  ("tcp::TcpOptionNumbers", "TcpOptionNumber"),
  ("icmp::IcmpTypes", "IcmpType"),
  ("icmp::echo_reply::IcmpCodes", "IcmpCode"),
  ("icmp::echo_request::IcmpCodes", "IcmpCode"),
  ("icmp::destination_unreachable::IcmpCodes", "IcmpCode"),
  ("icmp::time_exceeded::IcmpCodes", "IcmpCode"),
  ("icmpv6::Icmpv6Types", "Icmpv6Type"),
  ("icmpv6::ndp::Icmpv6Codes", "Icmpv6Code"),
  ("icmpv6::ndp::NdpOptionTypes", "NdpOptionType"),
  ("icmpv6::ndp::RouterAdvertFlags", "u8"),
  ("icmpv6::ndp::NeighborAdvertFlags", "u8"),
  ("quic::HeaderForms", "HeaderForm"),
  ("quic::LongPacketTypes", "LongPacketType"),
  ("quic::FrameTypes", "FrameType"),
  ("ip::IpNextHeaderProtocols", "IpNextHeaderProtocol"),
  ("ethernet::EtherTypes", "EtherType")]

end Verif.Spec
