import Verif.Model.Types
import Verif.Model.Names

/-!
# The types of header fields and the constants of these types

Every type implementing `PrimitiveValues` and every `pub const` of `/repo/src` outside `ip.rs` and
`ethernet.rs`, whose constants are in `Verif.Model.Names`.
-/

namespace Verif

/-- A type implementing `PrimitiveValues`: module, name, argument types of `T::new`, and the tuple
type returned by `to_primitive_values`. For the types with one argument, `new(v)` is `T(v)` and
`to_primitive_values` is `(self.0,)`. -/
structure FieldType where
  mod : String
  name : String
  args : List String
  tuple : List String
deriving DecidableEq

/-- The types of `src/`, each a struct around one integer (struct to end of the `impl`), and the
three of `core/src/packet.rs:179-211`. The arguments of `Ipv4Addr::new` and `Ipv6Addr::new` are those
of the standard library, the ones of `MacAddr::new` are in `core/src/macaddr.rs`. -/
def fieldTypes : List FieldType := [
  -- `src/arp.rs:17-31`
  ⟨"arp", "ArpOperation", ["u16"], ["u16"]⟩,
  -- `src/arp.rs:48-62`
  ⟨"arp", "ArpHardwareType", ["u16"], ["u16"]⟩,
  -- `src/ethernet.rs:114-128`
  ⟨"ethernet", "EtherType", ["u16"], ["u16"]⟩,
  -- `src/vlan.rs:8-22`
  ⟨"vlan", "ClassOfService", ["u3"], ["u3"]⟩,
  -- `src/ip.rs:472-486`
  ⟨"ip", "IpNextHeaderProtocol", ["u8"], ["u8"]⟩,
  -- `src/ipv4.rs:115-129`
  ⟨"ipv4", "Ipv4OptionNumber", ["u8"], ["u8"]⟩,
  -- `src/tcp.rs:74-225`
  ⟨"tcp", "TcpOptionNumber", ["u8"], ["u8"]⟩,
  -- `src/icmp.rs:15-29`
  ⟨"icmp", "IcmpType", ["u8"], ["u8"]⟩,
  -- `src/icmp.rs:33-47`
  ⟨"icmp", "IcmpCode", ["u8"], ["u8"]⟩,
  -- `src/icmp.rs:160-174`
  ⟨"icmp::echo_reply", "Identifier", ["u16"], ["u16"]⟩,
  -- `src/icmp.rs:178-192`
  ⟨"icmp::echo_reply", "SequenceNumber", ["u16"], ["u16"]⟩,
  -- `src/icmp.rs:237-251`
  ⟨"icmp::echo_request", "Identifier", ["u16"], ["u16"]⟩,
  -- `src/icmp.rs:255-269`
  ⟨"icmp::echo_request", "SequenceNumber", ["u16"], ["u16"]⟩,
  -- `src/icmpv6.rs:17-31`
  ⟨"icmpv6", "Icmpv6Type", ["u8"], ["u8"]⟩,
  -- `src/icmpv6.rs:35-49`
  ⟨"icmpv6", "Icmpv6Code", ["u8"], ["u8"]⟩,
  -- `src/icmpv6.rs:164-178`
  ⟨"icmpv6::ndp", "NdpOptionType", ["u8"], ["u8"]⟩,
  -- `src/quic.rs:347-361`
  ⟨"quic", "HeaderForm", ["u8"], ["u8"]⟩,
  -- `src/quic.rs:375-389`
  ⟨"quic", "FixedBit", ["u8"], ["u8"]⟩,
  -- `src/quic.rs:413-427`
  ⟨"quic", "LongPacketType", ["u8"], ["u8"]⟩,
  -- `src/quic.rs:443-457`
  ⟨"quic", "Version", ["u32"], ["u32be"]⟩,
  -- `src/quic.rs:879-893`
  ⟨"quic", "FrameType", ["u8"], ["u8"]⟩,
  ⟨"core", "MacAddr", ["u8", "u8", "u8", "u8", "u8", "u8"], ["u8", "u8", "u8", "u8", "u8", "u8"]⟩,
  ⟨"core", "Ipv4Addr", ["u8", "u8", "u8", "u8"], ["u8", "u8", "u8", "u8"]⟩,
  ⟨"core", "Ipv6Addr", ["u16", "u16", "u16", "u16", "u16", "u16", "u16", "u16"],
    ["u16", "u16", "u16", "u16", "u16", "u16", "u16", "u16"]⟩]

/-- A constant: module, name, type, value. -/
structure Const where
  mod : String
  name : String
  ty : String
  value : Nat
deriving DecidableEq

/-- The constants, module by module. -/
def constants : List Const := [
  -- `src/arp.rs:40-43`
  ⟨"arp::ArpOperations", "Request", "ArpOperation", 1⟩,
  ⟨"arp::ArpOperations", "Reply", "ArpOperation", 2⟩,
  -- `src/arp.rs:71-71`
  ⟨"arp::ArpHardwareTypes", "Ethernet", "ArpHardwareType", 1⟩,
  -- `src/vlan.rs:32-53`
  ⟨"vlan::ClassesOfService", "BK", "ClassOfService", 1⟩,
  ⟨"vlan::ClassesOfService", "BE", "ClassOfService", 0⟩,
  ⟨"vlan::ClassesOfService", "EE", "ClassOfService", 2⟩,
  ⟨"vlan::ClassesOfService", "CA", "ClassOfService", 3⟩,
  ⟨"vlan::ClassesOfService", "VI", "ClassOfService", 4⟩,
  ⟨"vlan::ClassesOfService", "VO", "ClassOfService", 5⟩,
  ⟨"vlan::ClassesOfService", "IC", "ClassOfService", 6⟩,
  ⟨"vlan::ClassesOfService", "NC", "ClassOfService", 7⟩,
  -- `src/ipv4.rs:22-24`
  ⟨"ipv4::Ipv4Flags", "DontFragment", "u3", 0b010⟩,
  ⟨"ipv4::Ipv4Flags", "MoreFragments", "u3", 0b001⟩,
  -- `src/ipv4.rs:35-110`
  ⟨"ipv4::Ipv4OptionNumbers", "EOL", "Ipv4OptionNumber", 0⟩,
  ⟨"ipv4::Ipv4OptionNumbers", "NOP", "Ipv4OptionNumber", 1⟩,
  ⟨"ipv4::Ipv4OptionNumbers", "SEC", "Ipv4OptionNumber", 2⟩,
  ⟨"ipv4::Ipv4OptionNumbers", "LSR", "Ipv4OptionNumber", 3⟩,
  ⟨"ipv4::Ipv4OptionNumbers", "TS", "Ipv4OptionNumber", 4⟩,
  ⟨"ipv4::Ipv4OptionNumbers", "ESEC", "Ipv4OptionNumber", 5⟩,
  ⟨"ipv4::Ipv4OptionNumbers", "CIPSO", "Ipv4OptionNumber", 6⟩,
  ⟨"ipv4::Ipv4OptionNumbers", "RR", "Ipv4OptionNumber", 7⟩,
  ⟨"ipv4::Ipv4OptionNumbers", "SID", "Ipv4OptionNumber", 8⟩,
  ⟨"ipv4::Ipv4OptionNumbers", "SSR", "Ipv4OptionNumber", 9⟩,
  ⟨"ipv4::Ipv4OptionNumbers", "ZSU", "Ipv4OptionNumber", 10⟩,
  ⟨"ipv4::Ipv4OptionNumbers", "MTUP", "Ipv4OptionNumber", 11⟩,
  ⟨"ipv4::Ipv4OptionNumbers", "MTUR", "Ipv4OptionNumber", 12⟩,
  ⟨"ipv4::Ipv4OptionNumbers", "FINN", "Ipv4OptionNumber", 13⟩,
  ⟨"ipv4::Ipv4OptionNumbers", "VISA", "Ipv4OptionNumber", 14⟩,
  ⟨"ipv4::Ipv4OptionNumbers", "ENCODE", "Ipv4OptionNumber", 15⟩,
  ⟨"ipv4::Ipv4OptionNumbers", "IMITD", "Ipv4OptionNumber", 16⟩,
  ⟨"ipv4::Ipv4OptionNumbers", "EIP", "Ipv4OptionNumber", 17⟩,
  ⟨"ipv4::Ipv4OptionNumbers", "TR", "Ipv4OptionNumber", 18⟩,
  ⟨"ipv4::Ipv4OptionNumbers", "ADDEXT", "Ipv4OptionNumber", 19⟩,
  ⟨"ipv4::Ipv4OptionNumbers", "RTRALT", "Ipv4OptionNumber", 20⟩,
  ⟨"ipv4::Ipv4OptionNumbers", "SDB", "Ipv4OptionNumber", 21⟩,
  ⟨"ipv4::Ipv4OptionNumbers", "DPS", "Ipv4OptionNumber", 23⟩,
  ⟨"ipv4::Ipv4OptionNumbers", "UMP", "Ipv4OptionNumber", 24⟩,
  ⟨"ipv4::Ipv4OptionNumbers", "QS", "Ipv4OptionNumber", 25⟩,
  ⟨"ipv4::Ipv4OptionNumbers", "EXP", "Ipv4OptionNumber", 30⟩,
  -- `src/tcp.rs:25-50`
  ⟨"tcp::TcpFlags", "NS", "u9be", 0b100000000⟩,
  ⟨"tcp::TcpFlags", "CWR", "u9be", 0b010000000⟩,
  ⟨"tcp::TcpFlags", "ECE", "u9be", 0b001000000⟩,
  ⟨"tcp::TcpFlags", "URG", "u9be", 0b000100000⟩,
  ⟨"tcp::TcpFlags", "ACK", "u9be", 0b000010000⟩,
  ⟨"tcp::TcpFlags", "PSH", "u9be", 0b000001000⟩,
  ⟨"tcp::TcpFlags", "RST", "u9be", 0b000000100⟩,
  ⟨"tcp::TcpFlags", "SYN", "u9be", 0b000000010⟩,
  ⟨"tcp::TcpFlags", "FIN", "u9be", 0b000000001⟩,
  -- `src/tcp.rs:83-101`
  ⟨"tcp::TcpOptionNumbers", "EOL", "TcpOptionNumber", 0⟩,
  ⟨"tcp::TcpOptionNumbers", "NOP", "TcpOptionNumber", 1⟩,
  ⟨"tcp::TcpOptionNumbers", "MSS", "TcpOptionNumber", 2⟩,
  ⟨"tcp::TcpOptionNumbers", "WSCALE", "TcpOptionNumber", 3⟩,
  ⟨"tcp::TcpOptionNumbers", "SACK_PERMITTED", "TcpOptionNumber", 4⟩,
  ⟨"tcp::TcpOptionNumbers", "SACK", "TcpOptionNumber", 5⟩,
  ⟨"tcp::TcpOptionNumbers", "TIMESTAMPS", "TcpOptionNumber", 8⟩,
  -- `src/icmp.rs:109-139`
  ⟨"icmp::IcmpTypes", "EchoReply", "IcmpType", 0⟩,
  ⟨"icmp::IcmpTypes", "DestinationUnreachable", "IcmpType", 3⟩,
  ⟨"icmp::IcmpTypes", "SourceQuench", "IcmpType", 4⟩,
  ⟨"icmp::IcmpTypes", "RedirectMessage", "IcmpType", 5⟩,
  ⟨"icmp::IcmpTypes", "EchoRequest", "IcmpType", 8⟩,
  ⟨"icmp::IcmpTypes", "RouterAdvertisement", "IcmpType", 9⟩,
  ⟨"icmp::IcmpTypes", "RouterSolicitation", "IcmpType", 10⟩,
  ⟨"icmp::IcmpTypes", "TimeExceeded", "IcmpType", 11⟩,
  ⟨"icmp::IcmpTypes", "ParameterProblem", "IcmpType", 12⟩,
  ⟨"icmp::IcmpTypes", "Timestamp", "IcmpType", 13⟩,
  ⟨"icmp::IcmpTypes", "TimestampReply", "IcmpType", 14⟩,
  ⟨"icmp::IcmpTypes", "InformationRequest", "IcmpType", 15⟩,
  ⟨"icmp::IcmpTypes", "InformationReply", "IcmpType", 16⟩,
  ⟨"icmp::IcmpTypes", "AddressMaskRequest", "IcmpType", 17⟩,
  ⟨"icmp::IcmpTypes", "AddressMaskReply", "IcmpType", 18⟩,
  ⟨"icmp::IcmpTypes", "Traceroute", "IcmpType", 30⟩,
  -- `src/icmp.rs:201-201`
  ⟨"icmp::echo_reply::IcmpCodes", "NoCode", "IcmpCode", 0⟩,
  -- `src/icmp.rs:278-278`
  ⟨"icmp::echo_request::IcmpCodes", "NoCode", "IcmpCode", 0⟩,
  -- `src/icmp.rs:318-348`
  ⟨"icmp::destination_unreachable::IcmpCodes", "DestinationNetworkUnreachable", "IcmpCode", 0⟩,
  ⟨"icmp::destination_unreachable::IcmpCodes", "DestinationHostUnreachable", "IcmpCode", 1⟩,
  ⟨"icmp::destination_unreachable::IcmpCodes", "DestinationProtocolUnreachable", "IcmpCode", 2⟩,
  ⟨"icmp::destination_unreachable::IcmpCodes", "DestinationPortUnreachable", "IcmpCode", 3⟩,
  ⟨"icmp::destination_unreachable::IcmpCodes", "FragmentationRequiredAndDFFlagSet", "IcmpCode", 4⟩,
  ⟨"icmp::destination_unreachable::IcmpCodes", "SourceRouteFailed", "IcmpCode", 5⟩,
  ⟨"icmp::destination_unreachable::IcmpCodes", "DestinationNetworkUnknown", "IcmpCode", 6⟩,
  ⟨"icmp::destination_unreachable::IcmpCodes", "DestinationHostUnknown", "IcmpCode", 7⟩,
  ⟨"icmp::destination_unreachable::IcmpCodes", "SourceHostIsolated", "IcmpCode", 8⟩,
  ⟨"icmp::destination_unreachable::IcmpCodes", "NetworkAdministrativelyProhibited", "IcmpCode", 9⟩,
  ⟨"icmp::destination_unreachable::IcmpCodes", "HostAdministrativelyProhibited", "IcmpCode", 10⟩,
  ⟨"icmp::destination_unreachable::IcmpCodes", "NetworkUnreachableForTOS", "IcmpCode", 11⟩,
  ⟨"icmp::destination_unreachable::IcmpCodes", "HostUnreachableForTOS", "IcmpCode", 12⟩,
  ⟨"icmp::destination_unreachable::IcmpCodes", "CommunicationAdministrativelyProhibited", "IcmpCode", 13⟩,
  ⟨"icmp::destination_unreachable::IcmpCodes", "HostPrecedenceViolation", "IcmpCode", 14⟩,
  ⟨"icmp::destination_unreachable::IcmpCodes", "PrecedenceCutoffInEffect", "IcmpCode", 15⟩,
  -- `src/icmp.rs:387-389`
  ⟨"icmp::time_exceeded::IcmpCodes", "TimeToLiveExceededInTransit", "IcmpCode", 0⟩,
  ⟨"icmp::time_exceeded::IcmpCodes", "FragmentReasemblyTimeExceeded", "IcmpCode", 1⟩,
  -- `src/icmpv6.rs:121-142`
  ⟨"icmpv6::Icmpv6Types", "DestinationUnreachable", "Icmpv6Type", 1⟩,
  ⟨"icmpv6::Icmpv6Types", "PacketTooBig", "Icmpv6Type", 2⟩,
  ⟨"icmpv6::Icmpv6Types", "TimeExceeded", "Icmpv6Type", 3⟩,
  ⟨"icmpv6::Icmpv6Types", "ParameterProblem", "Icmpv6Type", 4⟩,
  ⟨"icmpv6::Icmpv6Types", "EchoRequest", "Icmpv6Type", 128⟩,
  ⟨"icmpv6::Icmpv6Types", "EchoReply", "Icmpv6Type", 129⟩,
  ⟨"icmpv6::Icmpv6Types", "RouterSolicit", "Icmpv6Type", 133⟩,
  ⟨"icmpv6::Icmpv6Types", "RouterAdvert", "Icmpv6Type", 134⟩,
  ⟨"icmpv6::Icmpv6Types", "NeighborSolicit", "Icmpv6Type", 135⟩,
  ⟨"icmpv6::Icmpv6Types", "NeighborAdvert", "Icmpv6Type", 136⟩,
  ⟨"icmpv6::Icmpv6Types", "Redirect", "Icmpv6Type", 137⟩,
  -- `src/icmpv6.rs:159-159`
  ⟨"icmpv6::ndp::Icmpv6Codes", "NoCode", "Icmpv6Code", 0⟩,
  -- `src/icmpv6.rs:197-263`
  ⟨"icmpv6::ndp::NdpOptionTypes", "SourceLLAddr", "NdpOptionType", 1⟩,
  ⟨"icmpv6::ndp::NdpOptionTypes", "TargetLLAddr", "NdpOptionType", 2⟩,
  ⟨"icmpv6::ndp::NdpOptionTypes", "PrefixInformation", "NdpOptionType", 3⟩,
  ⟨"icmpv6::ndp::NdpOptionTypes", "RedirectedHeader", "NdpOptionType", 4⟩,
  ⟨"icmpv6::ndp::NdpOptionTypes", "MTU", "NdpOptionType", 5⟩,
  -- `src/icmpv6.rs:320-323`
  ⟨"icmpv6::ndp::RouterAdvertFlags", "ManagedAddressConf", "u8", 0b10000000⟩,
  ⟨"icmpv6::ndp::RouterAdvertFlags", "OtherConf", "u8", 0b01000000⟩,
  -- `src/icmpv6.rs:403-409`
  ⟨"icmpv6::ndp::NeighborAdvertFlags", "Router", "u8", 0b10000000⟩,
  ⟨"icmpv6::ndp::NeighborAdvertFlags", "Solicited", "u8", 0b01000000⟩,
  ⟨"icmpv6::ndp::NeighborAdvertFlags", "Override", "u8", 0b00100000⟩,
  -- `src/quic.rs:342-343`
  ⟨"quic::HeaderForms", "Short", "HeaderForm", 0⟩,
  ⟨"quic::HeaderForms", "Long", "HeaderForm", 1⟩,
  -- `src/quic.rs:406-409`
  ⟨"quic::LongPacketTypes", "Initial", "LongPacketType", 0⟩,
  ⟨"quic::LongPacketTypes", "ZeroRtt", "LongPacketType", 1⟩,
  ⟨"quic::LongPacketTypes", "Handshake", "LongPacketType", 2⟩,
  ⟨"quic::LongPacketTypes", "Retry", "LongPacketType", 3⟩,
  -- `src/quic.rs:845-875`
  ⟨"quic::FrameTypes", "Padding", "FrameType", 0x00⟩,
  ⟨"quic::FrameTypes", "Ping", "FrameType", 0x01⟩,
  ⟨"quic::FrameTypes", "Ack0", "FrameType", 0x02⟩,
  ⟨"quic::FrameTypes", "Ack1", "FrameType", 0x03⟩,
  ⟨"quic::FrameTypes", "ResetStream", "FrameType", 0x04⟩,
  ⟨"quic::FrameTypes", "StopSending", "FrameType", 0x05⟩,
  ⟨"quic::FrameTypes", "Crypto", "FrameType", 0x06⟩,
  ⟨"quic::FrameTypes", "NewToken", "FrameType", 0x07⟩,
  ⟨"quic::FrameTypes", "Stream0", "FrameType", 0x08⟩,
  ⟨"quic::FrameTypes", "Stream1", "FrameType", 0x09⟩,
  ⟨"quic::FrameTypes", "Stream2", "FrameType", 0x0a⟩,
  ⟨"quic::FrameTypes", "Stream3", "FrameType", 0x0b⟩,
  ⟨"quic::FrameTypes", "Stream4", "FrameType", 0x0c⟩,
  ⟨"quic::FrameTypes", "Stream5", "FrameType", 0x0d⟩,
  ⟨"quic::FrameTypes", "Stream6", "FrameType", 0x0e⟩,
  ⟨"quic::FrameTypes", "Stream7", "FrameType", 0x0f⟩,
  ⟨"quic::FrameTypes", "MaxData", "FrameType", 0x10⟩,
  ⟨"quic::FrameTypes", "MaxStreamData", "FrameType", 0x11⟩,
  ⟨"quic::FrameTypes", "MaxStreams0", "FrameType", 0x12⟩,
  ⟨"quic::FrameTypes", "MaxStreams1", "FrameType", 0x13⟩,
  ⟨"quic::FrameTypes", "DataBlocked", "FrameType", 0x14⟩,
  ⟨"quic::FrameTypes", "StreamDataBlocked", "FrameType", 0x15⟩,
  ⟨"quic::FrameTypes", "StreamsBlocked0", "FrameType", 0x16⟩,
  ⟨"quic::FrameTypes", "StreamsBlocked1", "FrameType", 0x17⟩,
  ⟨"quic::FrameTypes", "NewConnectionId", "FrameType", 0x18⟩,
  ⟨"quic::FrameTypes", "RetireConnectionId", "FrameType", 0x19⟩,
  ⟨"quic::FrameTypes", "PathChallenge", "FrameType", 0x1a⟩,
  ⟨"quic::FrameTypes", "PathResponse", "FrameType", 0x1b⟩,
  ⟨"quic::FrameTypes", "ConnectionClose0", "FrameType", 0x1c⟩,
  ⟨"quic::FrameTypes", "ConnectionClose1", "FrameType", 0x1d⟩,
  ⟨"quic::FrameTypes", "HandshakeDone", "FrameType", 0x1e⟩]

/-- All constants, with those of `src/ip.rs` and `src/ethernet.rs`. -/
def allConstants : List Const :=
  constants ++ ipConsts.map (fun c => ⟨"ip::IpNextHeaderProtocols", c.1, "IpNextHeaderProtocol", c.2⟩) ++
    etherConsts.map (fun c => ⟨"ethernet::EtherTypes", c.1, "EtherType", c.2⟩)

end Verif
