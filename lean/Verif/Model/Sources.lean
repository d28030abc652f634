import Verif.Model.Macro
import Verif.Model.LengthExpr

/-!
# The packet declarations as written in `/repo/src`

Every `#[derive(Packet)]` struct, field by field: name, attributes, type. Types are printed as `quote!`
prints them (`Vec < u8 >`). Visibility keywords and comments are dropped.
-/

namespace Verif.Source

/-- A named field. -/
def field (name : String) (attrs : List Meta) (ty : String) : RawField := ⟨some name, attrs, ty.toList⟩

/-- `#[construct_with(..)]`. -/
def constructWith (args : List String) : Meta :=
  .list (some "construct_with") (args.map fun a => some a.toList)

/-- `#[length = ".."]`. -/
def length (text : String) : Meta := .nameValue (some "length") (some text)

/-- `#[payload]`. -/
def payload : Meta := .path (some "payload")

/-- `Ethernet`, `src/ethernet.rs:15-25`. -/
def srcEthernet : List RawField := [
  field "destination" [constructWith ["u8", "u8", "u8", "u8", "u8", "u8"]] "MacAddr",
  field "source" [constructWith ["u8", "u8", "u8", "u8", "u8", "u8"]] "MacAddr",
  field "ethertype" [constructWith ["u16"]] "EtherType",
  field "payload" [payload] "Vec < u8 >"]

/-- `Vlan`, `src/vlan.rs:57-67`. -/
def srcVlan : List RawField := [
  field "priority_code_point" [constructWith ["u3"]] "ClassOfService",
  field "drop_eligible_indicator" [] "u1",
  field "vlan_identifier" [] "u12be",
  field "ethertype" [constructWith ["u16be"]] "EtherType",
  field "payload" [payload] "Vec < u8 >"]

/-- `Arp`, `src/arp.rs:75-101`. -/
def srcArp : List RawField := [
  field "hardware_type" [constructWith ["u16"]] "ArpHardwareType",
  field "protocol_type" [constructWith ["u16"]] "EtherType",
  field "hw_addr_len" [] "u8",
  field "proto_addr_len" [] "u8",
  field "operation" [constructWith ["u16"]] "ArpOperation",
  field "sender_hw_addr" [constructWith ["u8", "u8", "u8", "u8", "u8", "u8"]] "MacAddr",
  field "sender_proto_addr" [constructWith ["u8", "u8", "u8", "u8"]] "Ipv4Addr",
  field "target_hw_addr" [constructWith ["u8", "u8", "u8", "u8", "u8", "u8"]] "MacAddr",
  field "target_proto_addr" [constructWith ["u8", "u8", "u8", "u8"]] "Ipv4Addr",
  field "payload" [payload, length "0"] "Vec < u8 >"]

/-- `Ipv4`, `src/ipv4.rs:132-155`. -/
def srcIpv4 : List RawField := [
  field "version" [] "u4",
  field "header_length" [] "u4",
  field "dscp" [] "u6",
  field "ecn" [] "u2",
  field "total_length" [] "u16be",
  field "identification" [] "u16be",
  field "flags" [] "u3",
  field "fragment_offset" [] "u13be",
  field "ttl" [] "u8",
  field "next_level_protocol" [constructWith ["u8"]] "IpNextHeaderProtocol",
  field "checksum" [] "u16be",
  field "source" [constructWith ["u8", "u8", "u8", "u8"]] "Ipv4Addr",
  field "destination" [constructWith ["u8", "u8", "u8", "u8"]] "Ipv4Addr",
  field "options" [length "ipv4_options_length(header_length)"] "Vec < Ipv4Option >",
  field "payload" [length "ipv4_payload_length(total_length, header_length)", payload] "Vec < u8 >"]

/-- `Ipv4Option`, `src/ipv4.rs:241-254`. -/
def srcIpv4Option : List RawField := [
  field "copied" [] "u1",
  field "class" [] "u2",
  field "number" [constructWith ["u5"]] "Ipv4OptionNumber",
  field "length" [length "ipv4_option_length(number)"] "Vec < u8 >",
  field "data" [length "ipv4_option_payload_length(&length)", payload] "Vec < u8 >"]

/-- `Ipv6`, `src/ipv6.rs:16-32`. -/
def srcIpv6 : List RawField := [
  field "version" [] "u4",
  field "traffic_class" [] "u8",
  field "flow_label" [] "u20be",
  field "payload_length" [] "u16be",
  field "next_header" [constructWith ["u8"]] "IpNextHeaderProtocol",
  field "hop_limit" [] "u8",
  field "source" [constructWith ["u16", "u16", "u16", "u16", "u16", "u16", "u16", "u16"]] "Ipv6Addr",
  field "destination" [constructWith ["u16", "u16", "u16", "u16", "u16", "u16", "u16", "u16"]] "Ipv6Addr",
  field "payload" [length "payload_length", payload] "Vec < u8 >"]

/-- `Extension`, `src/ipv6.rs:41-49`. -/
def srcExtension : List RawField := [
  field "next_header" [constructWith ["u8"]] "IpNextHeaderProtocol",
  field "hdr_ext_len" [] "u8",
  field "options" [length "ipv6_extension_length(hdr_ext_len)", payload] "Vec < u8 >"]

/-- `Routing`, `src/ipv6.rs:63-73`. -/
def srcRouting : List RawField := [
  field "next_header" [constructWith ["u8"]] "IpNextHeaderProtocol",
  field "hdr_ext_len" [] "u8",
  field "routing_type" [] "u8",
  field "segments_left" [] "u8",
  field "data" [length "routing_extension_length(hdr_ext_len)", payload] "Vec < u8 >"]

/-- `Fragment`, `src/ipv6.rs:80-90`. -/
def srcFragment : List RawField := [
  field "next_header" [constructWith ["u8"]] "IpNextHeaderProtocol",
  field "reserved" [] "u8",
  field "fragment_offset_with_flags" [] "u16be",
  field "id" [] "u32be",
  field "payload" [length "0", payload] "Vec < u8 >"]

/-- `Udp`, `src/udp.rs:16-24`. -/
def srcUdp : List RawField := [
  field "source" [] "u16be",
  field "destination" [] "u16be",
  field "length" [] "u16be",
  field "checksum" [] "u16be",
  field "payload" [payload] "Vec < u8 >"]

/-- `Tcp`, `src/tcp.rs:54-70`. -/
def srcTcp : List RawField := [
  field "source" [] "u16be",
  field "destination" [] "u16be",
  field "sequence" [] "u32be",
  field "acknowledgement" [] "u32be",
  field "data_offset" [] "u4",
  field "reserved" [] "u3",
  field "flags" [] "u9be",
  field "window" [] "u16be",
  field "checksum" [] "u16be",
  field "urgent_ptr" [] "u16be",
  field "options" [length "tcp_options_length(data_offset)"] "Vec < TcpOption >",
  field "payload" [payload] "Vec < u8 >"]

/-- `TcpOption`, `src/tcp.rs:105-116`. -/
def srcTcpOption : List RawField := [
  field "number" [constructWith ["u8"]] "TcpOptionNumber",
  field "length" [length "tcp_option_length(number)"] "Vec < u8 >",
  field "data" [length "tcp_option_payload_length(&length)", payload] "Vec < u8 >"]

/-- `Icmp`, `src/icmp.rs:50-62`. -/
def srcIcmpIcmp : List RawField := [
  field "icmp_type" [constructWith ["u8"]] "IcmpType",
  field "icmp_code" [constructWith ["u8"]] "IcmpCode",
  field "checksum" [] "u16be",
  field "payload" [payload] "Vec < u8 >"]

/-- `EchoReply`, `src/icmp.rs:205-216`. -/
def srcIcmpEchoReply : List RawField := [
  field "icmp_type" [constructWith ["u8"]] "IcmpType",
  field "icmp_code" [constructWith ["u8"]] "IcmpCode",
  field "checksum" [] "u16be",
  field "identifier" [] "u16be",
  field "sequence_number" [] "u16be",
  field "payload" [payload] "Vec < u8 >"]

/-- `EchoRequest`, `src/icmp.rs:282-293`. -/
def srcIcmpEchoRequest : List RawField := [
  field "icmp_type" [constructWith ["u8"]] "IcmpType",
  field "icmp_code" [constructWith ["u8"]] "IcmpCode",
  field "checksum" [] "u16be",
  field "identifier" [] "u16be",
  field "sequence_number" [] "u16be",
  field "payload" [payload] "Vec < u8 >"]

/-- `DestinationUnreachable`, `src/icmp.rs:352-362`. -/
def srcIcmpDestinationUnreachable : List RawField := [
  field "icmp_type" [constructWith ["u8"]] "IcmpType",
  field "icmp_code" [constructWith ["u8"]] "IcmpCode",
  field "checksum" [] "u16be",
  field "unused" [] "u32be",
  field "payload" [payload] "Vec < u8 >"]

/-- `TimeExceeded`, `src/icmp.rs:393-403`. -/
def srcIcmpTimeExceeded : List RawField := [
  field "icmp_type" [constructWith ["u8"]] "IcmpType",
  field "icmp_code" [constructWith ["u8"]] "IcmpCode",
  field "checksum" [] "u16be",
  field "unused" [] "u32be",
  field "payload" [payload] "Vec < u8 >"]

/-- `Icmpv6`, `src/icmpv6.rs:63-72`. -/
def srcIcmpv6Icmpv6 : List RawField := [
  field "icmpv6_type" [constructWith ["u8"]] "Icmpv6Type",
  field "icmpv6_code" [constructWith ["u8"]] "Icmpv6Code",
  field "checksum" [] "u16be",
  field "payload" [payload] "Vec < u8 >"]

/-- `NdpOption`, `src/icmpv6.rs:277-286`. -/
def srcIcmpv6NdpOption : List RawField := [
  field "option_type" [constructWith ["u8"]] "NdpOptionType",
  field "length" [constructWith ["u8"]] "u8",
  field "data" [length "(length * 8).saturating_sub(2)", payload] "Vec < u8 >"]

/-- `RouterSolicit`, `src/icmpv6.rs:300-312`. -/
def srcIcmpv6RouterSolicit : List RawField := [
  field "icmpv6_type" [constructWith ["u8"]] "Icmpv6Type",
  field "icmpv6_code" [constructWith ["u8"]] "Icmpv6Code",
  field "checksum" [] "u16be",
  field "reserved" [] "u32be",
  field "payload" [payload, length "0"] "Vec < u8 >",
  field "options" [] "Vec < NdpOption >"]

/-- `RouterAdvert`, `src/icmpv6.rs:343-359`. -/
def srcIcmpv6RouterAdvert : List RawField := [
  field "icmpv6_type" [constructWith ["u8"]] "Icmpv6Type",
  field "icmpv6_code" [constructWith ["u8"]] "Icmpv6Code",
  field "checksum" [] "u16be",
  field "hop_limit" [] "u8",
  field "flags" [] "u8",
  field "lifetime" [] "u16be",
  field "reachable_time" [] "u32be",
  field "retrans_time" [] "u32be",
  field "payload" [payload, length "0"] "Vec < u8 >",
  field "options" [] "Vec < NdpOption >"]

/-- `NeighborSolicit`, `src/icmpv6.rs:382-396`. -/
def srcIcmpv6NeighborSolicit : List RawField := [
  field "icmpv6_type" [constructWith ["u8"]] "Icmpv6Type",
  field "icmpv6_code" [constructWith ["u8"]] "Icmpv6Code",
  field "checksum" [] "u16be",
  field "reserved" [] "u32be",
  field "target_addr" [constructWith ["u16", "u16", "u16", "u16", "u16", "u16", "u16", "u16"]] "Ipv6Addr",
  field "payload" [payload, length "0"] "Vec < u8 >",
  field "options" [] "Vec < NdpOption >"]

/-- `NeighborAdvert`, `src/icmpv6.rs:433-448`. -/
def srcIcmpv6NeighborAdvert : List RawField := [
  field "icmpv6_type" [constructWith ["u8"]] "Icmpv6Type",
  field "icmpv6_code" [constructWith ["u8"]] "Icmpv6Code",
  field "checksum" [] "u16be",
  field "flags" [] "u8",
  field "reserved" [] "u24be",
  field "target_addr" [constructWith ["u16", "u16", "u16", "u16", "u16", "u16", "u16", "u16"]] "Ipv6Addr",
  field "payload" [payload, length "0"] "Vec < u8 >",
  field "options" [] "Vec < NdpOption >"]

/-- `Redirect`, `src/icmpv6.rs:479-495`. -/
def srcIcmpv6Redirect : List RawField := [
  field "icmpv6_type" [constructWith ["u8"]] "Icmpv6Type",
  field "icmpv6_code" [constructWith ["u8"]] "Icmpv6Code",
  field "checksum" [] "u16be",
  field "reserved" [] "u32be",
  field "target_addr" [constructWith ["u16", "u16", "u16", "u16", "u16", "u16", "u16", "u16"]] "Ipv6Addr",
  field "dest_addr" [constructWith ["u16", "u16", "u16", "u16", "u16", "u16", "u16", "u16"]] "Ipv6Addr",
  field "payload" [payload, length "0"] "Vec < u8 >",
  field "options" [] "Vec < NdpOption >"]

/-- `Gre`, `src/gre.rs:37-60`. -/
def srcGre : List RawField := [
  field "checksum_present" [] "u1",
  field "routing_present" [] "u1",
  field "key_present" [] "u1",
  field "sequence_present" [] "u1",
  field "strict_source_route" [] "u1",
  field "recursion_control" [] "u3",
  field "zero_flags" [] "u5",
  field "version" [] "u3",
  field "protocol_type" [] "u16be",
  field "checksum" [length "(checksum_present | routing_present) * 2"] "Vec < U16BE >",
  field "offset" [length "(checksum_present | routing_present) * 2"] "Vec < U16BE >",
  field "key" [length "key_present * 4"] "Vec < U32BE >",
  field "sequence" [length "sequence_present * 4"] "Vec < U32BE >",
  field "routing" [length "if routing_present == 0 { 0 } else { unimplemented!() }"] "Vec < u8 >",
  field "payload" [payload] "Vec < u8 >"]

/-- `U16BE`, `src/gre.rs:63-69`. -/
def srcU16BE : List RawField := [
  field "number" [] "u16be",
  field "unused" [length "0", payload] "Vec < u8 >"]

/-- `U32BE`, `src/gre.rs:72-78`. -/
def srcU32BE : List RawField := [
  field "number" [] "u32be",
  field "unused" [length "0", payload] "Vec < u8 >"]

/-- `VersionNegotiation`, `src/quic.rs:201-214`. -/
def srcQuicVersionNegotiation : List RawField := [
  field "header_form" [constructWith ["u1"]] "HeaderForm",
  field "unused" [] "u7",
  field "version" [] "u32be",
  field "dest_id_len" [] "u8",
  field "dest_id" [length "dest_id_len"] "Vec < u8 >",
  field "src_id_len" [] "u8",
  field "src_id" [length "src_id_len"] "Vec < u8 >",
  field "supported_versions" [] "Vec < u8 >"]

/-- `Initial`, `src/quic.rs:216-245`. -/
def srcQuicInitial : List RawField := [
  field "header_form" [constructWith ["u1"]] "HeaderForm",
  field "fixed_bit" [constructWith ["u1"]] "FixedBit",
  field "long_packet_type" [constructWith ["u2"]] "LongPacketType",
  field "reserved" [] "u2",
  field "packet_number_len" [] "u2",
  field "version" [constructWith ["u32be"]] "Version",
  field "dest_id_len" [] "u8",
  field "dest_id" [length "dest_id_len"] "Vec < u8 >",
  field "src_id_len" [] "u8",
  field "src_id" [length "src_id_len"] "Vec < u8 >",
  field "token_length" [length "varint_length(...)"] "Vec < u8 >",
  field "token" [length "varint(&token_length)"] "Vec < u8 >",
  field "length" [length "varint_length(...)"] "Vec < u8 >",
  field "packet_number" [length "packet_number_len + 1"] "Vec < u8 >",
  field "frames" [length "varint(&length) - packet_number.len()"] "Vec < u8 >",
  field "remaining" [] "Vec < u8 >"]

/-- `ZeroRtt`, `src/quic.rs:247-272`. -/
def srcQuicZeroRtt : List RawField := [
  field "header_form" [constructWith ["u1"]] "HeaderForm",
  field "fixed_bit" [constructWith ["u1"]] "FixedBit",
  field "long_packet_type" [constructWith ["u2"]] "LongPacketType",
  field "reserved" [] "u2",
  field "packet_number_len" [] "u2",
  field "version" [constructWith ["u32be"]] "Version",
  field "dest_id_len" [] "u8",
  field "dest_id" [length "dest_id_len"] "Vec < u8 >",
  field "src_id_len" [] "u8",
  field "src_id" [length "src_id_len"] "Vec < u8 >",
  field "length" [length "varint_length(...)"] "Vec < u8 >",
  field "packet_number" [length "packet_number_len + 1"] "Vec < u8 >",
  field "frames" [length "varint(&length) - packet_number.len()"] "Vec < u8 >",
  field "remaining" [] "Vec < u8 >"]

/-- `Handshake`, `src/quic.rs:274-299`. -/
def srcQuicHandshake : List RawField := [
  field "header_form" [constructWith ["u1"]] "HeaderForm",
  field "fixed_bit" [constructWith ["u1"]] "FixedBit",
  field "long_packet_type" [constructWith ["u2"]] "LongPacketType",
  field "reserved" [] "u2",
  field "packet_number_len" [] "u2",
  field "version" [constructWith ["u32be"]] "Version",
  field "dest_id_len" [] "u8",
  field "dest_id" [length "dest_id_len"] "Vec < u8 >",
  field "src_id_len" [] "u8",
  field "src_id" [length "src_id_len"] "Vec < u8 >",
  field "length" [length "varint_length(...)"] "Vec < u8 >",
  field "packet_number" [length "packet_number_len + 1"] "Vec < u8 >",
  field "frames" [length "varint(&length) - packet_number.len()"] "Vec < u8 >",
  field "remaining" [] "Vec < u8 >"]

/-- `Retry`, `src/quic.rs:301-319`. -/
def srcQuicRetry : List RawField := [
  field "header_form" [constructWith ["u1"]] "HeaderForm",
  field "fixed_bit" [constructWith ["u1"]] "FixedBit",
  field "long_packet_type" [constructWith ["u2"]] "LongPacketType",
  field "unused" [] "u4",
  field "version" [constructWith ["u32be"]] "Version",
  field "dest_id_len" [] "u8",
  field "dest_id" [length "dest_id_len"] "Vec < u8 >",
  field "src_id_len" [] "u8",
  field "src_id" [length "src_id_len"] "Vec < u8 >",
  field "retry_token" [] "Vec < u8 >"]

/-- `OneRtt`, `src/quic.rs:321-335`. -/
def srcQuicOneRtt : List RawField := [
  field "header_form" [] "u1",
  field "fixed_bit" [] "u1",
  field "spin_bit" [] "u1",
  field "reserved_bits" [] "u2",
  field "key_phase" [] "u1",
  field "packet_number_len" [] "u2",
  field "dest_id" [length "8"] "Vec < u8 >",
  field "packet_number" [length "packet_number_len + 1"] "Vec < u8 >",
  field "payload" [payload] "Vec < u8 >"]

/-- `Padding`, `src/quic.rs:620-625`. -/
def srcQuicPadding : List RawField := [
  field "ty" [constructWith ["u8"]] "FrameType",
  field "remaining" [] "Vec < u8 >"]

/-- `Ping`, `src/quic.rs:627-632`. -/
def srcQuicPing : List RawField := [
  field "ty" [constructWith ["u8"]] "FrameType",
  field "remaining" [] "Vec < u8 >"]

/-- `Ack`, `src/quic.rs:634-651`. -/
def srcQuicAck : List RawField := [
  field "ty" [constructWith ["u8"]] "FrameType",
  field "largest_acknowledged" [length "varint_length(...)"] "Vec < u8 >",
  field "ack_delay" [length "varint_length(...)"] "Vec < u8 >",
  field "ack_range_count" [length "varint_length(...)"] "Vec < u8 >",
  field "first_ack_range" [length "varint_length(...)"] "Vec < u8 >",
  field "ack_range" [length "n_varints(varint(&ack_range_count), ...)"] "Vec < u8 >",
  field "ecn_counts" [length "n_varints(if ty.0 == 0x03 { 3 } else { 0 }, ...)"] "Vec < u8 >",
  field "remaining" [] "Vec < u8 >"]

/-- `ResetStream`, `src/quic.rs:653-664`. -/
def srcQuicResetStream : List RawField := [
  field "ty" [constructWith ["u8"]] "FrameType",
  field "stream_id" [length "varint_length(...)"] "Vec < u8 >",
  field "application_protocol_error_code" [length "varint_length(...)"] "Vec < u8 >",
  field "final_size" [length "varint_length(...)"] "Vec < u8 >",
  field "remaining" [] "Vec < u8 >"]

/-- `StopSending`, `src/quic.rs:666-675`. -/
def srcQuicStopSending : List RawField := [
  field "ty" [constructWith ["u8"]] "FrameType",
  field "stream_id" [length "varint_length(...)"] "Vec < u8 >",
  field "application_protocol_error_code" [length "varint_length(...)"] "Vec < u8 >",
  field "remaining" [] "Vec < u8 >"]

/-- `Crypto`, `src/quic.rs:677-688`. -/
def srcQuicCrypto : List RawField := [
  field "ty" [constructWith ["u8"]] "FrameType",
  field "offset" [length "varint_length(...)"] "Vec < u8 >",
  field "length" [length "varint_length(...)"] "Vec < u8 >",
  field "crypto_payload" [length "varint(&length)"] "Vec < u8 >",
  field "remaining" [] "Vec < u8 >"]

/-- `NewToken`, `src/quic.rs:690-699`. -/
def srcQuicNewToken : List RawField := [
  field "ty" [constructWith ["u8"]] "FrameType",
  field "token_length" [length "varint_length(...)"] "Vec < u8 >",
  field "token" [length "varint(&token_length)"] "Vec < u8 >",
  field "remaining" [] "Vec < u8 >"]

/-- `Stream`, `src/quic.rs:701-715`. -/
def srcQuicStream : List RawField := [
  field "ty" [constructWith ["u8"]] "FrameType",
  field "stream_id" [length "varint_length(...)"] "Vec < u8 >",
  field "offset" [length "n_varints(if ty.0 & 0x04 > 0 { 1 } else { 0 }, ...)"] "Vec < u8 >",
  field "length" [length "n_varints(if ty.0 & 0x02 > 0 { 1 } else { 0 }, ...)"] "Vec < u8 >",
  field "stream_data" [payload, length "if length.is_empty() { (...).len() } else { varint(&length) }"] "Vec < u8 >",
  field "remaining" [] "Vec < u8 >"]

/-- `MaxData`, `src/quic.rs:717-724`. -/
def srcQuicMaxData : List RawField := [
  field "ty" [constructWith ["u8"]] "FrameType",
  field "max_data" [length "varint_length(...)"] "Vec < u8 >",
  field "remaining" [] "Vec < u8 >"]

/-- `MaxStreamData`, `src/quic.rs:726-735`. -/
def srcQuicMaxStreamData : List RawField := [
  field "ty" [constructWith ["u8"]] "FrameType",
  field "stream_id" [length "varint_length(...)"] "Vec < u8 >",
  field "max_stream_data" [length "varint_length(...)"] "Vec < u8 >",
  field "remaining" [] "Vec < u8 >"]

/-- `MaxStreams`, `src/quic.rs:737-744`. -/
def srcQuicMaxStreams : List RawField := [
  field "ty" [constructWith ["u8"]] "FrameType",
  field "max_streams" [length "varint_length(...)"] "Vec < u8 >",
  field "remaining" [] "Vec < u8 >"]

/-- `DataBlocked`, `src/quic.rs:746-753`. -/
def srcQuicDataBlocked : List RawField := [
  field "ty" [constructWith ["u8"]] "FrameType",
  field "max_data" [length "varint_length(...)"] "Vec < u8 >",
  field "remaining" [] "Vec < u8 >"]

/-- `StreamDataBlocked`, `src/quic.rs:755-764`. -/
def srcQuicStreamDataBlocked : List RawField := [
  field "ty" [constructWith ["u8"]] "FrameType",
  field "stream_id" [length "varint_length(...)"] "Vec < u8 >",
  field "max_stream_data" [length "varint_length(...)"] "Vec < u8 >",
  field "remaining" [] "Vec < u8 >"]

/-- `StreamsBlocked`, `src/quic.rs:766-773`. -/
def srcQuicStreamsBlocked : List RawField := [
  field "ty" [constructWith ["u8"]] "FrameType",
  field "max_streams" [length "varint_length(...)"] "Vec < u8 >",
  field "remaining" [] "Vec < u8 >"]

/-- `NewConnectionId`, `src/quic.rs:775-789`. -/
def srcQuicNewConnectionId : List RawField := [
  field "ty" [constructWith ["u8"]] "FrameType",
  field "sequence_number" [length "varint_length(...)"] "Vec < u8 >",
  field "retire_prior_to" [length "varint_length(...)"] "Vec < u8 >",
  field "length" [] "u8",
  field "connection_id" [length "length"] "Vec < u8 >",
  field "stateless_reset_token" [length "16"] "Vec < u8 >",
  field "remaining" [] "Vec < u8 >"]

/-- `RetireConnectionId`, `src/quic.rs:791-798`. -/
def srcQuicRetireConnectionId : List RawField := [
  field "ty" [constructWith ["u8"]] "FrameType",
  field "sequence_number" [length "varint_length(...)"] "Vec < u8 >",
  field "remaining" [] "Vec < u8 >"]

/-- `PathChallenge`, `src/quic.rs:800-807`. -/
def srcQuicPathChallenge : List RawField := [
  field "ty" [constructWith ["u8"]] "FrameType",
  field "data" [length "8"] "Vec < u8 >",
  field "remaining" [] "Vec < u8 >"]

/-- `PathResponse`, `src/quic.rs:809-816`. -/
def srcQuicPathResponse : List RawField := [
  field "ty" [constructWith ["u8"]] "FrameType",
  field "data" [length "8"] "Vec < u8 >",
  field "remaining" [] "Vec < u8 >"]

/-- `ConnectionClose`, `src/quic.rs:818-831`. -/
def srcQuicConnectionClose : List RawField := [
  field "ty" [constructWith ["u8"]] "FrameType",
  field "error_code" [length "varint_length(...)"] "Vec < u8 >",
  field "frame_type" [length "n_varints(if ty.0 == 0x1d { 0 } else { 1 }, ...)"] "Vec < u8 >",
  field "reason_phrase_length" [length "varint_length(...)"] "Vec < u8 >",
  field "reason_phrase" [length "varint(&reason_phrase_length)"] "Vec < u8 >",
  field "remaining" [] "Vec < u8 >"]

/-- `HandshakeDone`, `src/quic.rs:833-838`. -/
def srcQuicHandshakeDone : List RawField := [
  field "ty" [constructWith ["u8"]] "FrameType",
  field "remaining" [] "Vec < u8 >"]

/-- The token trees of the `#[length]` texts above, `...` replaced by `r#field_offset`. -/
def lengthTokenTable : List (String × List TT) := [
  ("0",
    [.literal "0" true]),
  ("ipv4_options_length(header_length)",
    [.ident "ipv4_options_length", .group .paren [.ident "header_length"]]),
  ("ipv4_payload_length(total_length, header_length)",
    [.ident "ipv4_payload_length", .group .paren [.ident "total_length", .punct ',', .ident "header_length"]]),
  ("ipv4_option_length(number)",
    [.ident "ipv4_option_length", .group .paren [.ident "number"]]),
  ("ipv4_option_payload_length(&length)",
    [.ident "ipv4_option_payload_length", .group .paren [.punct '&', .ident "length"]]),
  ("payload_length",
    [.ident "payload_length"]),
  ("ipv6_extension_length(hdr_ext_len)",
    [.ident "ipv6_extension_length", .group .paren [.ident "hdr_ext_len"]]),
  ("routing_extension_length(hdr_ext_len)",
    [.ident "routing_extension_length", .group .paren [.ident "hdr_ext_len"]]),
  ("tcp_options_length(data_offset)",
    [.ident "tcp_options_length", .group .paren [.ident "data_offset"]]),
  ("tcp_option_length(number)",
    [.ident "tcp_option_length", .group .paren [.ident "number"]]),
  ("tcp_option_payload_length(&length)",
    [.ident "tcp_option_payload_length", .group .paren [.punct '&', .ident "length"]]),
  ("(length * 8).saturating_sub(2)",
    [.group .paren [.ident "length", .punct '*', .literal "8" true], .punct '.', .ident "saturating_sub", .group .paren [.literal "2" true]]),
  ("(checksum_present | routing_present) * 2",
    [.group .paren [.ident "checksum_present", .punct '|', .ident "routing_present"], .punct '*', .literal "2" true]),
  ("key_present * 4",
    [.ident "key_present", .punct '*', .literal "4" true]),
  ("sequence_present * 4",
    [.ident "sequence_present", .punct '*', .literal "4" true]),
  ("if routing_present == 0 { 0 } else { unimplemented!() }",
    [.ident "if", .ident "routing_present", .punct '=', .punct '=', .literal "0" true, .group .brace [.literal "0" true], .ident "else", .group .brace [.ident "unimplemented", .punct '!', .group .paren []]]),
  ("dest_id_len",
    [.ident "dest_id_len"]),
  ("src_id_len",
    [.ident "src_id_len"]),
  ("varint_length(...)",
    [.ident "varint_length", .group .paren [.ident "r#field_offset"]]),
  ("varint(&token_length)",
    [.ident "varint", .group .paren [.punct '&', .ident "token_length"]]),
  ("packet_number_len + 1",
    [.ident "packet_number_len", .punct '+', .literal "1" true]),
  ("varint(&length) - packet_number.len()",
    [.ident "varint", .group .paren [.punct '&', .ident "length"], .punct '-', .ident "packet_number", .punct '.', .ident "len", .group .paren []]),
  ("8",
    [.literal "8" true]),
  ("n_varints(varint(&ack_range_count), ...)",
    [.ident "n_varints", .group .paren [.ident "varint", .group .paren [.punct '&', .ident "ack_range_count"], .punct ',', .ident "r#field_offset"]]),
  ("n_varints(if ty.0 == 0x03 { 3 } else { 0 }, ...)",
    [.ident "n_varints", .group .paren [.ident "if", .ident "ty", .punct '.', .literal "0" true, .punct '=', .punct '=', .literal "0x03" true, .group .brace [.literal "3" true], .ident "else", .group .brace [.literal "0" true], .punct ',', .ident "r#field_offset"]]),
  ("varint(&length)",
    [.ident "varint", .group .paren [.punct '&', .ident "length"]]),
  ("n_varints(if ty.0 & 0x04 > 0 { 1 } else { 0 }, ...)",
    [.ident "n_varints", .group .paren [.ident "if", .ident "ty", .punct '.', .literal "0" true, .punct '&', .literal "0x04" true, .punct '>', .literal "0" true, .group .brace [.literal "1" true], .ident "else", .group .brace [.literal "0" true], .punct ',', .ident "r#field_offset"]]),
  ("n_varints(if ty.0 & 0x02 > 0 { 1 } else { 0 }, ...)",
    [.ident "n_varints", .group .paren [.ident "if", .ident "ty", .punct '.', .literal "0" true, .punct '&', .literal "0x02" true, .punct '>', .literal "0" true, .group .brace [.literal "1" true], .ident "else", .group .brace [.literal "0" true], .punct ',', .ident "r#field_offset"]]),
  ("if length.is_empty() { (...).len() } else { varint(&length) }",
    [.ident "if", .ident "length", .punct '.', .ident "is_empty", .group .paren [], .group .brace [.group .paren [.ident "r#field_offset"], .punct '.', .ident "len", .group .paren []], .ident "else", .group .brace [.ident "varint", .group .paren [.punct '&', .ident "length"]]]),
  ("length",
    [.ident "length"]),
  ("16",
    [.literal "16" true]),
  ("n_varints(if ty.0 == 0x1d { 0 } else { 1 }, ...)",
    [.ident "n_varints", .group .paren [.ident "if", .ident "ty", .punct '.', .literal "0" true, .punct '=', .punct '=', .literal "0x1d" true, .group .brace [.literal "0" true], .ident "else", .group .brace [.literal "1" true], .punct ',', .ident "r#field_offset"]]),
  ("varint(&reason_phrase_length)",
    [.ident "varint", .group .paren [.punct '&', .ident "reason_phrase_length"]])]

/-- Tokenisation of the `#[length]` texts of the crate. -/
def tokens (s : String) : Option (List TT) :=
  (lengthTokenTable.find? fun e => e.1 == s).map (·.2)

end Verif.Source
