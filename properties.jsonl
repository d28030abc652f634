{"id": "C01", "title": "Big-endian getter reads exactly its bits", "statement": "For a packet field declared with a big-endian integer type of N bits that starts B bits into the buffer, get_<field>() returns the number whose N-digit binary expansion is bits B..B+N of the buffer, most significant bit first, and it does not depend on any other bit.", "quantifier": "every width N in 1..=64, every starting bit the macro accepts, every buffer long enough to hold the field", "why_tests_cant": "tests sample a handful of widths and byte values; there are 2^64 values per width and 512 width/offset pairs", "anchors": ["derive/src/util.rs: operations, get_mask, get_shiftl, get_shiftr, GetOperation::fmt", "derive/src/gen.rs: gen_accessor, gen_get_ops", "core/src/types.rs"]}
{"id": "C02", "title": "Setter writes the value and truncates to the field width", "statement": "After set_<field>(v) on a big-endian N-bit field, get_<field>() returns v modulo 2^N: values that fit come back unchanged and the excess high bits of a value that does not fit are dropped.", "quantifier": "every N in 1..=64, every accepted starting bit, every value of the Rust integer type, every buffer", "why_tests_cant": "the value space and the initial buffer contents are unbounded; a wrong mask shows up only for particular values", "anchors": ["derive/src/util.rs: to_mutator, mask_high_bits, SetOperation::fmt", "derive/src/gen.rs: gen_mutator, gen_set_ops"]}
{"id": "C03", "title": "Setter leaves every other bit alone", "statement": "set_<field>(v) on a big-endian integer field changes no bit of the buffer outside the N bits of that field and never changes the buffer length, even when v has bits beyond the field width.", "quantifier": "every N in 1..=64, every accepted starting bit, every value, every buffer", "why_tests_cant": "a clobbered neighbour bit is only visible for particular neighbour contents and over-wide values", "anchors": ["derive/src/util.rs: to_mutator, SetOperation::fmt", "derive/src/gen.rs: gen_mutator, gen_set_ops"]}
{"id": "C04", "title": "Little-endian fields round-trip", "statement": "For every little-endian field type uNle, get_<field>() after set_<field>(v) returns v modulo 2^N, and for whole-byte fields the stored bytes are the little-endian encoding of v.", "quantifier": "every N in 9..=64, every accepted starting bit, every value, every buffer", "why_tests_cant": "the repository tests only look at generated operation tables for a few sizes; they never evaluate them on values", "anchors": ["derive/src/util.rs: to_little_endian, operations", "core/src/types.rs: u9le..u64le"]}
{"id": "C05", "title": "Every sequence of field widths is accepted", "statement": "The derive macro produces accessors for any sequence of integer fields of 1..=64 bits, wherever each field happens to start inside its first byte.", "quantifier": "all 8 starting bit positions and all 64 widths", "why_tests_cant": "existing tests only use aligned combinations such as u4+u4, u3+u13, u11+u21", "anchors": ["derive/src/util.rs: operations, get_shiftl, get_shiftr", "derive/src/gen.rs: packet_impl"]}
{"id": "C06", "title": "Construction succeeds exactly when the fixed part fits", "statement": "XPacket::new(buf), MutableXPacket::new(buf) and owned(buf) return Some exactly when buf.len() >= minimum_packet_size(), which equals the number of bytes needed to hold all fixed-size fields; the packet then exposes exactly the bytes of buf through packet().", "quantifier": "every packet declaration the macro accepts and every buffer", "why_tests_cant": "there are infinitely many declarations and buffer lengths", "anchors": ["derive/src/gen.rs: packet_impl (new, owned, minimum_packet_size)", "core/src/packet.rs: PacketData"]}
{"id": "C07", "title": "Fixed header getters never panic", "statement": "Once new/owned returned Some, the getter of every integer or construct_with field that precedes all variable-length fields returns normally, for any buffer contents.", "quantifier": "every accepted declaration, every such field, every buffer of at least the minimum size", "why_tests_cant": "out-of-bounds indexing depends on the declaration and on buffer length at the boundary", "anchors": ["derive/src/gen.rs: packet_impl, gen_accessor, gen_get_ops"]}
{"id": "C08", "title": "payload() is total and returns a contiguous piece of the buffer", "statement": "If the length expressions of a packet evaluate without panicking, payload() never panics: it returns the bytes from the payload offset up to min(offset+declared length, buffer length), and the empty slice when the offset is at or past the end of the buffer.", "quantifier": "every accepted declaration, every buffer, every value of the length expressions (below usize::MAX)", "why_tests_cant": "malformed length fields of every possible value must be covered", "anchors": ["derive/src/gen.rs: impl_packet_trait_for, packet_impl (payload_bounds)"]}
{"id": "C09", "title": "Protocol payload() never panics on hostile input", "statement": "For Ethernet, VLAN, ARP, IPv4, IPv6, IPv6 extension/routing/fragment headers, TCP, UDP, ICMP and its echo/unreachable/time-exceeded forms, ICMPv6, all five NDP messages and QUIC 1-RTT packets, payload() returns normally on every buffer accepted by new, whatever the length fields say.", "quantifier": "every byte string", "why_tests_cant": "fuzzing samples inputs; the claim is over all inputs", "anchors": ["src/ethernet.rs: Ethernet", "src/vlan.rs: Vlan", "src/arp.rs: Arp", "src/ipv4.rs: Ipv4", "src/ipv6.rs: Ipv6, Extension, Routing, Fragment", "src/tcp.rs: Tcp", "src/udp.rs: Udp", "src/icmp.rs", "src/icmpv6.rs", "src/quic.rs: OneRtt", "fuzz/fuzzers/*"]}
{"id": "C10", "title": "Variable-length getters never panic", "statement": "get_<field>(), get_<field>_raw() and get_<field>_iter() of a variable-length field return normally on every buffer accepted by new.", "quantifier": "every packet type of the crate, every buffer", "why_tests_cant": "depends on the combination of header length fields and buffer length", "anchors": ["derive/src/gen.rs: packet_impl (Type::Vector)", "src/tcp.rs: Tcp", "src/ipv4.rs: Ipv4", "src/gre.rs: Gre"]}
{"id": "C11", "title": "from_packet never panics", "statement": "from_packet() returns normally for every buffer accepted by new, for the packet types whose length expressions cannot panic.", "quantifier": "every buffer, for TCP, IPv4, UDP, IPv6, Ethernet, VLAN, ARP, ICMP packets", "why_tests_cant": "panics only for inconsistent header length versus buffer length combinations", "anchors": ["derive/src/gen.rs: converters", "src/tcp.rs: Tcp", "src/ipv4.rs: Ipv4"]}
{"id": "C12", "title": "populate then from_packet is the identity", "statement": "Populating a large enough buffer from a struct whose variable-length fields agree with the length fields, and then calling from_packet, gives back the same struct (integer values reduced to their field width).", "quantifier": "every accepted declaration whose length expressions use only earlier fields, every struct value, every initial buffer contents", "why_tests_cant": "needs all struct values and arbitrary leftover buffer contents", "anchors": ["derive/src/gen.rs: packet_impl (populate), converters"]}
{"id": "C13", "title": "populate writes exactly the serialised packet", "statement": "populate(s) stores the concatenation of the big-endian encodings of the fields of s, in declaration order, at the start of the buffer and leaves every byte after it unchanged.", "quantifier": "every accepted declaration, every well-formed struct value, every buffer", "why_tests_cant": "arbitrary declarations, values and trailing bytes", "anchors": ["derive/src/gen.rs: packet_impl (populate, mutators)"]}
{"id": "C14", "title": "Static packet_size equals the serialised size", "statement": "XPacket::packet_size(&s), documented as the size in bytes of s when converted into a byte array, equals the number of bytes populate(s) writes.", "quantifier": "every accepted declaration and struct value", "why_tests_cant": "the existing test only covers Vec<u8> fields", "anchors": ["derive/src/gen.rs: packet_impl (packet_size, struct_length)", "derive/src/parse.rs: packet (struct_length)", "src/tcp.rs: Tcp"]}
{"id": "C15", "title": "Iterators terminate", "statement": "Iterating an XIterable always ends: each step consumes at least one byte, so the number of yielded packets is at most the length of the iterated buffer.", "quantifier": "every packet type with at least one whole byte of fixed fields, every buffer", "why_tests_cant": "an endless loop needs particular option bytes; termination is a liveness claim over all inputs", "anchors": ["derive/src/gen.rs: iterables"]}
{"id": "C16", "title": "Iterators tile the buffer", "statement": "The packets yielded by an XIterable start exactly where the previous one ended according to its packet_size(), beginning at the start of the buffer, without gaps or overlaps, and iteration stops only when fewer bytes than the minimum packet size remain.", "quantifier": "every packet type, every buffer", "why_tests_cant": "arbitrary option sequences", "anchors": ["derive/src/gen.rs: iterables", "core/src/packet.rs: PacketSize"]}
{"id": "C17", "title": "get_options never panics on hostile options", "statement": "TcpPacket::get_options(), Ipv4Packet::get_options() and formatting an option with {:?} return normally for every buffer accepted by new (the repository's own tests assert 'shouldn't crash here').", "quantifier": "every byte string", "why_tests_cant": "depends on the last bytes of the options area", "anchors": ["src/tcp.rs: Tcp, TcpOption, tcp_test_options_vec_invalid_offset", "src/ipv4.rs: Ipv4, Ipv4Option", "derive/src/gen.rs: converters, packet_impl"]}
{"id": "C18", "title": "Options set are options got", "statement": "After set_options(opts) with the header length field set to the matching number of words, get_options() returns opts, and get_options_raw() is the concatenation of the encoded options.", "quantifier": "every list of TCP (IPv4) options whose total size equals the options area, every buffer large enough", "why_tests_cant": "all option lists", "anchors": ["src/tcp.rs: Tcp, TcpOption", "src/ipv4.rs: Ipv4Option", "derive/src/gen.rs: packet_impl (Vec<Misc> mutator)"]}
{"id": "C19", "title": "Vectors of multi-byte integers can be read back", "statement": "For a field declared Vec<uNbe> with N a multiple of 8 above 8, get_<field>() returns the big-endian integers stored in the field.", "quantifier": "every N in {16,24,...,64}, every buffer", "why_tests_cant": "the repository test only sets such a field and never reads it", "anchors": ["derive/src/gen.rs: packet_impl (Vec<primitive> accessor)", "derive/tests/run-pass/variable_length_fields.rs"]}
{"id": "C20", "title": "Vector setters never write outside their field", "statement": "set_<field>(vals) for a variable-length field with a declared length either panics or leaves all bytes outside the field unchanged.", "quantifier": "every declaration, every value, every buffer", "why_tests_cant": "needs over-long values for each element width", "anchors": ["derive/src/gen.rs: packet_impl (check_len, copy_vals)"]}
{"id": "C21", "title": "clone_from copies a prefix", "statement": "dst.clone_from(&src) panics exactly when dst is shorter than src; otherwise dst afterwards starts with all bytes of src, and its remaining bytes and its length are unchanged.", "quantifier": "every pair of buffers", "why_tests_cant": "unsafe code: must hold for every pair of lengths", "anchors": ["core/src/packet.rs: MutablePacket::clone_from"]}
{"id": "C22", "title": "Checksum ignores the checksum field", "statement": "util::checksum(data, k) does not depend on the two bytes at 2k and 2k+1, so computing a packet's checksum gives the same result before and after storing it.", "quantifier": "every data and every k", "why_tests_cant": "all contents of the skipped word", "anchors": ["src/util.rs: checksum, sum_be_words"]}
{"id": "C23", "title": "Checksum is the RFC 1071 Internet checksum", "statement": "For data up to 65535 bytes util::checksum(data,k) is the 16-bit one's complement of the one's complement sum of the big-endian 16-bit words of data with word k taken as zero, an odd trailing byte being padded with a zero byte.", "quantifier": "every non-empty data of at most 65535 bytes and every k that names a whole word or lies beyond the data", "why_tests_cant": "carry folding is only wrong for particular sums", "anchors": ["src/util.rs: checksum, sum_be_words, finalize_checksum"]}
{"id": "C24", "title": "A stored checksum verifies", "statement": "If the checksum computed for a message is stored in its checksum word, then the one's complement sum of all words of the message (with pseudo header where applicable) is 0xFFFF, i.e. the receiver accepts it.", "quantifier": "every message up to 65535 bytes for ICMP, IPv4 headers, UDP and TCP over IPv4/IPv6, ICMPv6", "why_tests_cant": "all messages", "anchors": ["src/util.rs: checksum, ipv4_checksum, ipv6_checksum, finalize_checksum", "src/icmp.rs: checksum", "src/ipv4.rs: checksum", "src/udp.rs", "src/tcp.rs", "src/icmpv6.rs: checksum"]}
{"id": "C25", "title": "Carry folding terminates with the one's complement value", "statement": "The final folding of the 32-bit sum always terminates after at most two rounds and yields the complement of the end-around-carry sum: for a non-zero sum the un-complemented result is the representative of the sum modulo 65535 in 1..=65535, and zero for a zero sum.", "quantifier": "all 2^32 sums", "why_tests_cant": "2^32 inputs; the loop bound is a termination claim", "anchors": ["src/util.rs: finalize_checksum"]}
{"id": "C26", "title": "Pseudo-header checksums match RFC 793/768/8200", "statement": "The UDP/TCP/ICMPv6 checksum functions return the Internet checksum of pseudo header (addresses, protocol, length) followed by the message with its checksum word taken as zero.", "quantifier": "every pair of addresses and every message up to 65535 bytes", "why_tests_cant": "all messages and addresses", "anchors": ["src/util.rs: ipv4_checksum, ipv6_checksum, ipv4_word_sum, ipv6_word_sum", "src/udp.rs: ipv4_checksum, ipv6_checksum", "src/tcp.rs: ipv4_checksum, ipv6_checksum", "src/icmpv6.rs: checksum"]}
{"id": "C27", "title": "Extra data is included in the advanced checksum", "statement": "ipv4_checksum_adv/ipv6_checksum_adv(packet, extra, ..) for a packet of even length equals the plain checksum of the packet with extra appended.", "quantifier": "every even-length packet, every extra slice, every address pair, for UDP and TCP", "why_tests_cant": "the repository tests use one extra slice", "anchors": ["src/util.rs: ipv4_checksum, ipv6_checksum, sum_be_words", "src/udp.rs: ipv4_checksum_adv", "src/tcp.rs: ipv4_checksum_adv"]}
{"id": "C28", "title": "Checksumming never panics", "statement": "util::checksum returns normally on every slice (the 32-bit accumulator cannot overflow).", "quantifier": "every slice and skip word, in builds with overflow checks", "why_tests_cant": "overflow needs a large input that tests never use", "anchors": ["src/util.rs: sum_be_words"]}
{"id": "C29", "title": "IPv4 header checksum is total and covers the header", "statement": "ipv4::checksum(packet) returns normally on every buffer accepted by new; it is the Internet checksum of the first max(20, 4*header_length) bytes, cut at the end of the buffer.", "quantifier": "every byte string of at least 20 bytes", "why_tests_cant": "all header_length/buffer length combinations", "anchors": ["src/ipv4.rs: checksum"]}
{"id": "C30", "title": "IPv4 payload stays within total_length", "statement": "The payload of an IPv4 packet starts after the header options and ends at total_length (or at the end of the buffer), so no byte after total_length is returned and header plus payload make up total_length.", "quantifier": "every byte string of at least 20 bytes", "why_tests_cant": "inconsistent header_length/total_length combinations", "anchors": ["src/ipv4.rs: Ipv4, ipv4_options_length, ipv4_payload_length"]}
{"id": "C31", "title": "TCP options area and payload partition the segment", "statement": "For every TCP segment with data_offset >= 5 whose header fits the buffer, the 20 fixed bytes, get_options_raw() and payload() concatenate to the buffer and the payload starts at 4*data_offset.", "quantifier": "every byte string of at least 20 bytes", "why_tests_cant": "all data_offset values and buffer lengths", "anchors": ["src/tcp.rs: Tcp, tcp_options_length"]}
{"id": "C32", "title": "TCP option constructors produce well-formed options", "statement": "TcpOption::nop/timestamp/mss/wscale/sack_perm/selective_ack build options whose length byte equals the encoded size, whose integers are encoded big-endian, and which read back unchanged.", "quantifier": "every argument, including every list of acknowledgement numbers", "why_tests_cant": "all argument values; overflow for long lists", "anchors": ["src/tcp.rs: TcpOption::nop, timestamp, mss, wscale, sack_perm, selective_ack", "src/util.rs: Octets"]}
{"id": "C33", "title": "IPv6 fragment offset and flag accessors are independent", "statement": "On an IPv6 fragment header set_fragment_offset(o) followed by get_fragment_offset() gives o with the flag bits cleared and keeps is_last_fragment(); set_last_fragment(b) makes is_last_fragment() equal b and keeps the offset.", "quantifier": "every u16 offset, both flag values, every buffer of at least 8 bytes", "why_tests_cant": "all combinations of previous contents", "anchors": ["src/ipv6.rs: FragmentPacket, MutableFragmentPacket"]}
{"id": "C34", "title": "IPv6 fragment offset excludes the reserved bits", "statement": "get_fragment_offset() returns the 13-bit fragment offset in bytes as defined by RFC 8200 section 4.5: the top 13 bits of the field with the low three bits zero.", "quantifier": "every fragment header", "why_tests_cant": "only visible for packets with reserved bit 2 set", "anchors": ["src/ipv6.rs: FRAGMENT_FLAGS_MASK, FRAGMENT_OFFSET_MASK"]}
{"id": "C35", "title": "IPv6 extension header sizes follow the RFC", "statement": "packet_size() of an IPv6 extension or routing header is 8*(hdr_ext_len+1) bytes, and walking a chain with ExtensionIterable moves by exactly that amount (clamped at the end of the buffer).", "quantifier": "every buffer", "why_tests_cant": "all header lengths", "anchors": ["src/ipv6.rs: Extension, Routing, ipv6_extension_length, routing_extension_length"]}
{"id": "C36", "title": "NDP option sizes follow the RFC", "statement": "packet_size() of a neighbour discovery option is 8*length bytes for every length from 1 to 255, and reading it never panics.", "quantifier": "every option header", "why_tests_cant": "tests use lengths 1..4 only; larger lengths overflow an 8-bit multiplication", "anchors": ["src/icmpv6.rs: ndp::NdpOption"]}
{"id": "C37", "title": "GRE optional fields sit where RFC 2890 puts them", "statement": "For a GRE packet without routing whose buffer holds all announced optional fields, checksum, reserved/offset, key and sequence are read from the RFC 2890 positions, the payload follows them, and no accessor panics.", "quantifier": "all 8 combinations of presence bits, every buffer", "why_tests_cant": "tests cover two flag combinations with zero data", "anchors": ["src/gre.rs: Gre, U16BE, U32BE"]}
{"id": "C38", "title": "MAC address text round-trips", "statement": "Parsing the Display output of a MacAddr gives the same address back.", "quantifier": "all 2^48 addresses", "why_tests_cant": "2^48 addresses", "anchors": ["core/src/macaddr.rs: Display, FromStr"]}
{"id": "C39", "title": "MAC address parser accepts only six hex components", "statement": "Parsing succeeds exactly for strings consisting of six ':'-separated components each of which is a valid hexadecimal u8 literal, yields those values, and otherwise returns the documented error: an invalid component before a seventh one gives InvalidComponent, too many components TooManyComponents, too few TooFewComponents.", "quantifier": "every string", "why_tests_cant": "infinitely many strings", "anchors": ["core/src/macaddr.rs: FromStr, ParseMacAddrErr"]}
{"id": "C40", "title": "MAC address classification", "statement": "is_universal is the negation of is_local and is_unicast of is_multicast, determined by bits 1 and 0 of the first byte; broadcast is multicast; is_zero and is_broadcast hold for exactly one address each; conversion to and from byte arrays is a bijection.", "quantifier": "all addresses", "why_tests_cant": "2^48 addresses", "anchors": ["core/src/macaddr.rs: MacAddr"]}
{"id": "C41", "title": "Octets is big-endian and lossless", "statement": "x.octets() for u8/u16/u32/u64 has the type's size, and reading the bytes as a big-endian number gives x back.", "quantifier": "all values of the four integer types", "why_tests_cant": "2^64 values", "anchors": ["src/util.rs: Octets"]}
{"id": "C42", "title": "QUIC varints decode", "statement": "For every value below 2^62 and each of the RFC 9000 encodings (1, 2, 4 or 8 bytes) able to hold it, varint_length of a buffer starting with the encoding gives its size and varint of those bytes gives the value; varint never exceeds 2^62-1 on 1..8 byte inputs.", "quantifier": "all values below 2^62, all four sizes, all following bytes", "why_tests_cant": "2^62 values", "anchors": ["src/quic.rs: varint_length, varint, n_varints"]}
{"id": "C43", "title": "QuicPacket::new never panics", "statement": "QuicPacket::new(buf) returns None or Some for every byte string instead of panicking (it returns Option to report malformed input).", "quantifier": "every byte string", "why_tests_cant": "truncated and inconsistent datagrams of every shape", "anchors": ["src/quic.rs: QuicPacket::new, QuicPacket::remaining, varint, varint_length"]}
{"id": "C44", "title": "Well-formed QUIC datagrams parse", "statement": "A datagram that is the concatenation of well-formed Initial, 0-RTT and Handshake packets, optionally ended by a 1-RTT, Retry or Version Negotiation packet, is parsed by QuicPacket::new into exactly those packets in order, with the right connection ids, token, packet number and frame bytes.", "quantifier": "all field values, all coalesced sequences of any length", "why_tests_cant": "arbitrary sequences and sizes", "anchors": ["src/quic.rs: QuicPacket::new, Initial, ZeroRtt, Handshake, OneRtt, Retry, VersionNegotiation"]}
{"id": "C45", "title": "QUIC packet kinds follow the header bits", "statement": "QuicPacket::new classifies a packet as 1-RTT exactly when the header form bit is 0 and the fixed bit is 1, and as Version Negotiation only when the header form bit is 1 (RFC 8999).", "quantifier": "every byte string", "why_tests_cant": "all first-byte values", "anchors": ["src/quic.rs: QuicPacket::new"]}
{"id": "C46", "title": "QUIC parsing terminates and packets are consecutive", "statement": "QuicPacket::new and Frame::new terminate on every input, and whenever they return packets (frames), each one starts inside the input at or after the end of the fixed header of the previous one.", "quantifier": "every byte string", "why_tests_cant": "liveness over all inputs", "anchors": ["src/quic.rs: QuicPacket::new, Frame::new"]}
{"id": "C47", "title": "Padding frames are merged", "statement": "Frame::new on a frame sequence reports each maximal run of PADDING bytes as a single Padding frame carrying the run length, and no two adjacent reported frames are both Padding.", "quantifier": "every byte string accepted by Frame::new", "why_tests_cant": "arbitrary interleavings", "anchors": ["src/quic.rs: Frame::new"]}
{"id": "C48", "title": "ACK frames are delimited per RFC 9000", "statement": "For a well-formed ACK frame with any number of ACK ranges, parsing continues right after the last range (and the ECN counts for type 3).", "quantifier": "every range count and all values", "why_tests_cant": "needs frames with at least one extra range", "anchors": ["src/quic.rs: Ack, n_varints"]}
{"id": "C49", "title": "Frame::new never panics", "statement": "Frame::new(buf) returns None or Some for every byte string instead of panicking.", "quantifier": "every byte string", "why_tests_cant": "all truncations of all frame kinds", "anchors": ["src/quic.rs: Frame::new, varint, varint_length, n_varints"]}
{"id": "C50", "title": "QUIC packets can be populated", "statement": "populate on a zero-filled buffer of the right size stores a well-formed QUIC packet struct and reads back unchanged.", "quantifier": "every well-formed struct", "why_tests_cant": "no test populates QUIC packets", "anchors": ["src/quic.rs: Initial, Handshake", "derive/src/gen.rs: packet_impl (check_len)"]}
{"id": "C51", "title": "Names of protocol numbers", "statement": "Display of IpNextHeaderProtocol and EtherType prints a name for exactly the values with a named constant and 'unknown' (the documented fallback) otherwise, and distinct named values print distinct names.", "quantifier": "all 256 protocol numbers and all 65536 ethertypes", "why_tests_cant": "tests check three of 256 and a few of 65536 values", "anchors": ["src/ip.rs: IpNextHeaderProtocol", "src/ethernet.rs: EtherType"]}
{"id": "C52", "title": "Type names recognised by the macro", "statement": "The macro treats a field type as an integer field exactly when its text is 'u', one or more decimal digits (denoting a number that fits a usize), and optionally be, le or he; the width is the decimal value and the endianness follows the suffix (big when absent); an integer field wider than 8 bits without suffix is rejected.", "quantifier": "every type text", "why_tests_cant": "infinitely many strings", "anchors": ["derive/src/parse.rs: parse_ty, parse_type"]}
{"id": "C53", "title": "Converting to immutable keeps the bytes", "statement": "to_immutable() and consume_to_immutable() give a packet with the same bytes, so every getter and payload() return the same results as before.", "quantifier": "every packet type and buffer", "why_tests_cant": "all buffers and getters", "anchors": ["derive/src/gen.rs: packet_impl (to_immutable, consume_to_immutable)", "core/src/packet.rs: MutPacketData::to_immutable"]}
{"id": "C54", "title": "Setters of different fields commute", "statement": "Setting two distinct fixed-position integer fields in either order gives the same buffer, and setting one does not change what the getter of the other returns.", "quantifier": "every accepted declaration, every pair of fixed fields, all values and buffers", "why_tests_cant": "pairs of fields times values", "anchors": ["derive/src/gen.rs: packet_impl, gen_mutator"]}
{"id": "C55", "title": "Header layouts match the RFCs", "statement": "The getters of Ethernet, VLAN, ARP, IPv4, IPv6, TCP, UDP and ICMP packets read the byte and bit positions given by the protocol specifications.", "quantifier": "every buffer", "why_tests_cant": "all contents", "anchors": ["src/ethernet.rs", "src/vlan.rs", "src/arp.rs", "src/ipv4.rs", "src/ipv6.rs", "src/tcp.rs", "src/udp.rs", "src/icmp.rs"]}
{"id": "C56", "title": "Variable-length fields do not overlap earlier fields", "statement": "A variable-length field starts after all bits of the fixed fields declared before it, so setting it never changes them.", "quantifier": "every accepted declaration", "why_tests_cant": "needs declarations whose fixed part is not a whole number of bytes", "anchors": ["derive/src/gen.rs: current_offset, packet_impl"]}
{"id": "C57", "title": "Packet equality is byte equality", "statement": "Two packets of the same type compare equal exactly when their buffers hold the same bytes, whether they own or borrow the buffer.", "quantifier": "all buffers, both kinds of storage", "why_tests_cant": "mixed owned/borrowed comparison is untested", "anchors": ["core/src/packet.rs: PacketData, MutPacketData (derive(PartialEq))", "derive/src/gen.rs: packet_struct"]}
{"id": "C58", "title": "UDP checksum is never transmitted as zero", "statement": "udp::ipv4_checksum and udp::ipv6_checksum never return 0: RFC 768 reserves 0 for 'no checksum' and requires a computed zero to be sent as 0xFFFF, and RFC 8200 discards UDP packets with a zero checksum.", "quantifier": "every UDP packet up to 65535 bytes and every address pair", "why_tests_cant": "one message in 65536 computes to zero", "anchors": ["src/udp.rs: ipv4_checksum, ipv6_checksum", "src/util.rs: finalize_checksum"]}
{"id": "C59", "title": "Doc comments on packet fields are accepted", "statement": "Putting a doc comment on a field of a struct with derive(Packet) does not change whether the declaration is accepted.", "quantifier": "every declaration, every field, every comment", "why_tests_cant": "no test declares a documented field", "anchors": ["derive/src/parse.rs: packet"]}
{"id": "C60", "title": "Accepted declarations are the documented ones", "statement": "derive(Packet) accepts a struct exactly when every field is named, carries only the documented attributes in legal form, vectors other than the last field have a #[length], user-defined types have #[construct_with], integers wider than 8 bits spell out their endianness, and at most one field is the #[payload]; the accepted fields come out in order with the names, types, lengths and payload mark written.", "quantifier": "every list of fields with any attributes", "why_tests_cant": "the compile-fail tests show eleven rejected declarations", "anchors": ["derive/src/parse.rs: packet, parse_type, parse_ty"]}
{"id": "C61", "title": "Nested vectors are recognised in every spacing", "statement": "A field type Vec<...<T>...> nested to any depth is recognised as that many vector levels around T, whether or not the token printer puts spaces around the angle brackets.", "quantifier": "every nesting depth, every inner type without brackets", "why_tests_cant": "unbounded depth", "anchors": ["derive/src/parse.rs: ty_to_string, parse_type"]}
{"id": "C62", "title": "MAC address text format", "statement": "The Display text of a MacAddr is its six bytes in order, each as two lower-case hexadecimal digits, separated by colons.", "quantifier": "every address", "why_tests_cant": "2^48 addresses", "anchors": ["core/src/macaddr.rs: impl Display for MacAddr"]}
{"id": "C63", "title": "payload_mut is the payload", "statement": "payload_mut() of a generated packet type gives access to exactly the bytes payload() returns: overwriting it leaves every other byte unchanged, and it panics exactly when payload() does.", "quantifier": "every declaration, every buffer, every replacement", "why_tests_cant": "payload bounds depend on length expressions over arbitrary contents", "anchors": ["derive/src/gen.rs: impl_packet_trait_for"]}
{"id": "C64", "title": "QUIC frame accessors return the frame's parts", "statement": "For every frame reported by Frame::new, ty() is its type byte, remaining() the bytes behind it, the getters return the parts RFC 9000 lists for its type (empty for absent optional parts; ack_range holds as many integers as the range count says), and payload() is the data of a STREAM frame and empty otherwise.", "quantifier": "every frame sequence, all frame types", "why_tests_cant": "unbounded contents and all integer encodings", "anchors": ["src/quic.rs: Frame::ty, Frame::payload, Frame::remaining, frame structs"]}
{"id": "C65", "title": "Which declarations become packet types", "statement": "derive(Packet) generates code for a struct exactly when the declaration is legal (see the property on accepted declarations) and every field fits where it stands: integers that are byte-aligned or whose leftover bits fit in the first byte, vectors of whole-byte integers of at most 64 bits or of named packets, construct_with listing integers only. Every struct of the crate is turned into the fields written.", "quantifier": "every list of fields", "why_tests_cant": "unbounded combinations of widths and offsets", "anchors": ["derive/src/gen.rs", "derive/src/lib.rs: derive_packet", "derive/src/parse.rs"]}
{"id": "C66", "title": "Bad declarations are compile errors, not macro panics", "statement": "Whatever item derive(Packet) is put on, the macro reports an error or generates code; it never panics.", "quantifier": "every item", "why_tests_cant": "the compile-fail tests only show declarations with proper errors", "anchors": ["derive/src/gen.rs", "derive/src/lib.rs: derive_packet"]}
{"id": "C67", "title": "Length expressions are the documented ones", "statement": "A #[length] expression is accepted only if it is built from integer literals, field names, uppercase constants, parentheses and the operators + - * / %, and each field name stands for the field's value.", "quantifier": "every token sequence, any nesting", "why_tests_cant": "unbounded expressions", "anchors": ["derive/src/parse.rs: parse_length_expr"]}
{"id": "C68", "title": "Evaluating a getter ends", "statement": "For every declaration the macro accepts, evaluating the getters that a getter's length expressions refer to ends: no getter needs itself.", "quantifier": "every accepted declaration", "why_tests_cant": "no test refers to a later field", "anchors": ["derive/src/parse.rs: parse_length_expr", "derive/src/gen.rs: current_offset handling"]}
{"id": "C69", "title": "Integer type names", "statement": "Every type name in core::types, and u8, u16, u32, u64, is read by the macro as an integer type, and is an alias of the smallest of u8, u16, u32, u64 that holds its width; every width from 1 to 64 has a name in each byte order.", "quantifier": "all 175 aliases", "why_tests_cant": "no test uses most of them", "anchors": ["core/src/types.rs", "derive/src/parse.rs: parse_ty"]}
{"id": "C70", "title": "MAC address serialisation", "statement": "A MacAddr serialised with serde, to a human-readable or a binary format, deserialises to the same address; deserialisation accepts exactly the texts FromStr accepts and byte arrays of length six.", "quantifier": "every address, every value presented", "why_tests_cant": "2^48 addresses and unbounded texts", "anchors": ["core/src/macaddr.rs: Serialize, Deserialize"]}
{"id": "C71", "title": "The fuzz targets find nothing", "statement": "None of the six fuzz targets (Ethernet, GRE, IPv4, TCP, UDP, VLAN) panics or runs forever.", "quantifier": "every input of every length, both build modes", "why_tests_cant": "a fuzzer samples inputs; a run without a crash says nothing about the rest", "anchors": ["fuzz/fuzzers/ether.rs", "fuzz/fuzzers/gre.rs", "fuzz/fuzzers/ipv4.rs", "fuzz/fuzzers/tcp.rs", "fuzz/fuzzers/udp.rs", "fuzz/fuzzers/vlan.rs"]}
{"id": "C72", "title": "Address fields", "statement": "In every packet type, the getter of a MAC, IPv4 or IPv6 address field returns the address whose bytes are at the position the protocol gives; the setter writes exactly these bytes and no others; getting after setting returns the address set.", "quantifier": "every address field, every buffer accepted by new, every address", "why_tests_cant": "2^128 addresses, every buffer content", "anchors": ["core/src/packet.rs: PrimitiveValues", "derive/src/gen.rs: Type::Misc", "src/ethernet.rs", "src/arp.rs", "src/ipv4.rs", "src/ipv6.rs", "src/icmpv6.rs"]}
{"id": "C73", "title": "Release builds return what debug builds return", "statement": "Whatever a getter, setter, populate, from_packet, packet_size, payload, checksum, QUIC or option function returns in a build with overflow checks, it returns in a build without them.", "quantifier": "all 53 packet types, every function, every argument", "why_tests_cant": "tests run in one build mode; equality of two runs on all inputs is not testable", "anchors": ["derive/src/gen.rs", "src/util.rs", "src/quic.rs", "src/tcp.rs", "src/ipv6.rs"]}
{"id": "C74", "title": "Debug and release builds agree", "statement": "The generated methods of every packet type do the same in debug and release builds, panics included.", "quantifier": "every packet type, every buffer, every argument", "why_tests_cant": "tests run in one build mode", "anchors": ["derive/src/gen.rs", "src/*.rs: #[length]"]}
{"id": "C75", "title": "The text of a QUIC packet", "statement": "Printing each packet of a well-formed datagram gives one line for each of: packet type, version (0x and eight hexadecimal digits), token of an Initial packet, packet number in decimal, connection ids, payload size; in this order and only those the packet has.", "quantifier": "every well-formed datagram, both build modes", "why_tests_cant": "unbounded contents", "anchors": ["src/quic.rs: Display for QuicPacket, Display for Version"]}
{"id": "C76", "title": "Printing QUIC packets and frames does not panic", "statement": "Every packet reported by QuicPacket::new and every frame reported by Frame::new can be printed; a frame prints as the RFC 9000 name of its type.", "quantifier": "every input, every reported packet and frame", "why_tests_cant": "reported packets may end anywhere", "anchors": ["src/quic.rs: Display for QuicPacket, Display for Frame, Display for FrameType"]}
{"id": "C77", "title": "Lengths are what #[length] says", "statement": "In every packet struct of the crate, the length of a variable-length field in a packet is the value of the expression written in its #[length] attribute, with field names standing for the packet's own getters and ... for the bytes from the field on; both in debug and release builds, panics included.", "quantifier": "all 53 structs, every field, every buffer, both build modes", "why_tests_cant": "lengths depend on all earlier fields; tests use a few packets per type", "anchors": ["derive/src/parse.rs: parse_length_expr", "derive/src/gen.rs: packet_length", "src/*.rs: #[length]"]}
{"id": "C78", "title": "The text of the generated integer accessors", "statement": "The source text that the macro builds for the getter and setter of an integer field is a Rust block that type-checks; run as Rust it reads, respectively replaces, exactly the field's bits. No hexadecimal mask is printed without digits and no shift reaches the width of the type. The setters whose masks do not fit the argument's type are exactly those of 16-bit and 32-bit little-endian or host-endian fields that start at bit 5, 6 or 7 of a byte.", "quantifier": "every type name of the crate, every bit offset the macro accepts, every buffer and value, both build modes", "why_tests_cant": "about 1400 combinations of type and offset, each over all buffers and values", "anchors": ["derive/src/util.rs: Display for GetOperation, Display for SetOperation, radix_fn!", "derive/src/gen.rs: gen_get_ops, gen_set_ops", "core/src/types.rs"]}
{"id": "C79", "title": "What {:?} prints for a packet", "statement": "Formatting a packet with {:?} writes the name of the packet type (Mutable in front for the mutable one), then in braces `field : value, ` for every field but the payload, in the order of declaration. It panics exactly when one of those getters does. The payload is never printed.", "quantifier": "every packet struct whose names contain no brace (all 53 of the crate), every buffer, every way of printing the field values", "why_tests_cant": "the format string is assembled by the macro; tests print a few packets", "anchors": ["derive/src/gen.rs: debug_impls", "derive/src/parse.rs: packet_name, packet_name_mut"]}
{"id": "C80", "title": "The unsafe blocks are sound", "statement": "clone_from, QuicPacket::new and Frame::new, used from safe code, never read or write memory outside live slices. The packets and frames they return borrow parts of the caller's slice and hold the bytes the parsers report, so the extended lifetime is that of the caller's slice.", "quantifier": "every memory, every live slice, every safe implementation of Packet and MutablePacket, both build modes", "why_tests_cant": "undefined behaviour need not show in a test run", "anchors": ["core/src/packet.rs: MutablePacket::clone_from", "src/quic.rs: QuicPacket::new, Frame::new"]}
{"id": "C81", "title": "Bytes after the end of a packet are ignored", "statement": "What is read from a packet (size, every getter, raw getter, payload, from_packet) depends only on its first packet_size() bytes if the buffer has that many, so padding or a following packet does not change it. A UDP datagram ends after the number of bytes in its length field.", "quantifier": "every packet type of the crate outside quic.rs, every buffer, every continuation, both build modes", "why_tests_cant": "two runs on buffers of any length and content are compared", "anchors": ["derive/src/gen.rs: handle_vector_primitive, handle_vector_misc, packet_impl", "src/udp.rs: Udp", "src/ipv4.rs: ipv4_payload_length"]}
{"id": "C82", "title": "Packets inside packets", "statement": "Writing a stack of protocol layers with populate, from the inside out, and reading it with new, the getters and payload(), from the outside in, gives back every header field and the data. Padding after the stack is dropped by the first layer that has a length; without one it is part of the data.", "quantifier": "every stack of any number of layers whose length fields are right, any header values, data and padding, both build modes", "why_tests_cant": "unbounded nesting and contents", "anchors": ["derive/src/gen.rs: populate, packet_impl", "src/ethernet.rs", "src/ipv4.rs", "src/udp.rs"]}
{"id": "C83", "title": "Exactly which QUIC datagrams are accepted", "statement": "In a debug build QuicPacket::new returns Some(packets) exactly on datagrams made of complete packets with a Length field, ended by nothing or by bytes that look like a 1-RTT, Version Negotiation or Retry packet (first byte, version, at least 5 or 7 bytes), and it returns exactly these packets in order; it returns None exactly on complete packets followed by bytes that are too few or have the fixed bit 0. Release builds answer these datagrams alike.", "quantifier": "every byte string", "why_tests_cant": "a classification of all datagrams of any length", "anchors": ["src/quic.rs: QuicPacket::new, QuicPacket::remaining"]}
{"id": "C84", "title": "Packets returned by QuicPacket::new are complete", "statement": "Every packet returned by QuicPacket::new is a complete packet and version(), dest_id(), src_id(), token(), packet_number() and frames() show its content without panicking.", "quantifier": "every byte string, every returned packet", "why_tests_cant": "truncation at every position of every packet type", "anchors": ["src/quic.rs: QuicPacket::new, dest_id, src_id, packet_number, frames"]}
{"id": "C85", "title": "Corrupted packets do not pass the checksum", "statement": "If the checksum field of an ICMP, UDP, TCP or ICMPv6 packet equals the checksum computed for the packet and its addresses, then the same comparison fails for every message of the same length that differs from it in a burst of at most 15 consecutive bits, wherever the burst lies (addresses, header, checksum field, data); likewise for IPv4 headers as long as header_length is not hit. Two slices have the same util::checksum exactly if, read as big-endian numbers with the skipped word zero, they agree modulo 65535 and both or neither consist of zeroes.", "quantifier": "for all packets up to 65535 bytes, all addresses, all burst positions and contents, both build modes", "why_tests_cant": "The detection guarantee quantifies over pairs of messages and all error patterns; tests compute checksums of a few packets and never corrupt one.", "anchors": ["src/util.rs:73-178", "src/icmp.rs:65-67", "src/udp.rs:27-52", "src/udp.rs:101-126", "src/tcp.rs:237-290", "src/icmpv6.rs:75-84", "src/ipv4.rs:159-169"]}
{"id": "C86", "title": "Writing back what was read changes nothing", "statement": "When from_packet() of a packet returns a struct, populate() of the same packet with that struct returns and leaves every byte as it was; likewise set_<field>(get_<field>()) for each field.", "quantifier": "for all packet types of the crate (and all structs of big-endian integers and byte vectors), all buffers, both build modes", "why_tests_cant": "Needs every buffer from which from_packet() returns, including truncated and over-long option lists; the tests only write structs they built themselves.", "anchors": ["derive/src/gen.rs:196-232", "derive/src/gen.rs:273-289", "derive/src/gen.rs:368-387", "derive/src/gen.rs:687-720", "src/tcp.rs:53-70", "src/ipv4.rs:131-155", "src/icmpv6.rs:300-500"]}
{"id": "C87", "title": "Outcome of QuicPacket::new in release builds, exactly", "statement": "In a release build QuicPacket::new() returns the packets found by going on, after each Initial, 0-RTT or Handshake packet whose header is complete up to its Length field, as many bytes after that field as it says - even if that is inside the packet number; it returns None exactly when this leads to refused bytes and panics exactly when it leads to a packet that cannot be passed. It differs from a debug build exactly where a Length field is smaller than the packet number. frames() of such a packet panics, its other accessors do not.", "quantifier": "for all byte slices", "why_tests_cant": "Needs every combination of Length values, packet number sizes and datagram ends, in a build with wrapping arithmetic; cargo test uses debug builds, and there is no test of malformed QUIC packets.", "anchors": ["src/quic.rs:14-49", "src/quic.rs:114-134", "src/quic.rs:216-300", "derive/src/gen.rs:142-145"]}
{"id": "C88", "title": "The derive macro reports the first thing wrong with a declaration", "statement": "For every public struct that #[derive(Packet)] does not accept, the compile error has the text that belongs to the first defect of the struct and points at that defect: fields are examined in order, of each field first the name, then the attributes in order, then the type, then whether #[length] or #[construct_with] is missing; only if all fields pass, the first field for which no code can be generated is reported. Each text (\"all fields in a packet must be named\", \"packet may not have multiple payloads\", \"unknown attribute: ...\", \"non-primitive field types must specify #[construct_with]\", ...) appears exactly for its defect. A struct that is not public is reported as such whatever else is wrong. The place is always a field, a field type or an attribute that exists.", "quantifier": "all structs (any number of fields, any attributes and type texts), all tokenisations of the length texts", "why_tests_cant": "The compile-fail tests contain eleven structs with one defect each; which of several defects is reported, and that no other combination of attributes triggers a message wrongly, is never tried, and the gen.rs messages and half of the parse.rs messages have no test at all.", "anchors": ["derive/src/parse.rs:50-293", "derive/src/gen.rs:125-335", "derive/src/lib.rs:150-191", "derive/tests/compile-fail"]}
{"id": "C89", "title": "What the options of a neighbour discovery message are", "statement": "For the five neighbour discovery messages (router solicitation and advertisement, neighbour solicitation and advertisement, redirect): get_options_raw() is everything after the fixed fields (8, 16, 24, 24, 40 bytes). get_options() cuts it into options of a type byte, a length byte l and 8*l-2 bytes of data (none for l = 0; lengths count modulo 32 in release builds), the last of which may be cut short, and ignores a single byte at the end. In release builds this always succeeds. In debug builds get_options(), from_packet() and {:?} panic exactly when an option that is reached has a length byte of 32 or more. set_options(opts), for options with all of their data, overwrites exactly the bytes after the fixed fields with the encodings; get_options() then returns opts followed by the options read from the bytes behind them (so zero padding is read as options of length 0).", "quantifier": "all five message types, all packets and option lists of any length, both build modes", "why_tests_cant": "The unit tests read one or two well-formed options of lengths 1 to 4 from one packet per type and write one; length 0, lengths of 32 and more, options cut off by the end of the packet and leftover bytes after the written options are not tried.", "anchors": ["src/icmpv6.rs:277-286", "src/icmpv6.rs:300-312", "src/icmpv6.rs:343-359", "src/icmpv6.rs:382-396", "src/icmpv6.rs:433-448", "src/icmpv6.rs:479-495", "derive/src/gen.rs:240-289", "derive/src/gen.rs:656-684"]}
{"id": "C90", "title": "Fields with user-defined types", "statement": "Every packet field whose type is not an integer or a vector names a type with a constructor and with PrimitiveValues; #[construct_with] lists exactly the integers that T::new takes and that to_primitive_values returns, as the same Rust types. For the types around one integer, get_<field>() after set_<field>(T(v)) returns T(v) for every v that the Rust type can hold.", "quantifier": "all fields with #[construct_with] of all 53 packet structs, all values, all buffers, both build modes", "why_tests_cant": "Round trips are tested for a few named constants; the values that do not fit the field (3 of 8 bits, 5 of 8 bits, 1 of 8 bits, 2 of 8 bits) are not tried.", "anchors": ["derive/src/gen.rs:293-361", "core/src/packet.rs:170-211", "src/arp.rs:15-62", "src/ethernet.rs:112-128", "src/vlan.rs:6-22", "src/ip.rs:470-486", "src/ipv4.rs:113-129", "src/tcp.rs:72-225", "src/icmp.rs:13-47", "src/icmpv6.rs:15-49", "src/icmpv6.rs:162-178", "src/quic.rs:340-457", "src/quic.rs:877-893"]}
{"id": "C91", "title": "Protocol constants", "statement": "The constants for ARP operations and hardware types, VLAN priorities, IPv4 and TCP option numbers, ICMP and ICMPv6 types and codes, NDP option types, QUIC header forms, packet types and frame types are the assigned numbers. A flag constant of TCP, IPv4, router advertisement and neighbour advertisement selects, in get_flags(), exactly the bit of the header assigned to that flag; set_flags(get_flags() | FLAG) sets that bit of the packet and changes no other.", "quantifier": "all 150 public constants outside ip.rs and ethernet.rs (see C51 for those), all buffers, both build modes", "why_tests_cant": "Only SYN, ACK and a few types occur in tests; that a flag selects one bit and only it concerns all 2^n other header bits.", "anchors": ["src/tcp.rs:20-50", "src/tcp.rs:78-101", "src/ipv4.rs:18-110", "src/arp.rs:34-71", "src/vlan.rs:26-53", "src/icmp.rs:101-139", "src/icmp.rs:196-201", "src/icmp.rs:273-278", "src/icmp.rs:313-348", "src/icmp.rs:382-389", "src/icmpv6.rs:116-263", "src/icmpv6.rs:314-323", "src/icmpv6.rs:398-409", "src/quic.rs:338-343", "src/quic.rs:402-409", "src/quic.rs:841-875"]}
{"id": "C92", "title": "Writing succeeds exactly when the bytes fit", "statement": "On a mutable packet, populate(&x) of a struct whose declared lengths agree with its contents returns if and only if the buffer is at least as long as the encoding of x; on a shorter buffer it panics (it does not write a truncated packet and return). set_options of TCP and IPv4 returns if and only if the options fit both the area given by the header length and the buffer; set_options of a neighbour discovery message if and only if they fit the buffer. On success only the bytes of the field change.", "quantifier": "all regular declarations with their vectors last (this includes all 27 packet types outside quic.rs), inner packets nested to any depth, all structs, all option lists, all buffers, both build modes", "why_tests_cant": "Tests populate buffers that are large enough; the panics depend on where in a list of nested packets the space ends.", "anchors": ["derive/src/gen.rs:128", "derive/src/gen.rs:196-232", "derive/src/gen.rs:273-289", "derive/src/gen.rs:368-387", "src/tcp.rs:66-67", "src/ipv4.rs:150-151", "src/icmpv6.rs:311"]}
{"id": "C93", "title": "The header of a mutable packet is a record", "statement": "After any sequence of calls on a mutable packet (setters of integers, addresses, bytes and lists of packets, and writes through payload_mut) that returns, the getter of every header field returns the value last passed to its setter, with integers reduced to the declared widths, or, if its setter was not called, what it returned before the sequence. The packet keeps its length. A sequence of setters of header fields never panics. Conversely the values of the header fields determine the header: if the getters of all header fields agree on two packets, the header bytes are the same.", "quantifier": "all 27 packet types outside quic.rs, all sequences of calls of any length, all values, all buffers that the constructor accepts, both build modes", "why_tests_cant": "Tests call each setter once on a fresh buffer. Interference between setters (a mask that clears bits of the next field, a list setter that writes over the header) shows only in some order of calls and for some values.", "anchors": ["derive/src/gen.rs:123-560", "derive/src/gen.rs:606-672", "derive/src/util.rs:385-430"]}
{"id": "C94", "title": "Index arithmetic in accessors never selects a wrong byte", "statement": "The generated getters and setters compute byte indices (packet[co + i]), ends of copies (current_offset + vals.len()) and loop positions (co += size) with usize additions that panic on overflow in debug builds and wrap in release builds. For every declaration, every getter and setter returns exactly what it would return with exact arithmetic; in particular a field whose offset lies outside the packet panics in release builds too, even if co + i wraps around to a valid index.", "quantifier": "all declarations, all field types, all offsets below 2^64 (also offsets that come from wrapped sums of lengths), all slices up to isize::MAX bytes, all values, both build modes", "why_tests_cant": "Wrapped indices need offsets near 2^64, which come from length fields of particular values in release builds only; a test that hits one sees a panic or a wrong byte in one case out of 2^64.", "anchors": ["derive/src/gen.rs:187-193", "derive/src/gen.rs:205-219", "derive/src/gen.rs:477-569", "derive/src/gen.rs:755-806"]}
{"id": "C95", "title": "The text of {:?} on a packet is unambiguous", "statement": "Every value that a getter of the crate's packets returns is printed by {:?} in the form of its field's type (integers in decimal, MacAddr as six hex pairs, Ipv4Addr dotted, types around an integer as Name(n), vectors in brackets, options as structs). Two packets of one type have the same {:?} text exactly when all their fields but the payload have the same values; so two packets with the same text have the same header bytes.", "quantifier": "all packet types of the crate, all pairs of buffers, Packets and MutablePackets, both build modes, the text of IPv6 addresses of the standard library and every other text that differs for different addresses and contains no comma, space, bracket or parenthesis", "why_tests_cant": "That no two of infinitely many packets print alike (e.g. a vector's text running into the next field's) is a statement about all pairs of buffers; snapshot tests compare a few texts.", "anchors": ["derive/src/gen.rs:722-753", "core/src/macaddr.rs:94-102", "core/src/macaddr.rs:160-164", "src/ipv4.rs:110-111", "src/ethernet.rs:113-114"]}
{"id": "C96", "title": "ExtensionIterable walks the IPv6 extension headers", "statement": "ExtensionIterable::new(payload) on the payload of an IPv6 packet (a chain of hop-by-hop, routing, fragment, authentication and destination options headers, then data) yields exactly the extension headers, in order: each item starts with its header, its next_header is the type of what follows, its packet_size() is the size of the header and its payload the rest of the header.", "quantifier": "all well-formed chains of any number of headers, all data after them, both build modes", "why_tests_cant": "Chains have any length and any mixture of header types and sizes; a test walks one or two of them, and that the walk runs on into the data after the chain only shows when a test looks at the number of items.", "anchors": ["src/ipv6.rs:34-38", "src/ipv6.rs:40-53", "derive/src/gen.rs:654-684"]}
{"id": "C97", "title": "A packet whose end is cut off keeps its header, size and the start of its payload", "statement": "When a packet is cut (a capture with a size limit) but its fixed part is left, packet_size() and the getters of all fields of fixed size return the same as on the whole packet. payload() returns, without panicking, the part of the whole payload that is left, and get_<field>_raw() of a vector the part of the vector that is left; it panics exactly when the packet is cut before the place of the vector.", "quantifier": "all packet types of the crate but QUIC packets and the TCP and IPv4 options, all buffers, all prefixes of them, all bytes after the header, both build modes", "why_tests_cant": "Every length of the prefix is a different case for every packet type and every header; tests cut a few packets at a few places.", "anchors": ["derive/src/gen.rs:63-71", "derive/src/gen.rs:104-160", "derive/src/gen.rs:571-592", "derive/src/gen.rs:630-652"]}
{"id": "C98", "title": "Writing the same thing twice is writing it once", "statement": "When a setter or populate() returns without panicking, calling it again with the same value on the result returns too and changes no byte. This holds also for values whose vectors are shorter or longer than the lengths in the header written with them say.", "quantifier": "all packet types of the crate but QUIC packets and frames, all buffers, all values, both build modes", "why_tests_cant": "populate() sets fields one after another, and the place of a field depends on lengths read from fields set before it; the second run starts from other lengths than the first. Tests cover a few values and start from zeroed buffers.", "anchors": ["derive/src/gen.rs:203-241", "derive/src/gen.rs:278-294", "derive/src/gen.rs:341-350", "derive/src/gen.rs:375-388", "derive/src/gen.rs:525-569"]}
{"id": "C99", "title": "QUIC frames can be populated", "statement": "populate() of a frame struct whose fields are the encodings required by RFC 9000 writes the bytes of the frame (type, fields, remaining) into a zeroed buffer of their size and does not panic.", "quantifier": "all frame types, all frames of each type, all bytes behind the frame, both build modes", "why_tests_cant": "The size of an integer field is taken from the byte that stands at its place before it is written; each of the 31 frame types has up to nine integers of four sizes, and lists of them.", "anchors": ["src/quic.rs:169-199", "src/quic.rs:620-838", "derive/src/gen.rs:203-241", "derive/src/gen.rs:375-388"]}
{"id": "C100", "title": "Indexing packet storage selects exactly the named bytes", "statement": "Indexing PacketData or MutPacketData with a position or a range (a..b, ..b, a.., ..) gives exactly the bytes at those positions, and panics exactly when the range does not lie within the data or ends before it starts. Writing through IndexMut changes those bytes and no others, keeps the length, and keeps the storage owned or borrowed; to_immutable keeps bytes, length and ownership.", "quantifier": "all storage of both kinds, all positions and ranges, all new bytes", "why_tests_cant": "Every accessor of every packet reads and writes through these impls, with positions computed from the packet; a test fixes a few of them.", "anchors": ["core/src/packet.rs:61-81", "core/src/packet.rs:91-116", "core/src/packet.rs:126-168"]}
{"id": "C101", "title": "The message of a failed MAC address parse tells the reason", "statement": "When parsing a text as MAC address fails, the Display text of the error says 'Invalid component ...' exactly when one of the first six components is not a hexadecimal u8, 'Too many components ...' exactly when the first six are and there are more, and 'Too few components ...' exactly when all are and there are fewer than six.", "quantifier": "all texts that do not parse", "why_tests_cant": "The loop checks the number of components and their contents alternately; which of several defects is reported depends on their order.", "anchors": ["core/src/macaddr.rs:166-192", "core/src/macaddr.rs:195-220"]}
{"id": "C102", "title": "Generated names do not collide", "statement": "For a declaration the macro accepts, whose fields have distinct names, all methods generated in the impl of the packet type have distinct names, and so have those of the mutable packet type; the types generated for distinct structs of a module have distinct names, different from the structs themselves.", "quantifier": "all accepted declarations, both packet types; all lists of struct names", "why_tests_cant": "A collision needs a particular pair of field names (or struct names); the repository's tests use a handful of declarations.", "anchors": ["derive/src/gen.rs:99-466", "derive/src/gen.rs:655-662", "derive/src/parse.rs:41-48"]}
{"id": "C103", "title": "A QUIC field that was set is read back", "statement": "Setting a field with a declared length of a QUIC packet or frame to a value as long as the field returns, the field is then read back as that value, and setting it again changes nothing. A shorter value replaces the first bytes of the field; a longer one makes the setter panic.", "quantifier": "all QUIC packet types and frame types of src/quic.rs, all their fields with a length, all buffers, all values, debug and release builds", "why_tests_cant": "Whether the field reads back depends on the first two bits of each integer in the value written; the repository has no test of QUIC setters.", "anchors": ["src/quic.rs:169-335", "src/quic.rs:620-840", "derive/src/gen.rs:176-232"]}
{"id": "C104", "title": "The documented attributes are accepted and mean what is documented", "statement": "As the documentation of the macro says: #[length_fn] may be used in place of #[length]; every packet has a #[payload], on a Vec<u8>, which needs a length unless it is the last field; #[length] is for fields of type Vec.", "quantifier": "all struct declarations; all buffers for the effect on packets", "why_tests_cant": "The tests show single declarations, none with length_fn, none with these attributes on integers.", "anchors": ["derive/src/lib.rs:26-40", "derive/src/lib.rs:82-143", "derive/src/parse.rs:68-215", "derive/src/gen.rs:104-126"]}
{"id": "C105", "title": "Setting a QUIC field leaves the other fields alone", "statement": "Setting a field with a declared length of a QUIC packet or frame leaves every other field, and the size of the packet, as it was.", "quantifier": "all QUIC packet types and frame types of src/quic.rs, all their fields with a length, all other fields, all buffers, all values, debug and release builds", "why_tests_cant": "Where the later fields begin depends on the values of earlier ones, so a write may move them; no test sets a QUIC field and reads another.", "anchors": ["src/quic.rs:169-335", "src/quic.rs:620-840", "derive/src/gen.rs:63-71", "derive/src/gen.rs:176-232"]}
{"id": "C106", "title": "A rewritten QUIC datagram is parsed into the same packets", "statement": "When QuicPacket::new parses a datagram and a field of bytes (connection id, token, packet number, frames) of its first packet is then set, QuicPacket::new parses the changed datagram into a packet of the same kind followed by the same packets. Likewise for Frame::new and the fields of the first frame that do not give a length.", "quantifier": "all datagrams and byte strings, all packet and frame types, all fields of bytes, all values the setter accepts, debug and release builds", "why_tests_cant": "Parsing follows the lengths of every packet; a test can only rewrite particular datagrams.", "anchors": ["src/quic.rs:14-49", "src/quic.rs:125-134", "src/quic.rs:490-536", "src/quic.rs:588-611", "derive/src/gen.rs:176-232"]}
{"id": "C107", "title": "MAC addresses are ordered as numbers, as bytes and as text", "statement": "The order of MacAddr (cmp, partial_cmp, <, <=, max, min) is the order of the 48-bit numbers the six bytes spell, highest byte first; it is also the dictionary order of the six bytes and of the texts written by Display. It is total, agrees with ==, and lies between zero() and broadcast().", "quantifier": "all pairs (and triples) of MAC addresses", "why_tests_cant": "There are 2^96 pairs of addresses.", "anchors": ["core/src/macaddr.rs:26-27", "core/src/macaddr.rs:94-102"]}
{"id": "C108", "title": "Checksums can be updated incrementally", "statement": "When a 16-bit word of the data changes, the incremental update of RFC 1624 turns the checksum util::checksum returned before into the one it returns afterwards, exactly if the new data (without the skipped word) is not all zero. So a router that changes the time to live of an IPv4 packet, and an address translator that changes addresses and ports of UDP and TCP packets over IPv4 and IPv6, may update the checksum fields with set_checksum and need not call the checksum functions again.", "quantifier": "all data up to 131074 bytes (packets up to 65535 bytes), all words, old and new values, addresses, ports, debug and release builds", "why_tests_cant": "One's complement has two zeros, so equality of the two ways to compute a checksum depends on sums over all words; tests only try particular packets.", "anchors": ["src/util.rs:73-178", "src/ipv4.rs:159-169", "src/udp.rs:27-126", "src/tcp.rs:237-290"]}
{"id": "C109", "title": "Length expressions keep their structure", "statement": "The macro copies a #[length = \"...\"] expression and puts calls of getters in the places of field names. The result is a Rust expression whose value is that of the original, with the values the getters return for the names of fields: operators keep their operands, precedence and parentheses stay as they were. This holds for all expressions of names, integers, parentheses, calls and method calls with any arguments, fields, casts, comparisons, one-character binary operators and conditionals in which no function, method or type has the name of a field, so for all documented expressions and for every length expression of the crate.", "quantifier": "all lists of field names, all such expressions of any size and depth, all meanings of names, integers, operators, calls and casts", "why_tests_cant": "Token substitution goes wrong only for particular combinations of operators, nesting and names; the tests use a handful of expressions.", "anchors": ["derive/src/parse.rs:224-283"]}
{"id": "C110", "title": "Byte order only changes how an integer is stored", "statement": "The setter of an integer field of any width, position and byte order changes the bits of that field and no others, and puts in each bit one fixed digit of the number; the getter reads the number from the same digits. For big-endian fields these are the digits from the highest on, for little-endian fields of whole bytes those of the usual little-endian order. Everything else the macro generates for a packet (sizes, payload, raw and vector accessors, positions of fields, populate, from_packet) is what it generates for the packet with big-endian integers of the same widths, applied to recoded values.", "quantifier": "every accepted declaration, every width from 1 to 64, every position in a byte, every byte order, all buffers and values, both build modes", "why_tests_cant": "The tables of masks and shifts differ for every width, position and byte order; tests use a few of the 1000 combinations.", "anchors": ["derive/src/util.rs:390-433 (operations)", "derive/src/util.rs:670-700 (to_mutator)", "derive/src/util.rs:1075-1100 (to_little_endian)", "derive/src/gen.rs: gen_accessor, gen_mutator"]}
{"id": "C111", "title": "Positions are sums of lengths", "statement": "In the generated code the position of a field is the number of whole bytes of the fixed-size fields before it plus the lengths of the variable-length fields before it, each length evaluated as a whole, whatever operators its expression contains, and converted to usize; the end of a payload with a length is its position plus that length. The expression has one reading only, and running it gives the positions that the model of the accessors uses.", "quantifier": "every list of fields, every length expression of the grammar, every position, every meaning of names, calls and operators", "why_tests_cant": "Precedence in assembled token streams only goes wrong for particular operators; the packets of the crate use few.", "anchors": ["derive/src/gen.rs:63-71 (current_offset)", "derive/src/gen.rs:100-124,362-364 (packet_impl)", "derive/src/parse.rs:113"]}
{"id": "C112", "title": "What ... stands for in a length expression", "statement": "In a length expression `...` stands for the bytes of the packet from the position of the field on.", "quantifier": "every length expression of the grammar, every position, every meaning of names, calls and operators", "why_tests_cant": "The crate writes `f(...)` and `(...).len()` only; that other places differ needs an argument about precedence.", "anchors": ["derive/src/gen.rs:102-107", "derive/src/parse.rs:105", "src/quic.rs:234,712"]}
{"id": "C113", "title": "What is sent with the crate arrives", "statement": "A program that stores the checksum of an ICMP, UDP or TCP segment in it, puts it into an IPv4 packet (with any options), stores the header checksum and writes the layers around it never panics, and a program that reads the frame with the crate, with any padding behind it, and compares both checksums accepts it and gets the same addresses and the same segment; likewise for ICMPv6, UDP and TCP in IPv6 packets. The receiver panics on no bytes. If at most 15 consecutive bits of an accepted IP packet are changed outside its header length (IPv4) or payload length (IPv6), the receiver rejects it or still gets the same addresses and segment; bursts in these lengths can make it accept another segment.", "quantifier": "every segment that `new` accepts, all addresses, header values, options, layers around IP and padding, every received byte string, every burst, both build profiles", "why_tests_cant": "It composes setters, populate, checksums and getters of four packet types with data of every length and all options; tests send a few packets.", "anchors": ["src/util.rs:73-150", "src/ipv4.rs:131-230", "src/ipv6.rs:15-32", "src/udp.rs:17-52,101-126", "src/tcp.rs:55-71,237-290", "src/icmp.rs:51-68", "src/icmpv6.rs:64-85"]}
{"id": "C114", "title": "The generated code computes the positions that the accessors use", "statement": "In every packet struct of the crate, the tokens that derive(Packet) generates for the position of a field, the length of a field and the end of a payload are Rust expressions with one reading each. Evaluated in a packet, with `self.get_x()` the getter of the field x, `self.packet[(n)..]` the bytes from n on and the functions of the crate, they give exactly the positions and lengths with which the accessors are described in all other properties, including every panic and every wrap-around.", "quantifier": "all 53 structs, every field, every buffer, both build profiles", "why_tests_cant": "It relates program text to behaviour for all buffers; a test sees the behaviour for a few.", "anchors": ["derive/src/gen.rs:63-71", "derive/src/gen.rs:100-124,362-364", "derive/src/parse.rs:86-115,222-270", "src/*.rs (#[length])"]}
{"id": "C115", "title": "Vector getters do not depend on how much the allocator reserves", "statement": "Getters of vectors of integers run their loop `vec.capacity()` times after `Vec::with_capacity(n)`. The standard library promises a capacity of at least n. For every such capacity the getters and from_packet return the same.", "quantifier": "all capacities that the standard library may choose, all declarations, all buffers, both build profiles", "why_tests_cant": "A test runs with the one library it was built with, which today reserves exactly what is asked for.", "anchors": ["derive/src/gen.rs:178-196"]}
{"id": "C116", "title": "The generated methods, run statement by statement, do what the accessors are described to do", "statement": "The bodies that derive(Packet) generates for getters and setters of integers, of user-defined types and of vectors, for raw slices, for payload() and payload_mut() for next() of iterators, and for populate, from_packet and packet_size of structs, executed statement by statement as Rust (variables, loops, slices, usize arithmetic with overflow, assert!, early return, capacities of vectors), return the values, leave the packets and fail exactly as the descriptions that all other properties use.", "quantifier": "every declaration, every field, every buffer and argument, every capacity reserved by the standard library, both build profiles", "why_tests_cant": "It relates program text to behaviour for all declarations; tests run the generated code of a few structs.", "anchors": ["derive/src/gen.rs:125-361", "derive/src/gen.rs:477-569", "derive/src/gen.rs:594-651", "derive/src/gen.rs:656-685"]}
{"id": "C117", "title": "Loops end as described, or run forever as described", "statement": "Every while loop of the crate and of the macro, and every for loop over a generated iterator, taken round by round without any bound on the number of rounds, ends with the value or the panic that the model's function for it gives, and runs forever exactly when that function says so; a loop has exactly one outcome.", "quantifier": "every buffer that a slice can hold, every packet type, every u32 and u64, both build profiles", "why_tests_cant": "Not ending cannot be observed by a test, and the model's functions have bounds on the number of rounds that the code does not have.", "anchors": ["src/util.rs:82-84", "src/util.rs:163-170", "src/quic.rs:16-47", "src/quic.rs:492-534", "derive/src/gen.rs:253-257", "derive/src/gen.rs:667-678", "derive/src/util.rs:127-131", "derive/src/util.rs:264-267", "derive/src/util.rs:658-661"]}
{"id": "C118", "title": "Integer accessors, from the struct as written to the value", "statement": "For every integer field of every struct of the crate: the position expression and the block of operations that the macro writes for its getter and setter, taken from the struct as written and read and run as Rust, give exactly what the model's getter and setter give, panics included. The same holds for the helper functions get_argN and set_argN of construct_with fields, called in order.", "quantifier": "every struct of the crate, every integer or construct_with field, every buffer that a slice can hold, every value of the argument's type, both build profiles", "why_tests_cant": "Tests run the compiled accessors on some packets; here text generation, parsing, arithmetic on positions and bit operations are composed for all packets.", "anchors": ["derive/src/gen.rs:63-71", "derive/src/gen.rs:99-131", "derive/src/gen.rs:293-361", "derive/src/gen.rs:477-569", "derive/src/gen.rs:755-806", "derive/src/util.rs:38-57", "derive/src/util.rs:149-185", "derive/src/parse.rs:222-270"]}
{"id": "C119", "title": "Helper functions use only what they are given", "statement": "In a struct that the macro accepts, the helper functions get_argN(_self) and set_argN(_self, val) of a construct_with field do not mention self, which Rust does not know inside them.", "quantifier": "every struct the macro accepts, every construct_with field and argument", "why_tests_cant": "The tests have no construct_with field after a field of variable length.", "anchors": ["derive/src/gen.rs:63-71", "derive/src/gen.rs:293-361", "derive/src/gen.rs:485-497", "derive/src/gen.rs:533-545", "derive/src/parse.rs:222-270"]}
{"id": "C120", "title": "Whole generated methods, from the struct as written to the result", "statement": "For every field of every struct of the crate: the body of its getter, setter, raw accessors and (for the payload) payload method, chosen by the type as written, with everything interpolated into it (position, length, blocks of operations, helper functions) as the macro writes it from the struct as written, run as Rust gives exactly what the model's accessor gives, panics included.", "quantifier": "every struct of the crate, every field, every buffer that a slice can hold, every value of the Rust type of the setter's argument, both build profiles", "why_tests_cant": "Tests run some compiled accessors on some packets; here the choice of the body, the tokens, the texts and the statements are composed for all packets.", "anchors": ["derive/src/gen.rs:63-71", "derive/src/gen.rs:99-364", "derive/src/gen.rs:477-569", "derive/src/gen.rs:630-660", "derive/src/parse.rs:177-181", "derive/src/parse.rs:272-293"]}
{"id": "C121", "title": "populate, from_packet and the sizes, from the struct as written to the result", "statement": "For every struct of the crate: the calls that the macro writes into populate and from_packet, resolved by name, with the called setters and getters run as Rust from the struct as written, give exactly the packet and the plain struct of the model, panics included and in the same order. minimum_packet_size(), the expression in packet_size() and the summands of packet_size(&s), as written, have the model's values.", "quantifier": "every struct of the crate, every buffer that a slice can hold, every plain struct of the Rust types, both build profiles", "why_tests_cant": "Tests populate and read some packets; here the whole path from the declaration to the result is composed for all packets.", "anchors": ["derive/src/gen.rs:365-395", "derive/src/gen.rs:447-458", "derive/src/gen.rs:468-472", "derive/src/gen.rs:571-592", "derive/src/gen.rs:687-720", "derive/src/parse.rs:184-186"]}
{"id": "C122", "title": "A call that panics changes nothing outside its field", "statement": "A generated setter that panics (the buffer of a mutable packet is still there: it is borrowed, or the packet is used again after catch_unwind) has changed nothing outside the bytes of its field, and the buffer has its length. For populate: the length.", "quantifier": "every declaration the macro accepts, packets nested to any depth, every buffer, every value, both build profiles, every way the call can end", "why_tests_cant": "Tests stop at a panic; what is left in the buffer is not looked at.", "anchors": ["derive/src/gen.rs:196-232", "derive/src/gen.rs:273-289", "derive/src/gen.rs:336-349", "derive/src/gen.rs:365-387", "derive/src/gen.rs:525-569", "derive/src/gen.rs:755-768"]}
{"id": "C123", "title": "The header survives caught panics", "statement": "After any sequence of calls of setters (of integers, addresses and lists) and writes to the payload, each of which may panic with the panic caught, every header getter returns the value last given to its setter, reduced to the width of the field, or what it returned at the beginning if its setter was not called. The length of the packet is the same. A populate that panics has stored all header fields of the struct.", "quantifier": "every packet type declared in the crate, every buffer accepted by new, every sequence of calls with values of the Rust types, both build profiles", "why_tests_cant": "A sequence of calls with caught panics has unboundedly many forms; tests have no caught panics.", "anchors": ["derive/src/gen.rs:128", "derive/src/gen.rs:196-232", "derive/src/gen.rs:273-289", "derive/src/gen.rs:336-349", "derive/src/gen.rs:629-672"]}
{"id": "C124", "title": "What the generated statements leave behind when they panic", "statement": "Run statement by statement as Rust does, and stopped at the statement that panics, the generated body of every setter leaves exactly the bytes that C122 and C123 speak of, and ends in the same way. The same for populate, which calls the setters in the order of the struct. An integer, or a vector of integers, that runs past the end of the buffer leaves there what the same write leaves in that part of a longer buffer.", "quantifier": "every declaration the macro accepts with fewer than 2^64 bits of fixed fields, packets nested to any depth, every buffer, every value of the type of the field, both build profiles", "why_tests_cant": "Where in a method a panic happens depends on all bytes and the argument; tests do not look at the buffer after a panic.", "anchors": ["derive/src/gen.rs:196-232", "derive/src/gen.rs:273-289", "derive/src/gen.rs:336-349", "derive/src/gen.rs:365-387", "derive/src/gen.rs:538-567"]}
{"id": "C125", "title": "The structs of the documentation", "statement": "The macro accepts the struct Example of the documentation of the derive crate and the struct MyProtocol of docs/using_packet.md. new takes them from 2 and from 3 bytes on. Example has 4 bits and then 12 bits with the highest first, MyProtocol one byte for MyProtocolField and two bytes with the highest first; all the remaining bytes are the payload. A setter reduces its value to the width of the field and keeps all other bits. populate writes the fields and the payload, keeps the bytes after them, and panics if they do not fit; packet_size of the struct is the number of bytes it writes.", "quantifier": "every buffer, every value, every payload, both build profiles", "why_tests_cant": "The examples are compiled by rustdoc at most; nothing runs their getters and setters.", "anchors": ["derive/src/lib.rs:16-42", "docs/using_packet.md:120-165"]}
{"id": "C126", "title": "How many getters a getter calls", "statement": "The generated getters find the position and the length of their field by calling other getters. Reading one field calls, directly and through other getters, at most as many getters as the square of the number of fields of the struct.", "quantifier": "every struct the macro accepts whose lengths use earlier fields only, every field, every packet", "why_tests_cant": "The result of a getter does not show how many others it called; tests use packets of two or three variable fields, where the number is small.", "anchors": ["derive/src/gen.rs:63-124", "derive/src/gen.rs:125-361", "derive/src/gen.rs:643-650", "src/quic.rs:217-245"]}
{"id": "C127", "title": "The size of the generated positions", "statement": "The expression that the macro writes for the position of a field has at most as many tokens as the square of the size of the struct (its fields and the tokens of their lengths).", "quantifier": "every struct the macro accepts, every field", "why_tests_cant": "Tests see what the generated code computes, not how much of it there is.", "anchors": ["derive/src/gen.rs:63-124", "src/quic.rs:635-651"]}
{"id": "C128", "title": "The packets of a datagram do not depend on those behind them", "statement": "If a datagram is parsed into several QUIC packets and the bytes from one of them on are replaced by other bytes, the packets before it are reported again with the same version, connection ids, token, packet number and frames, followed by what QuicPacket::new reports for the new bytes alone. In particular, setting a field of bytes of one packet leaves the packets before and behind it as they are.", "quantifier": "every datagram that is parsed, every packet in it, every replacement of the bytes from it on (of any length), both build modes", "why_tests_cant": "Each packet is a slice up to the end of the datagram, so a getter can read into the next packet; tests with one packet, or with one fixed second packet, do not see it.", "anchors": ["src/quic.rs:14-49", "src/quic.rs:51-134"]}
{"id": "C129", "title": "The frames of joined payloads", "statement": "If Frame::new parses the bytes a into frames, then it finds in a followed by b the same frames, with the same fields, and behind them what it finds in b alone, where a Padding that meets a Padding becomes one with the sum of the counters; if it gives up or panics on b, it does so on both together. The exception are STREAM frames without a length: if one ends a, b becomes the rest of its data. Conversely, the bytes before a reported frame are parsed on their own into the frames before it, so setting a field of bytes of any frame keeps all others.", "quantifier": "all bytes a that are parsed, all bytes b, both build modes", "why_tests_cant": "Every frame is a slice up to the end of the payload, and the result depends on what the frames on both sides of the boundary are; tests use fixed payloads.", "anchors": ["src/quic.rs:485-536", "src/quic.rs:563-611"]}
{"id": "C130", "title": "Iterating over packets behind each other", "statement": "For complete packets p1, ..., pn of a type (each as long as its packet_size()) and any bytes b, iterating over p1 ... pn b yields the n packets, each at its start, and then what iterating over b yields; collecting their values gives from_packet of each pi alone, and then the values of b, or the panic of b. In particular get_options of a TCP or IPv4 header returns the values of the options that its bytes consist of.", "quantifier": "every struct whose variable-length fields all have a #[length] of earlier fields (all element types of vectors in the crate), any number of packets, all bytes behind them, both build modes", "why_tests_cant": "An iterator gives each packet the whole rest of the bytes, so its values could depend on what follows; tests use a few fixed lists of options.", "anchors": ["derive/src/gen.rs:253-257", "derive/src/gen.rs:656-684", "src/tcp.rs:66-67", "src/ipv4.rs:150-151"]}
{"id": "C131", "title": "QUIC packets and frames written with the crate are found again", "statement": "Frames written with populate (the last one first, each with those behind it in its field remaining) give the bytes of the frames one after the other if all their variable-length integers take one byte; otherwise writing panics. Frame::new of these bytes finds the frames, runs of padding as one, and their accessors return the fields that were written. An Initial, 0-RTT or Handshake packet with these bytes as its payload, populated before the bytes of other packets, is found by QuicPacket::new as the first packet, before those of the other bytes; its accessors return what was written and frames() the payload in which the frames are found. A 1-RTT packet is found as the only packet.", "quantifier": "any list of frames of the known types with any fields (only the last one may be a STREAM frame without length), all headers whose variable-length integers take one byte, all bytes behind the packet, both build modes", "why_tests_cant": "The crate has no test that writes frames or a packet that contains some; any number of frames in any order may be combined.", "anchors": ["src/quic.rs:14-49", "src/quic.rs:216-299", "src/quic.rs:485-536", "derive/src/gen.rs:362-386"]}
{"id": "C132", "title": "Whole QUIC datagrams written with the crate are read again", "statement": "Any number of Initial, 0-RTT and Handshake packets with any frames, followed by nothing, a 1-RTT packet with frames, a Retry or a Version Negotiation packet, are written with populate, last packet first, each with the packets behind it in its field remaining. The result is the bytes that RFC 9000 gives for the packets, one after the other, if all variable-length integers in packets and frames take one byte; otherwise writing panics. QuicPacket::new of these bytes (whether integers take one byte or more) returns exactly these packets in order, each with all bytes from its start on; their accessors return the fields, and Frame::new of each payload finds its frames, runs of padding as one.", "quantifier": "all lists of packets and frames whose fields fit, all build modes", "why_tests_cant": "Datagrams have any number of packets with any number of frames; the crate's tests read fixed captures and write none.", "anchors": ["src/quic.rs:13-135", "src/quic.rs:201-344", "src/quic.rs:485-536", "derive/src/gen.rs:362-386"]}
{"id": "C133", "title": "QUIC datagrams sent over UDP and IP with the crate arrive", "statement": "A QUIC datagram (any packets and frames whose variable-length integers take one byte; the others cannot be written, C132) is written with the crate, put into a UdpPacket, and that into an Ipv4Packet or Ipv6Packet with both checksums, in any layers of other packets such as Ethernet. A receiver that takes these apart with the crate and checks the checksums gets the addresses, the ports, and exactly these QUIC packets with their fields and frames. If at most 15 consecutive bits of the IP packet are changed (not the IHL, respectively the payload length), the receiver gets nothing or the same. On any bytes the receiver returns or panics. It panics exactly if the checksums are right and the data consists of whole packets, maybe none, and at least 7 bytes behind them that begin like an Initial, 0-RTT or Handshake packet but are none; this happens, with a datagram of 35 bytes.", "quantifier": "all datagrams, ports, addresses, headers and layers that fit, all bursts, all received bytes, all build modes", "why_tests_cant": "It joins five parts of the crate; the crate's tests cover each alone on single captures, none writes QUIC, and none damages a packet.", "anchors": ["src/quic.rs:13-135", "src/udp.rs:17-125", "src/ipv4.rs:133-165", "src/ipv6.rs:17-31", "src/util.rs:73-160", "derive/src/gen.rs:362-386"]}
{"id": "C134", "title": "Readers of nested headers never panic", "statement": "A program goes down through the headers of a frame: it wraps the bytes with new() of a packet type, calls the getters of all fields of fixed size at its start, decides from all headers read so far what the payload is, and goes on with payload(). Whatever it decides among 21 packet types (Ethernet, VLAN, ARP, IPv4, IPv6 and its extension headers, UDP, TCP, ICMP, ICMPv6, neighbour discovery), and whatever the bytes: it ends without a panic, with the same result in both builds; the headers lie inside each other, each behind the fields of the one before; their fields are the numbers at their bits; there are at most half as many headers as bytes; it ends because it decides to, or because too few bytes are left. GRE cannot be added: with the routing bit set the program panics.", "quantifier": "all decision functions, all bytes, all build modes", "why_tests_cant": "The decision function is arbitrary and the nesting has no bound; tests run a few captures through a few fixed types.", "anchors": ["derive/src/gen.rs:362-386", "derive/src/gen.rs:410-440", "src/ethernet.rs:13-24", "src/ipv4.rs:133-160", "src/ipv6.rs:17-31", "src/udp.rs:17-25", "src/tcp.rs:55-71", "src/gre.rs"]}
{"id": "C135", "title": "Routers written with the crate", "statement": "An IPv4 router checks the header checksum, drops the packet if its time to live is 0 or 1, and otherwise calls set_ttl(get_ttl() - 1) and set_checksum(checksum(..)). It never panics, whatever the bytes. It forwards exactly the packets with a complete header that holds its checksum and a time to live of at least 2; only the time to live, one less, and the checksum, which is right again, change, and an ICMP, UDP or TCP receiver gets the same as before. An IPv6 router does the same with the hop limit, without a checksum. Through any number of routers less than its time to live a packet that a receiver accepts arrives with the same addresses and data; as many routers as its time to live, and at least one, drop it, so any 255 routers drop every packet.", "quantifier": "all packets, numbers of routers, receivers and build modes", "why_tests_cant": "Tests compute the checksum of single packets; paths of any length and arbitrary bytes are out of their reach.", "anchors": ["derive/src/gen.rs:525-560", "src/ipv4.rs:133-169", "src/ipv6.rs:17-31", "src/util.rs:73-87", "src/util.rs:155-175"]}
{"id": "C136", "title": "Address translation written with the crate", "statement": "A translator checks a UDP or TCP packet over IPv4 as a receiver does (header checksum, protocol, segment checksum), replaces the source port with set_source, computes the segment's checksum for the new source address, copies the segment back through payload_mut(), replaces the source address with set_source and stores the header checksum anew. It never panics, whatever the bytes, and drops exactly the packets a receiver does not accept. A packet it passes is accepted with the new source address, the old destination and the new source port, and differs from the one that came only in the header checksum, the source address, the source port and the segment's checksum, so the data, the options and bytes behind the segment are the same. Translating it again to the old source address and port gives exactly the packet that came.", "quantifier": "all packets, addresses, ports, UDP and TCP, and build modes", "why_tests_cant": "Tests write single fields; that a rewrite in several layers can be undone exactly, for arbitrary options, data and trailing bytes, is out of their reach.", "anchors": ["derive/src/gen.rs:525-560", "derive/src/gen.rs:634-651", "src/ipv4.rs:133-169", "src/udp.rs:15-52", "src/util.rs:73-120", "src/util.rs:155-178"]}
{"id": "C137", "title": "Packets sent back keep their checksums", "statement": "A program checks a UDP or TCP packet over IPv4 as a receiver does and sends it back: it exchanges the ports and the addresses with set_source and set_destination and copies the segment back through payload_mut(), without computing a checksum. It never panics, whatever the bytes, and drops exactly the packets a receiver does not accept. What it sends is accepted, from the old destination to the old source, with the ports exchanged: the header checksum and the segment's checksum are still right. All bytes but those of the ports and addresses are the same, and a packet sent back twice is the packet that came.", "quantifier": "all packets, UDP and TCP, and build modes", "why_tests_cant": "That the checksum functions do not depend on the order of the addresses and ports is a statement about all pairs of packets; tests compute the checksum of single ones.", "anchors": ["derive/src/gen.rs:525-560", "derive/src/gen.rs:634-651", "src/ipv4.rs:133-169", "src/udp.rs:15-52", "src/util.rs:73-120", "src/util.rs:155-178"]}
{"id": "C138", "title": "Answers to echo requests", "statement": "A program checks an ICMP message over IPv4 as a receiver does; if its type is 8, it calls set_icmp_type(EchoReply) and set_checksum(checksum(..)), copies the message back through payload_mut() and exchanges the addresses. It never panics, whatever the bytes, and answers exactly the accepted echo requests. The answer is accepted by the receiver, goes from the old destination to the old source and has type 0; it differs from the packet that came only in the addresses, the type and the message's checksum, so identifier, sequence number, data, IP options and bytes behind the message are the same and the header checksum, which is not computed anew, is right. An answer is not answered. Over routers (C135), as many there and back as the time to live allows, the sender of a request still accepts a reply from the host with identifier, sequence number and data as sent.", "quantifier": "all packets and build modes", "why_tests_cant": "Tests build single ICMP packets; arbitrary messages, options and trailing bytes, and the header checksum under exchanged addresses, are out of their reach.", "anchors": ["derive/src/gen.rs:525-560", "derive/src/gen.rs:634-651", "src/ipv4.rs:133-169", "src/icmp.rs:13-67", "src/util.rs:73-87", "src/util.rs:155-178"]}
{"id": "C139", "title": "Answers to ARP requests", "statement": "A program reads the type of an Ethernet frame and, if it is 0x0806, the ARP packet in its payload with the getters; if the operation is Request and the target address is its own, it calls the setters of the operation and of the four addresses, copies the packet back through payload_mut() and sets the addresses of the frame. It never panics, whatever the bytes; frames shorter than 42 bytes and frames of other types are ignored, and exactly the requests for its address are answered. A reader of the answer sees operation Reply, the program's addresses as sender, the asker's as target, the frame going from the program to the asker's frame address, and the other four fields as they were; the length and the padding behind the ARP packet are those of the request. No such program answers an answer.", "quantifier": "all frames, addresses of the program and build modes", "why_tests_cant": "The crate has no test of ARP packets, and a test could only answer single frames; arbitrary frames, paddings and addresses are out of reach.", "anchors": ["derive/src/gen.rs:525-560", "derive/src/gen.rs:634-651", "src/arp.rs:74-101", "src/ethernet.rs:14-25"]}
{"id": "C140", "title": "VLAN tags put on and taken off", "statement": "A program tags an Ethernet frame: it reads addresses, type and payload with the getters, populates a Vlan packet with the tag, the type and the payload, and an Ethernet packet of type 0x8100 around it. The result is the frame with the four bytes 0x81, 0x00 and priority, indicator and identifier (reduced to their widths) inserted after the addresses; frames shorter than 14 bytes are refused. Taking a tag off succeeds exactly for frames of at least 18 bytes with type 0x8100, and removes these four bytes. Each undoes the other, and any number of tags comes off in the opposite order. Neither panics, whatever the bytes.", "quantifier": "all frames, tags, numbers of tags and build modes", "why_tests_cant": "The crate's VLAN test builds one header; arbitrary frames, all values of the 3-, 1- and 12-bit fields and stacks of tags are out of its reach.", "anchors": ["src/vlan.rs:56-67", "src/ethernet.rs:14-25", "derive/src/gen.rs:365-386"]}
{"id": "C141", "title": "IPv4 fragments", "statement": "A program cuts an IPv4 packet: it takes the header's bytes and pieces of payload() of 8w bytes, and calls set_total_length, set_flags, set_fragment_offset and set_checksum(checksum(..)) on each fragment. It never panics, whatever the bytes; exactly the packets with complete header, right header checksum, no flags and offset 0 are cut. There are as many fragments as pieces, at least one. Each holds its checksum, its length and its piece of the payload at eight times its offset, and all but the last say that more follow; version, header length, DSCP, ECN, identification, time to live, protocol, addresses and the bytes of the options are those of the packet, and no fragment is longer than header and 8w bytes. A second program reads fragments with the getters and writes their payloads to their places once all bytes up to the end of the last one have come. From fragments of one packet, in any order, missing or repeated, it makes nothing or the packet's payload, and the payload if none is missing. So too if each fragment arrives over routers (C135), each over any number of them.", "quantifier": "all packets, sizes of fragments, orders, losses, repetitions and build modes", "why_tests_cant": "The tests write single IPv4 headers; they never read what another set of setters wrote at shared bytes (flags and offset share byte 6), and no number of examples covers all orders and losses.", "anchors": ["src/ipv4.rs:131-155", "src/ipv4.rs:157-169", "src/ipv4.rs:228-230", "derive/src/gen.rs:525-560", "src/util.rs:73-87"]}
{"id": "C142", "title": "Traceroute", "statement": "A packet goes over a list of routers, each of which checks checksum(..), lowers the time to live and writes the checksum anew, or, if the time to live does not allow it, answers an ICMP time exceeded message written with TimeExceeded and populate(), carrying the header of the packet and eight more bytes. It never panics, whatever the bytes. A packet with complete header and right checksum whose time to live is more than the number of routers arrives, the time to live less by that number, the checksum right and all other bytes as sent. If not, the router at the place that the time to live counts answers, and the sender reads from the answer, with IPv4, ICMP and time exceeded getters and payload(), the address of that router, its own address and the bytes of its packet up to eight behind the header, but for time to live and checksum. Other bytes are dropped by the first router and never answered. So a sender that writes the times to live 1, 2, 3 and so on into any packet of 20 or more bytes, with set_ttl and set_checksum, until no answer comes, finds the addresses of the routers, all of the first 255, in their order and no others.", "quantifier": "all packets, lists of routers and build modes", "why_tests_cant": "The tests never write a time exceeded message nor read one back, and no number of examples covers all packets, times to live and paths.", "anchors": ["src/icmp.rs:393-404", "src/ipv4.rs:131-155", "src/ipv4.rs:157-169", "src/ipv4.rs:228-230", "derive/src/gen.rs:375-384", "src/util.rs:73-87"]}
{"id": "C143", "title": "GRE tunnels", "statement": "A program writes a GRE header with any of checksum (and the word behind it), key and sequence number before any bytes with populate(). A second program reads it with new(), the routing bit, packet_size(), the getters of the optional vectors and payload(). Whatever the bytes, the second never panics: it takes exactly those with the four fixed bytes, no routing and the bytes that the flags announce, reads each number from its RFC 2890 position and hands on the rest. If the numbers fit their fields, what goes in comes out, header and bytes, in a buffer of exactly the header's size and the bytes; and so for any number of tunnels in tunnels. Conversely, what came out, put in again with the header read, gives the same bytes, if source route, recursion, reserved and version bits were zero. Over IPv4 (protocol 47), with total length, flags, offset and checksum written by the setters into any outer header, what goes in comes out behind any number of routers (C135) below the outer time to live, and the receiver never panics, whatever the bytes.", "quantifier": "all headers, contents, numbers of nested tunnels, byte strings and build modes", "why_tests_cant": "The crate's GRE tests write one header without and one with a checksum of zero; the other combinations of the optional vectors, the nesting and hostile bytes are not tried.", "anchors": ["src/gre.rs:37-60", "src/gre.rs:62-78", "derive/src/gen.rs:375-384", "derive/src/gen.rs:571-592"]}
