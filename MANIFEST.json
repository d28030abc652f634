{
 "claims": [
  {
   "property": "C01",
   "status": "proved",
   "theorems": [
    "Verif.Props.C01_big_endian_getter",
    "Verif.Props.C01_getter_depends_only_on_field"
   ],
   "note": ""
  },
  {
   "property": "C02",
   "status": "proved",
   "theorems": [
    "Verif.Props.C02_set_then_get",
    "Verif.Props.C02_declared_set_then_get"
   ],
   "note": ""
  },
  {
   "property": "C03",
   "status": "proved",
   "theorems": [
    "Verif.Props.C03_setter_frame",
    "Verif.Props.C03_declared_setter"
   ],
   "note": ""
  },
  {
   "property": "C04",
   "status": "partial",
   "theorems": [
    "Verif.Props.C04_false",
    "Verif.Props.C04_little_endian_partial",
    "Verif.Props.C04_unfaithful",
    "Verif.Props.C04_whole_bytes_partial",
    "Verif.Props.C04_whole_bytes_store_partial"
   ],
   "note": "False of the code (C04_false: u9le). The widths and positions for which it holds are proved exactly (C04_little_endian_partial, C04_unfaithful)."
  },
  {
   "property": "C05",
   "status": "partial",
   "theorems": [
    "Verif.Props.C05_false",
    "Verif.Props.C05_accepted_partial"
   ],
   "note": "False of the code (C05_false: u4 at bit 5 is rejected). The accepted positions are characterised exactly."
  },
  {
   "property": "C06",
   "status": "proved",
   "theorems": [
    "Verif.Props.C06_new_iff",
    "Verif.Props.C06_minimum_packet_size",
    "Verif.Props.C06_new_bytes"
   ],
   "note": ""
  },
  {
   "property": "C07",
   "status": "proved",
   "theorems": [
    "Verif.Props.C07_fixed_getters_total",
    "Verif.Props.C07_fixed_getter_value"
   ],
   "note": ""
  },
  {
   "property": "C08",
   "status": "proved",
   "theorems": [
    "Verif.Props.C08_payload_total",
    "Verif.Props.C08_no_payload",
    "Verif.Props.C08_length_fails"
   ],
   "note": ""
  },
  {
   "property": "C09",
   "status": "proved",
   "theorems": [
    "Verif.Props.C09_open_payloads",
    "Verif.Props.C09_empty_payloads",
    "Verif.Props.C09_tcp",
    "Verif.Props.C09_ipv4",
    "Verif.Props.C09_ipv6",
    "Verif.Props.C09_extension",
    "Verif.Props.C09_routing",
    "Verif.Props.C09_payload_never_panics",
    "Verif.Props.C09_one_rtt"
   ],
   "note": ""
  },
  {
   "property": "C10",
   "status": "partial",
   "theorems": [
    "Verif.Props.C10_false",
    "Verif.Props.C10_more_panics",
    "Verif.Props.C10_first_variable_field_partial",
    "Verif.Props.C10_raw_getter_partial",
    "Verif.Props.C10_bytes_getter_partial"
   ],
   "note": "False of the code (C10_false: GRE, TCP, IPv4 and option getters panic past the end). C10_raw_getter_partial gives the exact condition for every declaration."
  },
  {
   "property": "C11",
   "status": "partial",
   "theorems": [
    "Verif.Props.C11_false",
    "Verif.Props.C11_one_vector_partial",
    "Verif.Props.C11_tcp_exact_partial",
    "Verif.Props.C11_ipv4_exact_partial"
   ],
   "note": "False for TCP and IPv4 (C11_false). Exact condition proved for both; proved for the other types."
  },
  {
   "property": "C12",
   "status": "partial",
   "theorems": [
    "Verif.Props.C12_false",
    "Verif.Props.C12_byte_orders_partial",
    "Verif.Props.C12_populate_from_packet_partial",
    "Verif.Props.C12_inner_packets_lawful",
    "Verif.Props.C12_norm_id"
   ],
   "note": "False of all accepted declarations (C12_false: u9le; also vectors of u16be, see C19). Proved for declarations with vectors of bytes or packets on byte boundaries, big-endian (C12_populate_from_packet_partial) or of any byte order with a place for every digit (C12_byte_orders_partial)."
  },
  {
   "property": "C13",
   "status": "partial",
   "theorems": [
    "Verif.Props.C13_false",
    "Verif.Props.C13_byte_orders_partial",
    "Verif.Props.C13_populate_writes_encoding_partial"
   ],
   "note": "False of all accepted declarations (C13_false: a vector behind a u4 overwrites it). Proved for vectors of bytes or packets on byte boundaries, big-endian (C13_populate_writes_encoding_partial) or of any byte order (C13_byte_orders_partial)."
  },
  {
   "property": "C14",
   "status": "partial",
   "theorems": [
    "Verif.Props.C14_false",
    "Verif.Props.C14_static_size_partial",
    "Verif.Props.C14_exact"
   ],
   "note": "False of the code (C14_false: elements of Vec<packet> are counted, not their bytes). Proved for structs without nested packets."
  },
  {
   "property": "C15",
   "status": "partial",
   "theorems": [
    "Verif.Props.C15_quic_packets",
    "Verif.Props.C15_quic_frames",
    "Verif.Props.C15_quic_getters_end",
    "Verif.Props.C15_false",
    "Verif.Props.C15_false_wrap",
    "Verif.Props.C15_terminates_partial",
    "Verif.Props.C15_crate",
    "Verif.Props.C15_crate_getters_end"
   ],
   "note": "False for declarations with less than 8 fixed bits (C15_false) and by wrap-around in release builds (C15_false_wrap). Proved for all other declarations and all types of the crate (C15_crate; C15_quic_packets, C15_quic_frames, C15_quic_getters_end)."
  },
  {
   "property": "C16",
   "status": "proved",
   "theorems": [
    "Verif.Props.C16_iterators_tile"
   ],
   "note": ""
  },
  {
   "property": "C17",
   "status": "partial",
   "theorems": [
    "Verif.Props.C17_tcp_options_raw",
    "Verif.Props.C17_ipv4_options_raw",
    "Verif.Props.C17_false",
    "Verif.Props.C17_ipv4_false",
    "Verif.Props.C17_tcp_get_options_partial",
    "Verif.Props.C17_ipv4_get_options_partial",
    "Verif.Props.C17_unreadable_iff",
    "Verif.Props.C17_iterate_and_format"
   ],
   "note": "False of the code (C17_false: an option cut off after its kind byte). Exact condition proved (C17_unreadable_iff)."
  },
  {
   "property": "C18",
   "status": "proved",
   "theorems": [
    "Verif.Props.C18_tcp_options",
    "Verif.Props.C18_ipv4_options"
   ],
   "note": ""
  },
  {
   "property": "C19",
   "status": "partial",
   "theorems": [
    "Verif.Props.C19_false",
    "Verif.Props.C19_exact_partial"
   ],
   "note": "False of the code (C19_false); C19_exact_partial shows every non-empty field panics."
  },
  {
   "property": "C20",
   "status": "partial",
   "theorems": [
    "Verif.Props.C20_quic",
    "Verif.Props.C20_false",
    "Verif.Props.C20_bytes_partial",
    "Verif.Props.C20_packets_partial",
    "Verif.Props.C20_inner_confined",
    "Verif.Props.C20_crate"
   ],
   "note": "False for Vec<u16be> (C20_false). Proved for Vec<u8>, Vec<packet>, and all setters of the crate (C20_crate, C20_quic)."
  },
  {
   "property": "C21",
   "status": "proved",
   "theorems": [
    "Verif.Props.C21_clone_from"
   ],
   "note": ""
  },
  {
   "property": "C22",
   "status": "proved",
   "theorems": [
    "Verif.Props.C22_ignores_skip_word",
    "Verif.Props.C22_ignores_skip_word_pseudo",
    "Verif.Props.C22_packets"
   ],
   "note": ""
  },
  {
   "property": "C23",
   "status": "proved",
   "theorems": [
    "Verif.Props.C23_rfc1071",
    "Verif.Props.C23_empty"
   ],
   "note": ""
  },
  {
   "property": "C24",
   "status": "proved",
   "theorems": [
    "Verif.Props.C24_stored_checksum_verifies",
    "Verif.Props.C24_ipv4_header_verifies"
   ],
   "note": ""
  },
  {
   "property": "C25",
   "status": "proved",
   "theorems": [
    "Verif.Props.C25_folding"
   ],
   "note": ""
  },
  {
   "property": "C26",
   "status": "proved",
   "theorems": [
    "Verif.Props.C26_pseudo_header"
   ],
   "note": ""
  },
  {
   "property": "C27",
   "status": "partial",
   "theorems": [
    "Verif.Props.C27_false",
    "Verif.Props.C27_extra_exact",
    "Verif.Props.C27_extra_even_partial"
   ],
   "note": "False for extra data of odd length (C27_false); exact value proved (C27_extra_exact)."
  },
  {
   "property": "C28",
   "status": "partial",
   "theorems": [
    "Verif.Props.C28_exact",
    "Verif.Props.C28_false",
    "Verif.Props.C28_no_overflow_partial",
    "Verif.Props.C28_release_wrong"
   ],
   "note": "False beyond 131074 bytes (C28_false, C28_release_wrong); exact condition proved (C28_exact)."
  },
  {
   "property": "C29",
   "status": "proved",
   "theorems": [
    "Verif.Props.C29_ipv4_header_checksum"
   ],
   "note": ""
  },
  {
   "property": "C30",
   "status": "partial",
   "theorems": [
    "Verif.Props.C30_false",
    "Verif.Props.C30_payload_within_total_length_partial",
    "Verif.Props.C30_payload_length",
    "Verif.Props.C30_packet_size"
   ],
   "note": "False for header lengths below 5 (C30_false); proved for the others, exact payload length for all (C30_payload_length)."
  },
  {
   "property": "C31",
   "status": "proved",
   "theorems": [
    "Verif.Props.C31_tcp_partition"
   ],
   "note": ""
  },
  {
   "property": "C32",
   "status": "partial",
   "theorems": [
    "Verif.Props.C32_wf_option_reads_back",
    "Verif.Props.C32_constructors",
    "Verif.Props.C32_false",
    "Verif.Props.C32_selective_ack_partial",
    "Verif.Props.C32_selective_ack_length"
   ],
   "note": "False for selective_ack with 64 or more acknowledgements (C32_false); proved for all other constructor arguments."
  },
  {
   "property": "C33",
   "status": "proved",
   "theorems": [
    "Verif.Props.C33_readers",
    "Verif.Props.C33_set_fragment_offset",
    "Verif.Props.C33_set_last_fragment"
   ],
   "note": ""
  },
  {
   "property": "C34",
   "status": "partial",
   "theorems": [
    "Verif.Props.C34_false",
    "Verif.Props.C34_exact",
    "Verif.Props.C34_reserved_clear_partial"
   ],
   "note": "False of the code (C34_false: the fragment offset mask); exact values proved."
  },
  {
   "property": "C35",
   "status": "proved",
   "theorems": [
    "Verif.Props.C35_sizes",
    "Verif.Props.C35_iterator_step",
    "Verif.Props.C35_chain"
   ],
   "note": ""
  },
  {
   "property": "C36",
   "status": "partial",
   "theorems": [
    "Verif.Props.C36_false",
    "Verif.Props.C36_exact",
    "Verif.Props.C36_short_options_partial"
   ],
   "note": "False for length bytes 32 to 255 (C36_false); exact result for every length byte in both build modes (C36_exact)."
  },
  {
   "property": "C37",
   "status": "proved",
   "theorems": [
    "Verif.Props.C37_gre_positions",
    "Verif.Props.C37_routing_panics"
   ],
   "note": ""
  },
  {
   "property": "C38",
   "status": "proved",
   "theorems": [
    "Verif.Props.C38_round_trip",
    "Verif.Props.C38_display_injective"
   ],
   "note": ""
  },
  {
   "property": "C39",
   "status": "proved",
   "theorems": [
    "Verif.Props.C39_components_unique",
    "Verif.Props.C39_parse",
    "Verif.Props.C39_success_iff"
   ],
   "note": ""
  },
  {
   "property": "C40",
   "status": "proved",
   "theorems": [
    "Verif.Props.C40_classification",
    "Verif.Props.C40_bytes_bijection"
   ],
   "note": ""
  },
  {
   "property": "C41",
   "status": "proved",
   "theorems": [
    "Verif.Props.C41_octets"
   ],
   "note": ""
  },
  {
   "property": "C42",
   "status": "proved",
   "theorems": [
    "Verif.Props.C42_varint_decodes",
    "Verif.Props.C42_varint_sizes",
    "Verif.Props.C42_varint_bound"
   ],
   "note": ""
  },
  {
   "property": "C43",
   "status": "partial",
   "theorems": [
    "Verif.Props.C43_new_total_false",
    "Verif.Props.C43_new_panics_exactly_partial",
    "Verif.Props.C43_release_agrees",
    "Verif.Props.C43_release_panics_less",
    "Verif.Props.C43_modes_differ"
   ],
   "note": "False of the code: truncated long-header packets panic (C43_new_total_false). Exact set of panicking inputs proved for debug builds here and for release builds in C87."
  },
  {
   "property": "C44",
   "status": "proved",
   "theorems": [
    "Verif.Props.C44_datagram_parsed"
   ],
   "note": ""
  },
  {
   "property": "C45",
   "status": "partial",
   "theorems": [
    "Verif.Props.C45_one_rtt_iff",
    "Verif.Props.C45_version_negotiation_false",
    "Verif.Props.C45_kinds_partial"
   ],
   "note": "1-RTT half proved; Version Negotiation half false of the code (C45_version_negotiation_false), exact classification proved."
  },
  {
   "property": "C46",
   "status": "proved",
   "theorems": [
    "Verif.Props.C46_frame_new_terminates",
    "Verif.Props.C46_frames_consecutive",
    "Verif.Props.C46_packet_new_terminates",
    "Verif.Props.C46_packets_consecutive"
   ],
   "note": ""
  },
  {
   "property": "C47",
   "status": "proved",
   "theorems": [
    "Verif.Props.C47_frames_reported",
    "Verif.Props.C47_padding_run",
    "Verif.Props.C47_no_adjacent_padding"
   ],
   "note": ""
  },
  {
   "property": "C48",
   "status": "partial",
   "theorems": [
    "Verif.Props.C48_ack_ranges_false",
    "Verif.Props.C48_ack_without_ranges_partial"
   ],
   "note": "False for ACK frames with ranges (C48_ack_ranges_false gives where parsing continues); proved for ACK frames without ranges."
  },
  {
   "property": "C49",
   "status": "partial",
   "theorems": [
    "Verif.Props.C49_frame_new_total_false",
    "Verif.Props.C49_frame_new_outcomes_partial"
   ],
   "note": "False of the code (C49_frame_new_total_false); the inputs giving Some, None and a panic are characterised exactly."
  },
  {
   "property": "C50",
   "status": "partial",
   "theorems": [
    "Verif.Props.C50_populate_zeroed_false",
    "Verif.Props.C50_initial_partial",
    "Verif.Props.C50_zero_rtt_partial",
    "Verif.Props.C50_handshake_partial",
    "Verif.Props.C50_retry",
    "Verif.Props.C50_version_negotiation",
    "Verif.Props.C50_one_rtt"
   ],
   "note": "False for packets with variable-length integers of 2 or more bytes (C50_populate_zeroed_false); exact outcome proved for all six packet types."
  },
  {
   "property": "C51",
   "status": "proved",
   "theorems": [
    "Verif.C51_ip_names",
    "Verif.C51_ip_names_distinct",
    "Verif.C51_ip_numbers",
    "Verif.C51_ether_names",
    "Verif.C51_ether_names_distinct",
    "Verif.C51_ether_numbers",
    "Verif.C51_frame_names"
   ],
   "note": ""
  },
  {
   "property": "C52",
   "status": "proved",
   "theorems": [
    "Verif.C52_parse_ty",
    "Verif.C52_unique",
    "Verif.C52_integer_field",
    "Verif.C52_endianness_required"
   ],
   "note": ""
  },
  {
   "property": "C53",
   "status": "proved",
   "theorems": [
    "Verif.Props.C53_to_immutable",
    "Verif.Props.C53_accessors"
   ],
   "note": ""
  },
  {
   "property": "C54",
   "status": "proved",
   "theorems": [
    "Verif.Props.C54_setters_commute_any_order",
    "Verif.Props.C54_other_getter_any_order",
    "Verif.Props.C54_declared_setters_commute_any_order",
    "Verif.Props.C54_declared_other_getter_any_order",
    "Verif.Props.C54_setters_commute",
    "Verif.Props.C54_other_getter_unchanged",
    "Verif.Props.C54_declared_setters_commute",
    "Verif.Props.C54_declared_other_getter"
   ],
   "note": "For all byte orders: C54_*_any_order."
  },
  {
   "property": "C55",
   "status": "proved",
   "theorems": [
    "Verif.Props.C55_getters_read_rfc_positions",
    "Verif.Props.C55_layouts_complete",
    "Verif.Props.C55_whole_bytes",
    "Verif.Props.C55_setters_write_rfc_positions",
    "Verif.Props.C55_setters_write_tuples"
   ],
   "note": ""
  },
  {
   "property": "C56",
   "status": "partial",
   "theorems": [
    "Verif.Props.C56_false",
    "Verif.Props.C56_no_overlap_partial"
   ],
   "note": "False for vectors that do not start on a byte boundary (C56_false); proved for the others."
  },
  {
   "property": "C57",
   "status": "partial",
   "theorems": [
    "Verif.Props.C57_false",
    "Verif.Props.C57_same_kind_partial",
    "Verif.Props.C57_eq_bytes"
   ],
   "note": "False for a borrowing and an owning packet (C57_false); proved otherwise."
  },
  {
   "property": "C58",
   "status": "partial",
   "theorems": [
    "Verif.Props.C58_false",
    "Verif.Props.C58_zero_iff_partial",
    "Verif.Props.C58_zero_iff_ipv4_partial"
   ],
   "note": "False of the code (C58_false: UDP returns 0 instead of 0xFFFF); exact condition proved for IPv6 and IPv4."
  },
  {
   "property": "C59",
   "status": "partial",
   "theorems": [
    "Verif.C59_false",
    "Verif.C59_documented_rejected",
    "Verif.C59_path_attr_partial"
   ],
   "note": "False of the code (C59_false: a documented field is always rejected, C59_documented_rejected); proved for bare-word attributes other than payload."
  },
  {
   "property": "C60",
   "status": "proved",
   "theorems": [
    "Verif.C60_accepted_iff",
    "Verif.C60_fields",
    "Verif.C60_lengths_and_arguments"
   ],
   "note": ""
  },
  {
   "property": "C61",
   "status": "proved",
   "theorems": [
    "Verif.C61_types",
    "Verif.C61_vec_nesting",
    "Verif.C61_parse_type_total"
   ],
   "note": ""
  },
  {
   "property": "C62",
   "status": "proved",
   "theorems": [
    "Verif.Props.C62_display_format"
   ],
   "note": ""
  },
  {
   "property": "C63",
   "status": "proved",
   "theorems": [
    "Verif.Props.C63_payload_mut"
   ],
   "note": ""
  },
  {
   "property": "C64",
   "status": "proved",
   "theorems": [
    "Verif.Props.C64_frame_accessors",
    "Verif.Props.C64_reported_frames"
   ],
   "note": ""
  },
  {
   "property": "C65",
   "status": "proved",
   "theorems": [
    "Verif.C65_macro_accepts",
    "Verif.C65_accepted_iff",
    "Verif.C65_crate",
    "Verif.C65_crate_accepted"
   ],
   "note": ""
  },
  {
   "property": "C66",
   "status": "partial",
   "theorems": [
    "Verif.C66_all_panics_partial",
    "Verif.C66_false",
    "Verif.C66_private",
    "Verif.C66_more_panics",
    "Verif.C66_panics_partial"
   ],
   "note": "False of the code (C66_false: macro panics); panics characterised exactly."
  },
  {
   "property": "C67",
   "status": "partial",
   "theorems": [
    "Verif.C67_accepted_iff",
    "Verif.C67_rejected_iff",
    "Verif.C67_text",
    "Verif.C67_substitution",
    "Verif.C67_field",
    "Verif.C67_no_length",
    "Verif.C67_documented_false",
    "Verif.C67_documented_partial"
   ],
   "note": "The documented restriction is not enforced (C67_documented_false); the accepted expressions are characterised exactly."
  },
  {
   "property": "C68",
   "status": "partial",
   "theorems": [
    "Verif.C68_false",
    "Verif.C68_calls_exact",
    "Verif.C68_look_back_partial",
    "Verif.C68_crate"
   ],
   "note": "False of the code (C68_false: a length that mentions a later field); proved otherwise and for the whole crate."
  },
  {
   "property": "C69",
   "status": "proved",
   "theorems": [
    "Verif.C69_names",
    "Verif.C69_complete",
    "Verif.C69_undefined"
   ],
   "note": ""
  },
  {
   "property": "C70",
   "status": "proved",
   "theorems": [
    "Verif.Props.C70_round_trip",
    "Verif.Props.C70_written",
    "Verif.Props.C70_read_iff"
   ],
   "note": ""
  },
  {
   "property": "C71",
   "status": "partial",
   "theorems": [
    "Verif.Props.C71_false",
    "Verif.Props.C71_other_targets_partial",
    "Verif.Props.C71_gre_exact_partial"
   ],
   "note": "False for the GRE fuzz target (C71_false); exact set of surviving inputs proved."
  },
  {
   "property": "C72",
   "status": "proved",
   "theorems": [
    "Verif.Props.C72_mac",
    "Verif.Props.C72_ipv4",
    "Verif.Props.C72_ipv6",
    "Verif.Props.C72_complete"
   ],
   "note": ""
  },
  {
   "property": "C73",
   "status": "proved",
   "theorems": [
    "Verif.Props.C73_generated",
    "Verif.Props.C73_crate",
    "Verif.Props.C73_checksums",
    "Verif.Props.C73_helpers",
    "Verif.Props.C73_quic",
    "Verif.Props.C73_release_returns_more"
   ],
   "note": ""
  },
  {
   "property": "C74",
   "status": "partial",
   "theorems": [
    "Verif.Props.C74_false",
    "Verif.Props.C74_plain_partial",
    "Verif.Props.C74_checksum_partial",
    "Verif.Props.C74_quic_frames",
    "Verif.Props.C74_quic_packets",
    "Verif.Props.C74_quic_long_partial",
    "Verif.Props.C74_quic_long_front",
    "Verif.Props.C74_ndp_option_partial",
    "Verif.Props.C74_ndp_messages_partial"
   ],
   "note": "False for NDP options with length 32 or more and for QUIC packets whose Length is smaller than the packet number (C74_false, C43_modes_differ). Proved for all other types, for QUIC frames and the QUIC packets without Length, for the others under the exact condition on the bytes."
  },
  {
   "property": "C75",
   "status": "proved",
   "theorems": [
    "Verif.Props.C75_datagram_text",
    "Verif.Props.C75_decimal_unique"
   ],
   "note": ""
  },
  {
   "property": "C76",
   "status": "partial",
   "theorems": [
    "Verif.Props.C76_display_total_false",
    "Verif.Props.C76_release_initial_false",
    "Verif.Props.C76_display_panics_exactly_partial",
    "Verif.Props.C76_frame_text",
    "Verif.Props.C76_header_names"
   ],
   "note": "False of the code (C76_display_total_false); the packets whose display panics are characterised exactly."
  },
  {
   "property": "C77",
   "status": "proved",
   "theorems": [
    "Verif.C77_readings",
    "Verif.C77_every_length",
    "Verif.C77_tokens",
    "Verif.C77_lengths",
    "Verif.C77_getters_typed",
    "Verif.C77_packets"
   ],
   "note": "C77_lengths: the modelled lengths are the values of the texts. C77_readings: the expression that is evaluated is the one that the grammar of Spec/LengthGrammar reads in the tokens. C77_every_length: no length is left out."
  },
  {
   "property": "C78",
   "status": "proved",
   "theorems": [
    "Verif.C78_getter",
    "Verif.C78_setter",
    "Verif.C78_getter_bits",
    "Verif.C78_setter_bits",
    "Verif.C78_literals"
   ],
   "note": "C78_getter_bits and C78_setter_bits go from text to bits for big-endian types; C78_getter and C78_setter cover every byte order relative to getPrim/setPrim, whose bit meaning is in C01-C04."
  },
  {
   "property": "C79",
   "status": "proved",
   "theorems": [
    "Verif.C79_text",
    "Verif.C79_ok_iff",
    "Verif.C79_payload_hidden",
    "Verif.C79_crate"
   ],
   "note": ""
  },
  {
   "property": "C80",
   "status": "partial",
   "theorems": [
    "Verif.Props.C80_false",
    "Verif.Props.C80_clone_from_partial",
    "Verif.Props.C80_quic_packets",
    "Verif.Props.C80_frames",
    "Verif.Props.C80_lifetime",
    "Verif.Props.C80_constructors",
    "Verif.Props.C80_drop"
   ],
   "note": "False for user-written implementations of the two safe traits (C80_false); proved for implementations whose slices agree, as in all generated types. The QUIC and frame parsers are proved without restriction."
  },
  {
   "property": "C81",
   "status": "partial",
   "theorems": [
    "Verif.Props.C81_false",
    "Verif.Props.C81_declared_lengths_partial",
    "Verif.Props.C81_crate_partial",
    "Verif.Props.C81_open_partial"
   ],
   "note": "False for UDP (C81_false: length is ignored); proved for the crate's packet types whose variable-length fields all have a length, and for the open ones the effect of further bytes is given exactly."
  },
  {
   "property": "C82",
   "status": "proved",
   "theorems": [
    "Verif.Props.C82_write",
    "Verif.Props.C82_read",
    "Verif.Props.C82_carriers",
    "Verif.Props.C82_udp_frame"
   ],
   "note": ""
  },
  {
   "property": "C83",
   "status": "proved",
   "theorems": [
    "Verif.Props.C83_accepted_iff",
    "Verif.Props.C83_refused_iff",
    "Verif.Props.C83_release",
    "Verif.Props.C83_exclusive",
    "Verif.Props.C83_datagrams"
   ],
   "note": ""
  },
  {
   "property": "C84",
   "status": "partial",
   "theorems": [
    "Verif.Props.C84_false",
    "Verif.Props.C84_complete_or_last_partial",
    "Verif.Props.C84_one_rtt",
    "Verif.Props.C84_ids",
    "Verif.Props.C84_release_partial"
   ],
   "note": "False for 1-RTT, Version Negotiation and Retry packets (C84_false); their accessors are given exactly for every length; packets with a Length field are complete in debug builds, and in release builds unless the Length field is smaller than the packet number (C84_release_partial)."
  },
  {
   "property": "C85",
   "status": "proved",
   "theorems": [
    "Verif.Props.C85_same_checksum_iff",
    "Verif.Props.C85_burst_detected",
    "Verif.Props.C85_ipv4_header_burst_detected",
    "Verif.Props.C85_reordered_words",
    "Verif.Props.C85_limit"
   ],
   "note": "C85_limit shows that 16 bits would be too many; C85_reordered_words shows a kind of corruption that is not detected."
  },
  {
   "property": "C86",
   "status": "partial",
   "theorems": [
    "Verif.Props.C86_false",
    "Verif.Props.C86_field_partial",
    "Verif.Props.C86_flat_partial",
    "Verif.Props.C86_quic",
    "Verif.Props.C86_frames",
    "Verif.Props.C86_crate_partial",
    "Verif.Props.C86_no_options_partial",
    "Verif.Props.C86_tcp_partial",
    "Verif.Props.C86_ipv4_partial"
   ],
   "note": "Fails when an option of TCP, IPv4 or neighbor discovery runs over the end of its list (`C86_false`); `C86_crate_partial` says exactly when, and that it is a panic. Proved without conditions for the packet types without options, for QUIC packets and for QUIC frames."
  },
  {
   "property": "C87",
   "status": "proved",
   "theorems": [
    "Verif.Props.C87_outcome",
    "Verif.Props.C87_accessors",
    "Verif.Props.C87_differs_iff",
    "Verif.Props.C87_short_length"
   ],
   "note": ""
  },
  {
   "property": "C88",
   "status": "proved",
   "theorems": [
    "Verif.C88_report",
    "Verif.C88_other_items",
    "Verif.C88_same_results",
    "Verif.C88_unique",
    "Verif.C88_otherwise_accepted",
    "Verif.C88_place",
    "Verif.C88_argument_place",
    "Verif.C88_endianness_overstated",
    "Verif.C88_endianness_rule"
   ],
   "note": ""
  },
  {
   "property": "C89",
   "status": "proved",
   "theorems": [
    "Verif.Props.C89_options_raw",
    "Verif.Props.C89_get_options",
    "Verif.Props.C89_reading_unique",
    "Verif.Props.C89_release_reads",
    "Verif.Props.C89_debug_unreadable_iff",
    "Verif.Props.C89_from_packet",
    "Verif.Props.C89_set_options",
    "Verif.Props.C89_padding"
   ],
   "note": ""
  },
  {
   "property": "C90",
   "status": "partial",
   "theorems": [
    "Verif.Props.C90_types",
    "Verif.Props.C90_round_trip_partial",
    "Verif.Props.C90_reads_back_iff",
    "Verif.Props.C90_narrow",
    "Verif.Props.C90_false",
    "Verif.Props.C90_constants"
   ],
   "note": "False for fields narrower than the integer in their type; the exact value read back (modulo two to the width of the field) is proved for all fields."
  },
  {
   "property": "C91",
   "status": "proved",
   "theorems": [
    "Verif.Props.C91_flags",
    "Verif.Props.C91_flags_complete",
    "Verif.Props.C91_numbers",
    "Verif.Props.C91_modules"
   ],
   "note": ""
  },
  {
   "property": "C92",
   "status": "proved",
   "theorems": [
    "Verif.Props.C92_populate_fits",
    "Verif.Props.C92_inner_packets_strict",
    "Verif.Props.C92_crate",
    "Verif.Props.C92_tcp_set_options",
    "Verif.Props.C92_ipv4_set_options",
    "Verif.Props.C92_ndp_set_options"
   ],
   "note": ""
  },
  {
   "property": "C93",
   "status": "proved",
   "theorems": [
    "Verif.Props.C93_registers",
    "Verif.Props.C93_setters_return",
    "Verif.Props.C93_header_determined"
   ],
   "note": ""
  },
  {
   "property": "C94",
   "status": "proved",
   "theorems": [
    "Verif.Props.C94_read",
    "Verif.Props.C94_write",
    "Verif.Props.C94_outside",
    "Verif.Props.C94_getters",
    "Verif.Props.C94_setters",
    "Verif.Props.C94_crate"
   ],
   "note": ""
  },
  {
   "property": "C95",
   "status": "proved",
   "theorems": [
    "Verif.C95_ipv6_text",
    "Verif.C95_typed",
    "Verif.C95_unambiguous",
    "Verif.C95_iff",
    "Verif.C95_header"
   ],
   "note": ""
  },
  {
   "property": "C96",
   "status": "partial",
   "theorems": [
    "Verif.Props.C96_false",
    "Verif.Props.C96_more_failures",
    "Verif.Props.C96_exact",
    "Verif.Props.C96_headers_partial",
    "Verif.Props.C96_items",
    "Verif.Props.C96_size_hint"
   ],
   "note": "False of the code (C96_false, C96_more_failures). C96_exact: when the items are exactly the headers. C96_headers_partial and C96_items: for chains without authentication headers and with reserved bytes clear, every header is yielded with the right next_header, size and payload, and then the walk goes on in the data."
  },
  {
   "property": "C97",
   "status": "proved",
   "theorems": [
    "Verif.Props.C97_header",
    "Verif.Props.C97_payload",
    "Verif.Props.C97_payload_prefix",
    "Verif.Props.C97_raw",
    "Verif.Props.C97_options"
   ],
   "note": ""
  },
  {
   "property": "C98",
   "status": "proved",
   "theorems": [
    "Verif.Props.C98_populate",
    "Verif.Props.C98_set"
   ],
   "note": ""
  },
  {
   "property": "C99",
   "status": "partial",
   "theorems": [
    "Verif.Props.C99_zeroed_partial",
    "Verif.Props.C99_false",
    "Verif.Props.C99_over_frame"
   ],
   "note": "False as claimed (`C99_false`). `C99_zeroed_partial` gives the exact outcome on zeroes: success if all integers take one byte, a panic otherwise. `C99_over_frame`: success over the frame's own bytes, whatever the sizes."
  },
  {
   "property": "C100",
   "status": "proved",
   "theorems": [
    "Verif.Props.C100_index",
    "Verif.Props.C100_range",
    "Verif.Props.C100_index_mut",
    "Verif.Props.C100_range_mut",
    "Verif.Props.C100_to_immutable"
   ],
   "note": "Proved in full."
  },
  {
   "property": "C101",
   "status": "proved",
   "theorems": [
    "Verif.Props.C101_messages"
   ],
   "note": "Proved in full."
  },
  {
   "property": "C102",
   "status": "partial",
   "theorems": [
    "Verif.C102_false",
    "Verif.C102_methods_partial",
    "Verif.C102_types_partial",
    "Verif.C102_crate"
   ],
   "note": "False as claimed (`C102_false`). `C102_methods_partial` and `C102_types_partial` give the exact conditions; `C102_crate` shows that the crate has no collisions."
  },
  {
   "property": "C103",
   "status": "partial",
   "theorems": [
    "Verif.Props.C103_false",
    "Verif.Props.C103_again_false",
    "Verif.Props.C103_returns",
    "Verif.Props.C103_bytes",
    "Verif.Props.C103_ints_partial",
    "Verif.Props.C103_end"
   ],
   "note": "False for fields of variable-length integers (`C103_false`, `C103_again_false`); `C103_ints_partial`: as many integers as before are always read back and can be set again, and nothing else is, unless the value reaches the end of the buffer, where an incomplete integer is read back too (`C103_end`). Proved for fields of bytes (`C103_bytes`); `C103_returns` covers both."
  },
  {
   "property": "C104",
   "status": "partial",
   "theorems": [
    "Verif.C104_length_fn",
    "Verif.C104_more",
    "Verif.C104_false",
    "Verif.C104_payload_optional",
    "Verif.C104_payload_anywhere",
    "Verif.C104_length_anywhere",
    "Verif.C104_documented_partial",
    "Verif.C104_payload_overlaps",
    "Verif.C104_length_moves"
   ],
   "note": "False (`C104_false`, `C104_more`, `C104_length_fn`). `C104_documented_partial` is what holds: at most one payload, vectors that are not last have a length. The other theorems say for all declarations what the attributes do instead."
  },
  {
   "property": "C105",
   "status": "partial",
   "theorems": [
    "Verif.Props.C105_covered_partial",
    "Verif.Props.C105_false",
    "Verif.Props.C105_release_false",
    "Verif.Props.C105_earlier",
    "Verif.Props.C105_bytes_partial",
    "Verif.Props.C105_release_partial",
    "Verif.Props.C105_ints_partial"
   ],
   "note": "False (`C105_false`, `C105_release_false`). Proved: earlier fields always (`C105_earlier`); all fields and the size after setting a field of bytes (`C105_bytes_partial`), or integers that no length uses, with as many integers in as many bytes (`C105_ints_partial`), in debug builds and, for types without the subtraction in the length of `frames`, in release builds; in release builds of the others, whatever the debug build reads (`C105_release_partial`); in release builds of packets whose Length covers the packet number, all fields and the size (`C105_covered_partial`)."
  },
  {
   "property": "C106",
   "status": "partial",
   "theorems": [
    "Verif.Props.C106_covered_partial",
    "Verif.Props.C106_false",
    "Verif.Props.C106_packets_partial",
    "Verif.Props.C106_frames",
    "Verif.Props.C106_frames_ints"
   ],
   "note": "False in release builds (`C106_false`). Proved for packets in debug builds, and in release builds for types without the subtraction in the length of `frames` (`C106_packets_partial`) or if the Length covers the packet number (`C106_covered_partial`); for frames in both builds (`C106_frames`, `C106_frames_ints`). Stated for the first packet or frame of the bytes; any packet of a datagram is in C128."
  },
  {
   "property": "C107",
   "status": "proved",
   "theorems": [
    "Verif.Props.C107_number",
    "Verif.Props.C107_bytes",
    "Verif.Props.C107_text",
    "Verif.Props.C107_consistent",
    "Verif.Props.C107_total",
    "Verif.Props.C107_max_min"
   ],
   "note": "The derived comparison is modelled by its expansion (first differing field decides)."
  },
  {
   "property": "C108",
   "status": "proved",
   "theorems": [
    "Verif.Props.C108_word",
    "Verif.Props.C108_zero",
    "Verif.Props.C108_nat",
    "Verif.Props.C108_forward"
   ],
   "note": "The exception (all zero afterwards) is part of the equivalence `C108_word`; `C108_zero` is an instance. IPv4 headers whose first byte is not zero and messages with a pseudo header never fall under it."
  },
  {
   "property": "C109",
   "status": "partial",
   "theorems": [
    "Verif.C109_crate",
    "Verif.C109_unambiguous",
    "Verif.C109_false",
    "Verif.C109_value_partial",
    "Verif.C109_documented"
   ],
   "note": "`C109_false` is the negation of the full statement; `C109_value_partial` excludes functions, methods and types named like fields; `C109_documented` has no exception, and `C109_crate` shows that all lengths of the crate are in the grammar and free of such names; `C109_unambiguous` makes the value well defined. Unary operators, shifts, `&&`, `||`, paths, blocks with statements and macros with arguments are outside the grammar."
  },
  {
   "property": "C110",
   "status": "proved",
   "theorems": [
    "Verif.Props.C110_setter",
    "Verif.Props.C110_getter",
    "Verif.Props.C110_big",
    "Verif.Props.C110_little",
    "Verif.Props.C110_faithful",
    "Verif.Props.C110_write_back",
    "Verif.Props.C110_same_as_big_endian",
    "Verif.Props.C110_declared_setter",
    "Verif.Props.C110_declared_getter",
    "Verif.Props.C110_declared_set_then_get"
   ],
   "note": "`C110_setter`, `C110_getter`: single fields; `C110_big`, `C110_little`: what the digit places mean; `C110_faithful`, `C110_write_back`: round trips where every digit has a place (the others are C04); `C110_same_as_big_endian` and `C110_declared_*`: whole declarations."
  },
  {
   "property": "C111",
   "status": "partial",
   "theorems": [
    "Verif.C111_crate",
    "Verif.C111_false",
    "Verif.C111_position_partial",
    "Verif.C111_length_partial",
    "Verif.C111_runs_partial"
   ],
   "note": "False where C109 or C112 fail (C111_false); proved for all other lengths: position (C111_position_partial), own length and end of the payload (C111_length_partial), equality with the model's curOff (C111_runs_partial), and without exception for all structs of the crate (C111_crate)."
  },
  {
   "property": "C112",
   "status": "partial",
   "theorems": [
    "Verif.C112_false",
    "Verif.C112_rest_partial"
   ],
   "note": "False as a method receiver without parentheses (C112_false); proved where `...` is the whole length, a whole argument, a whole branch of an `if` or in parentheses (C112_rest_partial), which covers all uses in the crate (C109_crate)."
  },
  {
   "property": "C113",
   "status": "proved",
   "theorems": [
    "Verif.Props.C113_v4_delivered",
    "Verif.Props.C113_v6_delivered",
    "Verif.Props.C113_ethernet",
    "Verif.Props.C113_v4_burst",
    "Verif.Props.C113_v6_burst",
    "Verif.Props.C113_receiver_total",
    "Verif.Props.C113_lengths_unprotected"
   ],
   "note": "Delivery: C113_v4_delivered, C113_v6_delivered, in Ethernet frames C113_ethernet. Receiver: C113_receiver_total, C113_v4_burst, C113_v6_burst; C113_lengths_unprotected shows that the exceptions are needed."
  },
  {
   "property": "C114",
   "status": "proved",
   "theorems": [
    "Verif.C114_positions",
    "Verif.C114_lengths",
    "Verif.C114_packet_size"
   ],
   "note": "Positions: C114_positions (k up to the number of fields). Lengths and ends: C114_lengths. The number of bits of each field is taken from the declaration (WidthsOf, met by widthByName_ok); which bits the macro counts is C66 and C90."
  },
  {
   "property": "C115",
   "status": "partial",
   "theorems": [
    "Verif.Props.C115_false",
    "Verif.Props.C115_same_partial",
    "Verif.Props.C115_returns_partial",
    "Verif.Props.C115_fromPacket_partial"
   ],
   "note": "False of the code: C115_false (an Ethernet frame). Exact capacities: C115_same_partial. With any other capacity the getter does not return: C115_returns_partial, C115_fromPacket_partial. Today's standard library reserves exactly the requested number of bytes for Vec<u8>."
  },
  {
   "property": "C116",
   "status": "proved",
   "theorems": [
    "Verif.Props.C116_getters",
    "Verif.Props.C116_capacity",
    "Verif.Props.C116_setters",
    "Verif.Props.C116_raw",
    "Verif.Props.C116_next",
    "Verif.Props.C116_payload",
    "Verif.Props.C116_populate",
    "Verif.Props.C116_from_packet",
    "Verif.Props.C116_static_size"
   ],
   "note": "Getters: C116_getters; with any capacity: C116_capacity. Setters: C116_setters. Slices: C116_raw. Iterators: C116_next. Payloads: C116_payload. Methods over all fields, with names looked up: C116_populate, C116_from_packet, C116_static_size. Interpolated expressions have the values of C114, interpolated blocks for integers are the subject of C78. Getters of vectors of packets: C117_packets."
  },
  {
   "property": "C117",
   "status": "proved",
   "theorems": [
    "Verif.Props.C117_one_outcome",
    "Verif.Props.C117_iterators",
    "Verif.Props.C117_packets",
    "Verif.Props.C117_checksums",
    "Verif.Props.C117_quic",
    "Verif.Props.C117_macro"
   ],
   "note": "C117_one_outcome: outcomes of loops are unique. Iterators: C117_iterators, C117_packets (this completes C116 for getters of vectors of packets). Checksums: C117_checksums. QUIC: C117_quic. Macro: C117_macro."
  },
  {
   "property": "C118",
   "status": "proved",
   "theorems": [
    "Verif.C118_getters",
    "Verif.C118_setters",
    "Verif.C118_argument_getters",
    "Verif.C118_argument_setters"
   ],
   "note": "Joins C77, C78, C111 and C114. Positions of 2^64-9 and more, which C78 leaves out, are included: the first access is out of bounds."
  },
  {
   "property": "C119",
   "status": "partial",
   "theorems": [
    "Verif.C119_self_iff",
    "Verif.C119_false",
    "Verif.C119_crate_partial"
   ],
   "note": "C119_self_iff says exactly which structs are affected; none of the crate is (C119_crate_partial)."
  },
  {
   "property": "C120",
   "status": "proved",
   "theorems": [
    "Verif.C120_getters",
    "Verif.C120_setters",
    "Verif.C120_raw",
    "Verif.C120_payload",
    "Verif.C120_worlds"
   ],
   "note": "Joins C114, C116 and C118: the parameters of the bodies in C116 are those read off the struct (C120_worlds), and any such parameters give the same result. Vectors of integers in the crate are all Vec<u8>. Getters of vectors of packets: C120_raw for the slice, C116_next for the iterator. The capacity that Vec::with_capacity reserves is assumed to be the one asked for (C115 is about others)."
  },
  {
   "property": "C121",
   "status": "proved",
   "theorems": [
    "Verif.C121_populate",
    "Verif.C121_getters",
    "Verif.C121_from_packet",
    "Verif.C121_sizes"
   ],
   "note": "Built on C120. Vectors of packets are read with the loop of C117; the inner packet type is that of the declaration (its own methods are those of C121 for its struct). The static packet_size(&s) is stated when the sum is a usize."
  },
  {
   "property": "C122",
   "status": "partial",
   "theorems": [
    "Verif.Props.C122_same",
    "Verif.Props.C122_nested",
    "Verif.Props.C122_false",
    "Verif.Props.C122_length",
    "Verif.Props.C122_before_partial",
    "Verif.Props.C122_bytes_partial",
    "Verif.Props.C122_options_partial"
   ],
   "note": "False as stated (set_options overwrites the payload before its assert fails). Proved: the length is kept for every declaration; the bytes before the field are kept for the crate's packets; a failing setter of bytes changes nothing, for every declaration; set_options of TCP and IPv4 keeps the fixed header and everything that lies further behind the end of the options than the longest option given, however it ends. The inner populate is any function that agrees with the modelled one and keeps the length (C122_nested gives it for nesting to any depth)."
  },
  {
   "property": "C123",
   "status": "proved",
   "theorems": [
    "Verif.Props.C123_header_survives",
    "Verif.Props.C123_populate"
   ],
   "note": "C93 without the assumption that the calls return."
  },
  {
   "property": "C124",
   "status": "proved",
   "theorems": [
    "Verif.Props.C124_setters",
    "Verif.Props.C124_populate",
    "Verif.Props.C124_torn"
   ],
   "note": "C116 is about the result of the same bodies; this is about the buffer at the moment of a panic. The block that writes one integer is setPrimLeft, operation by operation."
  },
  {
   "property": "C125",
   "status": "proved",
   "theorems": [
    "Verif.Props.C125_accepted",
    "Verif.Props.C125_example_read",
    "Verif.Props.C125_example_short",
    "Verif.Props.C125_example_set",
    "Verif.Props.C125_example_write",
    "Verif.Props.C125_protocol_read",
    "Verif.Props.C125_protocol_short",
    "Verif.Props.C125_protocol_set",
    "Verif.Props.C125_protocol_write"
   ],
   "note": "docs/using_packet.md writes #[packet], which this crate does not provide (derive/src/lib.rs has derive(Packet) only), and derive/src/lib.rs:52-66 says that new returns the packet, while it returns an Option; both are read as what the code provides."
  },
  {
   "property": "C126",
   "status": "partial",
   "theorems": [
    "Verif.Props.C126_bodies",
    "Verif.Props.C126_running_partial",
    "Verif.Props.C126_pairs",
    "Verif.Props.C126_pairs_length",
    "Verif.Props.C126_false",
    "Verif.Props.C126_crate",
    "Verif.Props.C126_initial"
   ],
   "note": "False in general (C126_false); proved for the 53 structs of the crate, with the exact numbers (C126_crate). Getters called by the iterators and by from_packet of an inner packet are not counted."
  },
  {
   "property": "C127",
   "status": "partial",
   "theorems": [
    "Verif.Props.C127_growth",
    "Verif.Props.C127_linear_partial",
    "Verif.Props.C127_doubles",
    "Verif.Props.C127_false",
    "Verif.Props.C127_crate_partial",
    "Verif.Props.C127_ack"
   ],
   "note": "False in general (C127_false); proved for structs without `...` (where it is even linear) and for the 53 structs of the crate. The square is a bound chosen here, the growth itself is exact (C127_growth)."
  },
  {
   "property": "C128",
   "status": "partial",
   "theorems": [
    "Verif.Props.C128_tail_partial",
    "Verif.Props.C128_false",
    "Verif.Props.C128_rewrite_partial"
   ],
   "note": "False in release builds (C128_false). Proved for datagrams that a debug build parses, for any replacement and in both builds (C128_tail_partial); the setters of any packet of the datagram with the restrictions of C106 (C128_rewrite_partial)."
  },
  {
   "property": "C129",
   "status": "proved",
   "theorems": [
    "Verif.Props.C129_joined",
    "Verif.Props.C129_open",
    "Verif.Props.C129_split",
    "Verif.Props.C129_rewrite"
   ],
   "note": "Holds in both builds, for every b including those on which Frame::new gives up or panics."
  },
  {
   "property": "C130",
   "status": "proved",
   "theorems": [
    "Verif.Props.C130_declared",
    "Verif.Props.C130_crate",
    "Verif.Props.C130_getter"
   ],
   "note": "Holds in both builds. For other structs the conditions of C81 are needed (C130_declared)."
  },
  {
   "property": "C131",
   "status": "proved",
   "theorems": [
    "Verif.Props.C131_write",
    "Verif.Props.C131_frames",
    "Verif.Props.C131_initial",
    "Verif.Props.C131_zero_rtt",
    "Verif.Props.C131_handshake",
    "Verif.Props.C131_one_rtt"
   ],
   "note": "Frames with longer integers cannot be written into zeroes (C50, C99), which C131_write states as well. The sender is a program using the crate, in Spec/QuicSend."
  },
  {
   "property": "C132",
   "status": "proved",
   "theorems": [
    "Verif.Props.C132_write",
    "Verif.Props.C132_read"
   ],
   "note": "The sender is a program using the crate, in Spec/QuicDatagram. Integers of more than one byte cannot be written into zeroes (C50, C99), which C132_write states."
  },
  {
   "property": "C133",
   "status": "proved",
   "theorems": [
    "Verif.Props.C133_v4",
    "Verif.Props.C133_v6",
    "Verif.Props.C133_ethernet",
    "Verif.Props.C133_v4_burst",
    "Verif.Props.C133_v6_burst",
    "Verif.Props.C133_v4_outcome",
    "Verif.Props.C133_v6_outcome",
    "Verif.Props.C133_v4_panics_iff",
    "Verif.Props.C133_v6_panics_iff",
    "Verif.Props.C133_crash"
   ],
   "note": "Sender and receiver are programs using the crate, in Spec/QuicOverUdp."
  },
  {
   "property": "C134",
   "status": "proved",
   "theorems": [
    "Verif.Props.C134_reader",
    "Verif.Props.C134_gre"
   ],
   "note": "The reader is a program using the crate, in Spec/Descend, with a monitor as an example of a decision function."
  },
  {
   "property": "C135",
   "status": "proved",
   "theorems": [
    "Verif.Props.C135_forward4",
    "Verif.Props.C135_forward6",
    "Verif.Props.C135_path4",
    "Verif.Props.C135_path6",
    "Verif.Props.C135_circle"
   ],
   "note": "The routers are programs using the crate, in Spec/Router."
  },
  {
   "property": "C136",
   "status": "proved",
   "theorems": [
    "Verif.Props.C136_translate",
    "Verif.Props.C136_back"
   ],
   "note": "The translator is a program using the crate, in Spec/Translate."
  },
  {
   "property": "C137",
   "status": "proved",
   "theorems": [
    "Verif.Props.C137_reflect"
   ],
   "note": "The program uses the crate and is in Spec/Reflect."
  },
  {
   "property": "C138",
   "status": "proved",
   "theorems": [
    "Verif.Props.C138_pong",
    "Verif.Props.C138_once",
    "Verif.Props.C138_routed"
   ],
   "note": "The program uses the crate and is in Spec/Ping."
  },
  {
   "property": "C139",
   "status": "proved",
   "theorems": [
    "Verif.Props.C139_read",
    "Verif.Props.C139_answer",
    "Verif.Props.C139_once"
   ],
   "note": "The program uses the crate and is in Spec/ArpAnswer."
  },
  {
   "property": "C140",
   "status": "proved",
   "theorems": [
    "Verif.Props.C140_tag",
    "Verif.Props.C140_untag",
    "Verif.Props.C140_tag_untag",
    "Verif.Props.C140_untag_tag",
    "Verif.Props.C140_stack"
   ],
   "note": "The program uses the crate and is in Spec/Tagging."
  },
  {
   "property": "C141",
   "status": "proved",
   "theorems": [
    "Verif.Props.C141_fragment",
    "Verif.Props.C141_assemble",
    "Verif.Props.C141_routed"
   ],
   "note": "The programs use the crate and are in Spec/Fragments."
  },
  {
   "property": "C142",
   "status": "proved",
   "theorems": [
    "Verif.Props.C142_trace",
    "Verif.Props.C142_dropped",
    "Verif.Props.C142_ask",
    "Verif.Props.C142_discover"
   ],
   "note": "The programs use the crate and are in Spec/Traceroute."
  },
  {
   "property": "C143",
   "status": "proved",
   "theorems": [
    "Verif.Props.C143_leave",
    "Verif.Props.C143_enter_leave",
    "Verif.Props.C143_leave_enter",
    "Verif.Props.C143_stack",
    "Verif.Props.C143_routed",
    "Verif.Props.C143_receive_total"
   ],
   "note": "The programs use the crate and are in Spec/Tunnel. Without its look at the routing bit the second program would panic (C134_gre)."
  }
 ]
}