{
 "claims": [
  {
   "property": "C01",
   "status": "proved",
   "theorems": [
    "Ef.Props.C01_integer_literals"
   ],
   "note": ""
  },
  {
   "property": "C02",
   "status": "partial",
   "theorems": [
    "Ef.Props.C02_long_hex_partial",
    "Ef.Props.C02_false",
    "Ef.Props.C02_too_long_writes_outside"
   ],
   "note": "The full statement C02_statement is refuted: an even literal longer than the field writes in front of the buffer."
  },
  {
   "property": "C03",
   "status": "partial",
   "theorems": [
    "Ef.Props.C03_long_binary_partial",
    "Ef.Props.C03_false",
    "Ef.Props.C03_too_long_writes_outside"
   ],
   "note": "The full statement C03_statement is refuted: a literal longer than the field writes in front of the buffer."
  },
  {
   "property": "C04",
   "status": "proved",
   "theorems": [
    "Ef.Props.C04_dotted_quad"
   ],
   "note": ""
  },
  {
   "property": "C05",
   "status": "partial",
   "theorems": [
    "Ef.Props.C05_mac_partial",
    "Ef.Props.C05_false"
   ],
   "note": "The full statement is refuted: an address whose text begins with 0b is taken for a binary literal and rejected."
  },
  {
   "property": "C06",
   "status": "partial",
   "theorems": [
    "Ef.Props.C06_ipv6_partial",
    "Ef.Props.C06_false"
   ],
   "note": "The full statement is refuted: an address whose text begins with 0b is taken for a binary literal and rejected."
  },
  {
   "property": "C07",
   "status": "proved",
   "theorems": [
    "Ef.Props.C07_size_exact"
   ],
   "note": ""
  },
  {
   "property": "C08",
   "status": "proved",
   "theorems": [
    "Ef.Props.C08_hex_round_trip"
   ],
   "note": ""
  },
  {
   "property": "C09",
   "status": "proved",
   "theorems": [
    "Ef.Props.C09_hex_strings"
   ],
   "note": ""
  },
  {
   "property": "C10",
   "status": "proved",
   "theorems": [
    "Ef.Props.C10_payload_concatenates"
   ],
   "note": ""
  },
  {
   "property": "C11",
   "status": "proved",
   "theorems": [
    "Ef.Props.C11_payload_segments"
   ],
   "note": "Counts below 2^32 (larger counts are reduced by the 4 byte parser)."
  },
  {
   "property": "C12",
   "status": "proved",
   "theorems": [
    "Ef.Props.C12_write_field_exact",
    "Ef.Props.C12_write_field_outside_aborts"
   ],
   "note": ""
  },
  {
   "property": "C13",
   "status": "proved",
   "theorems": [
    "Ef.Props.C13_read_back"
   ],
   "note": ""
  },
  {
   "property": "C14",
   "status": "proved",
   "theorems": [
    "Ef.Props.C14_layouts",
    "Ef.Props.C14_table"
   ],
   "note": ""
  },
  {
   "property": "C15",
   "status": "proved",
   "theorems": [
    "Ef.Props.C15_frame_bytes"
   ],
   "note": ""
  },
  {
   "property": "C17",
   "status": "proved",
   "theorems": [
    "Ef.Props.C17_values_appear"
   ],
   "note": ""
  },
  {
   "property": "C18",
   "status": "proved",
   "theorems": [
    "Ef.Props.C18_last_overlay_wins"
   ],
   "note": ""
  },
  {
   "property": "C19",
   "status": "proved",
   "theorems": [
    "Ef.Props.C19_mask_length"
   ],
   "note": ""
  },
  {
   "property": "C20",
   "status": "proved",
   "theorems": [
    "Ef.Props.C20_mask_bits",
    "Ef.Props.C20_exactly",
    "Ef.Props.C20_parsed"
   ],
   "note": "C20_parsed is for all frames of the command line for which there is a mask; in all other cases an assertion fails."
  },
  {
   "property": "C21",
   "status": "partial",
   "theorems": [
    "Ef.Props.C21_ignored_field_partial",
    "Ef.Props.C21_false",
    "Ef.Props.C21_exactly"
   ],
   "note": "The full statement is refuted for overlay fields: ifh-oc1 b0-masq ign still compares bits of the other overlays. Proved that the differences are ignored exactly if none of the bits belongs to a compared field or to the padding."
  },
  {
   "property": "C23",
   "status": "proved",
   "theorems": [
    "Ef.Props.C23_masked_comparison"
   ],
   "note": ""
  },
  {
   "property": "C24",
   "status": "partial",
   "theorems": [
    "Ef.Props.C24_padding_partial",
    "Ef.Props.C24_false",
    "Ef.Props.C24_padding_reads_outside",
    "Ef.Props.C24_exactly"
   ],
   "note": "The full statement is refuted: with padding the comparison reads behind the expected frame. Proved for exactly which frames this happens; all others are compared correctly."
  },
  {
   "property": "C25",
   "status": "proved",
   "theorems": [
    "Ef.Props.C25_self_match"
   ],
   "note": ""
  },
  {
   "property": "C26",
   "status": "proved",
   "theorems": [
    "Ef.Props.C26_equal_and_copies"
   ],
   "note": ""
  },
  {
   "property": "C16",
   "status": "partial",
   "theorems": [
    "Ef.Props.C16_own_bytes_partial",
    "Ef.Props.C16_exactly",
    "Ef.Props.C16_false",
    "Ef.Props.C16_abort"
   ],
   "note": "The full statement is refuted: 'sv' with a last but no second TLV writes into the next header or aborts."
  },
  {
   "property": "C27",
   "status": "proved",
   "theorems": [
    "Ef.Props.C27_explicit_values_win"
   ],
   "note": "On the wire: fields inside their header (see C16). coap-opt 'num' is the exception named in the property."
  },
  {
   "property": "C28",
   "status": "proved",
   "theorems": [
    "Ef.Props.C28_ethertype",
    "Ef.Props.C28_ethertype_last",
    "Ef.Props.C28_ethertype_overwritten"
   ],
   "note": "The last theorem shows that the exception named in the property does occur."
  },
  {
   "property": "C29",
   "status": "proved",
   "theorems": [
    "Ef.Props.C29_ipv4_length"
   ],
   "note": ""
  },
  {
   "property": "C30",
   "status": "proved",
   "theorems": [
    "Ef.Props.C30_ipv4_protocol"
   ],
   "note": ""
  },
  {
   "property": "C31",
   "status": "partial",
   "theorems": [
    "Ef.Props.C31_ipv4_checksum_partial",
    "Ef.Props.C31_false"
   ],
   "note": "Refuted in general (carries are added once only); proved that the header verifies exactly if one fold suffices."
  },
  {
   "property": "C32",
   "status": "partial",
   "theorems": [
    "Ef.Props.C32_checksum_partial",
    "Ef.Props.C32_false"
   ],
   "note": "Refuted in general (carries are added once only); proved that the result is right exactly if one fold suffices."
  },
  {
   "property": "C33",
   "status": "proved",
   "theorems": [
    "Ef.Props.C33_udp_length"
   ],
   "note": ""
  },
  {
   "property": "C34",
   "status": "partial",
   "theorems": [
    "Ef.Props.C34_over_ipv4_partial",
    "Ef.Props.C34_over_ipv6_partial",
    "Ef.Props.C34_false"
   ],
   "note": "Refuted in general; proved that the checksum verifies exactly if one fold suffices."
  },
  {
   "property": "C35",
   "status": "partial",
   "theorems": [
    "Ef.Props.C35_icmp_checksum_partial",
    "Ef.Props.C35_false"
   ],
   "note": "Refuted in general; proved that the checksum verifies exactly if one fold suffices."
  },
  {
   "property": "C36",
   "status": "partial",
   "theorems": [
    "Ef.Props.C36_igmp_layout",
    "Ef.Props.C36_igmp_checksum_partial",
    "Ef.Props.C36_false"
   ],
   "note": "Sizes and positions proved; the checksum part is refuted in general, proved exactly if one fold suffices."
  },
  {
   "property": "C37",
   "status": "partial",
   "theorems": [
    "Ef.Props.C37_mld_layout_partial",
    "Ef.Props.C37_mld_checksum_partial",
    "Ef.Props.C37_false",
    "Ef.Props.C37_both_abort",
    "Ef.Props.C37_checksum_wrong"
   ],
   "note": "Refuted: without ipv6 addresses the program ends, with query and report fields it aborts, and carries are added once only."
  },
  {
   "property": "C38",
   "status": "partial",
   "theorems": [
    "Ef.Props.C38_ipv6_length",
    "Ef.Props.C38_ipv6_next_partial",
    "Ef.Props.C38_false"
   ],
   "note": "Length proved; the next header number is refuted for mld, proved for the others."
  },
  {
   "property": "C39",
   "status": "proved",
   "theorems": [
    "Ef.Props.C39_ptp_length",
    "Ef.Props.C39_tlv_length"
   ],
   "note": ""
  },
  {
   "property": "C22",
   "status": "proved",
   "theorems": [
    "Ef.Props.C22_mask_needed",
    "Ef.Props.C22_marks"
   ],
   "note": "Assignments of fields of fixed size; the mask flag for any continuation."
  },
  {
   "property": "C45",
   "status": "proved",
   "theorems": [
    "Ef.Props.C45_stack_bound"
   ],
   "note": ""
  },
  {
   "property": "C46",
   "status": "proved",
   "theorems": [
    "Ef.Props.C46_consumed",
    "Ef.Props.C46_prefix",
    "Ef.Props.C46_terminates"
   ],
   "note": ""
  },
  {
   "property": "C47",
   "status": "proved",
   "theorems": [
    "Ef.Props.C47_last_assignment_wins"
   ],
   "note": "Fields of fixed size."
  },
  {
   "property": "C48",
   "status": "proved",
   "theorems": [
    "Ef.Props.C48_field_order"
   ],
   "note": "Fields of fixed size."
  },
  {
   "property": "C40",
   "status": "partial",
   "theorems": [
    "Ef.Props.C40_option_partial",
    "Ef.Props.C40_option_words_partial",
    "Ef.Props.C40_false"
   ],
   "note": "Refuted: the option number is sent as delta without subtracting the number of the option before. Proved for single options."
  },
  {
   "property": "C41",
   "status": "partial",
   "theorems": [
    "Ef.Props.C41_code_partial",
    "Ef.Props.C41_code_on_the_wire",
    "Ef.Props.C41_false",
    "Ef.Props.C41_token_on_the_wire",
    "Ef.Props.C41_token_text"
   ],
   "note": "Refuted: malformed codes such as 0.0: are accepted. Proved for well-formed codes, other malformed codes, and tokens."
  },
  {
   "property": "C42",
   "status": "partial",
   "theorems": [
    "Ef.Props.C42_little_endian_partial",
    "Ef.Props.C42_others_big_endian",
    "Ef.Props.C42_false"
   ],
   "note": "Refuted for gversion, nm-num and seq-num, which are sent big-endian; proved for pub-id and wg-id."
  },
  {
   "property": "C43",
   "status": "partial",
   "theorems": [
    "Ef.Props.C43_size_partial",
    "Ef.Props.C43_false"
   ],
   "note": "Refuted: in the short form the terminating TLV stays at bytes 20 and 21, outside the header. Sizes and all other fields proved."
  },
  {
   "property": "C44",
   "status": "partial",
   "theorems": [
    "Ef.Props.C44_twice_partial",
    "Ef.Props.C44_false"
   ],
   "note": "Refuted: IGMP, MLD, short supervision headers and CoAP options change again. Proved for frames without these."
  },
  {
   "property": "C49",
   "status": "partial",
   "theorems": [
    "Ef.Props.C49_rejected_partial",
    "Ef.Props.C49_dropped",
    "Ef.Props.C49_false"
   ],
   "note": "Refuted: C49_dropped shows that such texts are dropped silently for all plain fields. Payload segments and padding do reject them."
  },
  {
   "property": "C50",
   "status": "partial",
   "theorems": [
    "Ef.Props.C50_no_crash_partial",
    "Ef.Props.C50_sane",
    "Ef.Props.C50_mask",
    "Ef.Props.C50_crashes",
    "Ef.Props.C50_false"
   ],
   "note": "Refuted by seven kinds of crashes. Proved for all command lines without the situations that lead to them; conditions on the words alone are enough, and the condition on masks is exact."
  },
  {
   "property": "C70",
   "status": "proved",
   "theorems": [
    "Ef.Props.C70_assigned_values",
    "Ef.Props.C70_numbers_on_the_wire"
   ],
   "note": ""
  },
  {
   "property": "C71",
   "status": "proved",
   "theorems": [
    "Ef.Props.C71_payload_on_the_wire"
   ],
   "note": ""
  },
  {
   "property": "C72",
   "status": "proved",
   "theorems": [
    "Ef.Props.C72_coap_payload"
   ],
   "note": ""
  },
  {
   "property": "C53",
   "status": "proved",
   "theorems": [
    "Ef.Props.C53_first_definition"
   ],
   "note": ""
  },
  {
   "property": "C54",
   "status": "proved",
   "theorems": [
    "Ef.Props.C54_unknown_names"
   ],
   "note": ""
  },
  {
   "property": "C55",
   "status": "proved",
   "theorems": [
    "Ef.Props.C55_grouped",
    "Ef.Props.C55_sockets"
   ],
   "note": ""
  },
  {
   "property": "C56",
   "status": "proved",
   "theorems": [
    "Ef.Props.C56_credit"
   ],
   "note": "The operating system is an arbitrary history of answers."
  },
  {
   "property": "C57",
   "status": "proved",
   "theorems": [
    "Ef.Props.C57_error_count"
   ],
   "note": ""
  },
  {
   "property": "C58",
   "status": "partial",
   "theorems": [
    "Ef.Props.C58_success_partial",
    "Ef.Props.C58_false"
   ],
   "note": "Refuted with overlapping masks, where the order of arrival matters; proved if no two expectations overlap."
  },
  {
   "property": "C59",
   "status": "proved",
   "theorems": [
    "Ef.Props.C59_arrival_order"
   ],
   "note": ""
  },
  {
   "property": "C60",
   "status": "partial",
   "theorems": [
    "Ef.Props.C60_count_partial",
    "Ef.Props.C60_false",
    "Ef.Props.C60_rep_zero",
    "Ef.Props.C60_exactly",
    "Ef.Props.C60_last_one_counts"
   ],
   "note": "Refuted: a failing last transmission or a repeat count of 0 wraps the counter. Proved if all sends succeed and the count is at least 1. For all results of send, the number of calls is described exactly."
  },
  {
   "property": "C61",
   "status": "proved",
   "theorems": [
    "Ef.Props.C61_order"
   ],
   "note": ""
  },
  {
   "property": "C62",
   "status": "partial",
   "theorems": [
    "Ef.Props.C62_independent_partial",
    "Ef.Props.C62_false"
   ],
   "note": "Refuted: a received frame that equals a pending tx frame cancels it. Proved if no such frame is received."
  },
  {
   "property": "C63",
   "status": "proved",
   "theorems": [
    "Ef.Props.C63_duration"
   ],
   "note": ""
  },
  {
   "property": "C64",
   "status": "proved",
   "theorems": [
    "Ef.Props.C64_timeouts"
   ],
   "note": "Non-negative timeouts."
  },
  {
   "property": "C51",
   "status": "proved",
   "theorems": [
    "Ef.Props.C51_all_or_nothing",
    "Ef.Props.C51_whole_tool"
   ],
   "note": ""
  },
  {
   "property": "C52",
   "status": "partial",
   "theorems": [
    "Ef.Props.C52_commands_partial",
    "Ef.Props.C52_too_long",
    "Ef.Props.C52_false"
   ],
   "note": "Refuted: a frame ending with a payload takes a following hex command as its own, and rx IF takes a following name command. Proved otherwise; more than 100 words behind the beginning of a command are always rejected."
  },
  {
   "property": "C65",
   "status": "partial",
   "theorems": [
    "Ef.Props.C65_same_run_partial",
    "Ef.Props.C65_large",
    "Ef.Props.C65_false"
   ],
   "note": "Refuted: without the tag protocol id in the kernel headers every tag becomes 0x8100, and frames of 32 KiB or more are compared without tag. Proved otherwise."
  },
  {
   "property": "C66",
   "status": "partial",
   "theorems": [
    "Ef.Props.C66_exit_status_partial",
    "Ef.Props.C66_false"
   ],
   "note": "Refuted: 256 errors give exit status 0. Proved that the status is 0 exactly if the number of problems is divisible by 256."
  },
  {
   "property": "C67",
   "status": "proved",
   "theorems": [
    "Ef.Props.C67_fed_back"
   ],
   "note": "Frames shorter than 2^31 bytes."
  },
  {
   "property": "C68",
   "status": "proved",
   "theorems": [
    "Ef.Props.C68_capture_command",
    "Ef.Props.C68_every_text"
   ],
   "note": ""
  },
  {
   "property": "C69",
   "status": "partial",
   "theorems": [
    "Ef.Props.C69_stop",
    "Ef.Props.C69_signals_partial",
    "Ef.Props.C69_false"
   ],
   "note": "Refuted: a child that ends before its process id is stored is signalled. Proved otherwise, for distinct process ids."
  },
  {
   "property": "C73",
   "status": "proved",
   "theorems": [
    "Ef.Props.C73_options_anywhere",
    "Ef.Props.C73_options_first",
    "Ef.Props.C73_bad_option",
    "Ef.Props.C73_version_help",
    "Ef.Props.C73_timeout"
   ],
   "note": "getopt as in glibc."
  },
  {
   "property": "C74",
   "status": "proved",
   "theorems": [
    "Ef.Props.C74_sleep"
   ],
   "note": "Non-negative timeouts, normalised clock values."
  },
  {
   "property": "C75",
   "status": "partial",
   "theorems": [
    "Ef.Props.C75_settable_partial",
    "Ef.Props.C75_hidden_fields",
    "Ef.Props.C75_false"
   ],
   "note": "Refuted: the second of two fields with the same name cannot be reached (ifh-la, oam-ccm, ptp-announce). Proved that exactly the first fields of their name can be given."
  },
  {
   "property": "C76",
   "status": "partial",
   "theorems": [
    "Ef.Props.C76_next_header_partial",
    "Ef.Props.C76_clashes",
    "Ef.Props.C76_false"
   ],
   "note": "Refuted: behind ten headers the next word is taken as a field of the same name, e.g. 'mrp_tst padding'. Proved for all other pairs; all ten clashes shown."
  },
  {
   "property": "C77",
   "status": "proved",
   "theorems": [
    "Ef.Props.C77_report"
   ],
   "note": "Interface names without newline, colon and leading blank, frame names without newline; the text itself, character by character."
  },
  {
   "property": "C78",
   "status": "partial",
   "theorems": [
    "Ef.Props.C78_presets_partial",
    "Ef.Props.C78_exceptions",
    "Ef.Props.C78_lengths",
    "Ef.Props.C78_false"
   ],
   "note": "Refuted: t_length of mrp_topo is 12 instead of 10, tlv-type of ptp-tlv-path 0 instead of 8, flags1-flags2 of opc-ua 1 without the byte announced. Proved for every other field."
  },
  {
   "property": "C79",
   "status": "proved",
   "theorems": [
    "Ef.Props.C79_size",
    "Ef.Props.C79_every_size",
    "Ef.Props.C79_numbers",
    "Ef.Props.C79_bytes",
    "Ef.Props.C79_ipv4_address",
    "Ef.Props.C79_mac_address",
    "Ef.Props.C79_ipv6_address"
   ],
   "note": "Layout tables written from the documents. igmp and mld are dealt with by C36 and C37, sv by C43, number bytes of OPC-UA by C42."
  },
  {
   "property": "C80",
   "status": "proved",
   "theorems": [
    "Ef.Props.C80_header_list",
    "Ef.Props.C80_field_list",
    "Ef.Props.C80_positions",
    "Ef.Props.C80_one_field"
   ],
   "note": "The texts are generated from the sources. Positions for headers whose layout does not depend on the fields given (not igmp, mld, sv, coap-opt)."
  },
  {
   "property": "C81",
   "status": "partial",
   "theorems": [
    "Ef.Props.C81_rejected_reported_partial",
    "Ef.Props.C81_silent",
    "Ef.Props.C81_silent_lines",
    "Ef.Props.C81_parse_error",
    "Ef.Props.C81_false"
   ],
   "note": "Refuted: 'hex eth padding' is rejected without a word. Proved that only lines ending in an incomplete or unreadable payload or padding are rejected silently."
  },
  {
   "property": "C82",
   "status": "partial",
   "theorems": [
    "Ef.Props.C82_value_messages",
    "Ef.Props.C82_dropped_reported_partial",
    "Ef.Props.C82_false"
   ],
   "note": "Refuted: nothing is printed for 'hex eth dmac xyz'. Proved that exactly values that look like an address of the right size or are 0x/0b literals for more than 8 bytes are reported."
  },
  {
   "property": "C83",
   "status": "proved",
   "theorems": [
    "Ef.Props.C83_announced_defaults"
   ],
   "note": "24 announced defaults in sp-oc1, lp-oc1, sp-jr2, lp-jr2 and profinet-rtc (with 40 data bytes, as in the help)."
  },
  {
   "property": "C84",
   "status": "partial",
   "theorems": [
    "Ef.Props.C84_examples_partial",
    "Ef.Props.C84_false"
   ],
   "note": "Refuted: the example for ipv4 uses the fields sa and da, which do not exist. Proved for all other examples."
  },
  {
   "property": "C85",
   "status": "partial",
   "theorems": [
    "Ef.Props.C85_ignored_values_partial",
    "Ef.Props.C85_false"
   ],
   "note": "Refuted: 'eth ipv4 sip ign' does not accept 'eth ipv4 sip 1.2.3.4', as the checksum is still compared. Proved for headers of fixed size (not igmp, mld, sv, coap, coap-opt, coap-parms, profinet-rtc) if ignored fields do not overlap compared ones and nothing ignored goes into a compared checksum; the short form 'ign' only."
  },
  {
   "property": "C86",
   "status": "partial",
   "theorems": [
    "Ef.Props.C86_mac_texts_partial",
    "Ef.Props.C86_false"
   ],
   "note": "Refuted as stated: '1:2:3' is accepted as 00:00:00:01:02:03 and a single colon at either end is ignored. Proved instead: the exact set of accepted texts and their values, for every text with a colon."
  },
  {
   "property": "C87",
   "status": "proved",
   "theorems": [
    "Ef.Props.C87_ipv6_texts"
   ],
   "note": "Texts that begin with '0b' are excluded in the statement (see C06)."
  },
  {
   "property": "C88",
   "status": "partial",
   "theorems": [
    "Ef.Props.C88_all_texts_partial",
    "Ef.Props.C88_false"
   ],
   "note": "Refuted as stated: for fields of more than 8 bytes an even hexadecimal or binary number that is too long writes outside the buffer (C02, C03). Proved: acceptance and value are exactly as specified for every text and size, everything else is rejected. 'MAC address' is the set of texts of C86."
  },
  {
   "property": "C89",
   "status": "proved",
   "theorems": [
    "Ef.Props.C89_sent_in_time"
   ],
   "note": "Repeat counts are at least 1; a command to which a received frame is credited (C62) is excepted in the statement."
  },
  {
   "property": "C90",
   "status": "proved",
   "theorems": [
    "Ef.Props.C90_connection"
   ],
   "note": "Frames without ignored values and padding, two different interfaces, at most 101 words (C52)."
  },
  {
   "property": "C91",
   "status": "partial",
   "theorems": [
    "Ef.Props.C91_exactly",
    "Ef.Props.C91_padding_partial",
    "Ef.Props.C91_false"
   ],
   "note": "Refuted: 'eth dmac ::1 padding 4' expects the Ethernet type 0 instead of 0xaaaa, as the padding header announces itself. C91_exactly says for all frames what happens: a last header eth, ctag, stag, rtag, htag, ipv4 or ipv6 without explicit type of the next header announces 0, and nothing else changes."
  },
  {
   "property": "C92",
   "status": "proved",
   "theorems": [
    "Ef.Props.C92_repetitions"
   ],
   "note": ""
  },
  {
   "property": "C93",
   "status": "proved",
   "theorems": [
    "Ef.Props.C93_memory_safety"
   ],
   "note": "The receive buffer of ef-exec.c:187 (released in the same loop iteration), blocks of the C library and exhaustion of memory are not modelled."
  },
  {
   "property": "C94",
   "status": "partial",
   "theorems": [
    "Ef.Props.C94_released_partial",
    "Ef.Props.C94_never_all",
    "Ef.Props.C94_false"
   ],
   "note": "Refuted: eight default values of oam-lb, oam-lt and oam-raps are never released (ef-oam.c:304-312). Proved: an accepted command line leaves exactly these eight blocks, unless a value of token or meg_id is too long for the field (then it is lost, too). A rejected command line loses the commands and captures before the error."
  },
  {
   "property": "C95",
   "status": "partial",
   "theorems": [
    "Ef.Props.C95_socket_set_up_partial",
    "Ef.Props.C95_unknown_interface",
    "Ef.Props.C95_false"
   ],
   "note": "Refuted: the answer to the request for VLAN tags is not looked at (ef-exec.c:60-65 tests the result of the call before). Proved for the other steps. The system hands out no descriptor that is open."
  },
  {
   "property": "C96",
   "status": "partial",
   "theorems": [
    "Ef.Props.C96_sockets_closed_partial",
    "Ef.Props.C96_false"
   ],
   "note": "Refuted: if a later interface cannot be opened, the sockets of the earlier ones stay open (ef-exec.c:462-468). Proved: they are closed otherwise, and exactly these stay open in that case. The system hands out no descriptor that is open."
  },
  {
   "property": "C97",
   "status": "partial",
   "theorems": [
    "Ef.Props.C97_pcap_files_partial",
    "Ef.Props.C97_other_files",
    "Ef.Props.C97_pcap_line",
    "Ef.Props.C97_packets_unique",
    "Ef.Props.C97_false"
   ],
   "note": "Refuted: the result of pcap_append is not looked at (ef-exec.c:430), so that a file that cannot be opened leaves exit status 0. Proved for files that libpcap opens; the others are not touched. Write errors and the texts of error messages are not modelled."
  },
  {
   "property": "C98",
   "status": "partial",
   "theorems": [
    "Ef.Props.C98_no_crash_partial",
    "Ef.Props.C98_tool",
    "Ef.Props.C98_reads_outside",
    "Ef.Props.C98_false"
   ],
   "note": "Refuted: when a frame with padding arrives at an interface where it is expected, the comparison reads behind the expected frame (see C24). Proved when no received frame has that size or a compared bit differs (exact for the first frames that arrive), and for the whole tool (with C50) for command lines without the word padding."
  },
  {
   "property": "C99",
   "status": "proved",
   "theorems": [
    "Ef.Props.C99_receiver",
    "Ef.Props.C99_payload"
   ],
   "note": "Checksums are not part of it (C31, C34). Behind IPv4 and IPv6, arp and the PTP extensions are excluded, as their type numbers end with that of TCP."
  },
  {
   "property": "C100",
   "status": "partial",
   "theorems": [
    "Ef.Props.C100_spelled_out_partial",
    "Ef.Props.C100_numbers_partial",
    "Ef.Props.C100_false"
   ],
   "note": "Refuted: a written-out checksum of icmp on ipv6 changes the announced next header from 58 to 1 (ef-icmp.c:18-37). Proved outside of this case for headers of fixed shape in frames without mld. Fields with parsers of their own are not covered."
  },
  {
   "property": "C101",
   "status": "partial",
   "theorems": [
    "Ef.Props.C101_separate_partial",
    "Ef.Props.C101_errors_partial",
    "Ef.Props.C101_sum",
    "Ef.Props.C101_false"
   ],
   "note": "Refuted: a received frame that equals the frame of a tx command of the same interface is expected before and unexpected after its transmission (see C62). Proved if no such frame is received."
  },
  {
   "property": "C102",
   "status": "partial",
   "theorems": [
    "Ef.Props.C102_message_partial",
    "Ef.Props.C102_right_partial",
    "Ef.Props.C102_received_partial",
    "Ef.Props.C102_false"
   ],
   "note": "Refuted: the number of the second of two options is decoded as the sum of both (see C40). Proved: everything else is decoded as given, for any number of options, and the numbers are the running sums; they are right exactly if all but the last one are 0."
  },
  {
   "property": "C103",
   "status": "partial",
   "theorems": [
    "Ef.Props.C103_names_partial",
    "Ef.Props.C103_exists",
    "Ef.Props.C103_false"
   ],
   "note": "Refuted: a name in front of a 'hex' command cannot be replaced by a frame that ends with payload segments (see C52). Proved for all lines whose commands can be separated before and after the replacement; the results are equal including waiting and crashes."
  },
  {
   "property": "C104",
   "status": "partial",
   "theorems": [
    "Ef.Props.C104_once_partial",
    "Ef.Props.C104_false",
    "Ef.Props.C104_processes",
    "Ef.Props.C104_doubles",
    "Ef.Props.C104_inherited"
   ],
   "note": "Refuted: a child in which execl fails returns from capture_start and goes on as a second tool (ef-capture.c:174-189); without /bin/bash n captures lead to 2^n processes that all transmit. Proved: they are executed once exactly if no execl fails; all processes and their captures are described."
  },
  {
   "property": "C105",
   "status": "proved",
   "theorems": [
    "Ef.Props.C105_one_more"
   ],
   "note": ""
  },
  {
   "property": "C106",
   "status": "proved",
   "theorems": [
    "Ef.Props.C106_longer",
    "Ef.Props.C106_timeout"
   ],
   "note": ""
  },
  {
   "property": "C107",
   "status": "partial",
   "theorems": [
    "Ef.Props.C107_arguments_partial",
    "Ef.Props.C107_false",
    "Ef.Props.C107_exactly",
    "Ef.Props.C107_blank"
   ],
   "note": "Refuted: with an empty interface the words of the command move up, and elements with blanks are split by the shell, so that another file is written than the one deleted before. Proved that these are the only exceptions for texts without characters that mean something to the shell."
  },
  {
   "property": "C108",
   "status": "proved",
   "theorems": [
    "Ef.Props.C108_no_influence"
   ],
   "note": ""
  },
  {
   "property": "C109",
   "status": "proved",
   "theorems": [
    "Ef.Props.C109_values",
    "Ef.Props.C109_numbers",
    "Ef.Props.C109_success"
   ],
   "note": ""
  },
  {
   "property": "C110",
   "status": "proved",
   "theorems": [
    "Ef.Props.C110_carried",
    "Ef.Props.C110_tag"
   ],
   "note": ""
  },
  {
   "property": "C111",
   "status": "proved",
   "theorems": [
    "Ef.Props.C111_order",
    "Ef.Props.C111_swap",
    "Ef.Props.C111_words"
   ],
   "note": ""
  },
  {
   "property": "C112",
   "status": "partial",
   "theorems": [
    "Ef.Props.C112_false",
    "Ef.Props.C112_debug",
    "Ef.Props.C112_printed_partial",
    "Ef.Props.C112_append",
    "Ef.Props.C112_bprintf"
   ],
   "note": "Refuted: with assertions no call of bl_printf_append returns; without them the printed text is lost and the next call dereferences NULL."
  },
  {
   "property": "C113",
   "status": "proved",
   "theorems": [
    "Ef.Props.C113_dump"
   ],
   "note": ""
  },
  {
   "property": "C114",
   "status": "proved",
   "theorems": [
    "Ef.Props.C114_execution",
    "Ef.Props.C114_words"
   ],
   "note": ""
  },
  {
   "property": "C115",
   "status": "proved",
   "theorems": [
    "Ef.Props.C115_asked",
    "Ef.Props.C115_whole_tool"
   ],
   "note": ""
  },
  {
   "property": "C116",
   "status": "proved",
   "theorems": [
    "Ef.Props.C116_meg_id"
   ],
   "note": ""
  },
  {
   "property": "C117",
   "status": "partial",
   "theorems": [
    "Ef.Props.C117_own_sockets_partial",
    "Ef.Props.C117_lowest",
    "Ef.Props.C117_false"
   ],
   "note": "Refuted: a socket with a descriptor of 1024 or more is written behind the end of the set for select. Proved for lower descriptors, which systems that hand out the lowest free descriptor always give if at most 924 descriptors were open at the start."
  },
  {
   "property": "C118",
   "status": "proved",
   "theorems": [
    "Ef.Props.C118_same_frame",
    "Ef.Props.C118_same_words"
   ],
   "note": ""
  },
  {
   "property": "C119",
   "status": "proved",
   "theorems": [
    "Ef.Props.C119_frames",
    "Ef.Props.C119_lines"
   ],
   "note": ""
  },
  {
   "property": "C120",
   "status": "proved",
   "theorems": [
    "Ef.Props.C120_reason",
    "Ef.Props.C120_needs",
    "Ef.Props.C120_lines"
   ],
   "note": ""
  },
  {
   "property": "C121",
   "status": "partial",
   "theorems": [
    "Ef.Props.C121_told_partial",
    "Ef.Props.C121_false"
   ],
   "note": "Refuted: the line about the failed call does not contain the name of the interface (and a refused PACKET_AUXDATA is silent)."
  },
  {
   "property": "C122",
   "status": "partial",
   "theorems": [
    "Ef.Props.C122_named_partial",
    "Ef.Props.C122_header",
    "Ef.Props.C122_enough",
    "Ef.Props.C122_crash",
    "Ef.Props.C122_false"
   ],
   "note": "Refuted: if the copy of the bytes of a named frame is not granted, an rx command forgets that it waits for the frame and the run succeeds."
  },
  {
   "property": "C123",
   "status": "partial",
   "theorems": [
    "Ef.Props.C123_payload_partial",
    "Ef.Props.C123_agrees",
    "Ef.Props.C123_exactly",
    "Ef.Props.C123_false"
   ],
   "note": "Refuted: the width of a field is an int, so of a payload of 2^29 bytes only zeros are sent."
  },
  {
   "property": "C124",
   "status": "partial",
   "theorems": [
    "Ef.Props.C124_commands_partial",
    "Ef.Props.C124_beginning",
    "Ef.Props.C124_ends_the_run",
    "Ef.Props.C124_example",
    "Ef.Props.C124_false"
   ],
   "note": "Refuted: SIGCHLD interrupts select, which ends the run; frames that arrive later are reported missing. Proved if no capture ends while the tool waits; otherwise the run is exactly the one up to that moment."
  },
  {
   "property": "C125",
   "status": "partial",
   "theorems": [
    "Ef.Props.C125_start_partial",
    "Ef.Props.C125_timeout_partial",
    "Ef.Props.C125_stop_partial",
    "Ef.Props.C125_no_time",
    "Ef.Props.C125_cut_short",
    "Ef.Props.C125_false"
   ],
   "note": "Refuted: SIGCHLD interrupts sleep, so that the end of one capture takes the time away from all others. Proved for each of the waits if no capture ends during it."
  },
  {
   "property": "C126",
   "status": "partial",
   "theorems": [
    "Ef.Props.C126_all_partial",
    "Ef.Props.C126_first",
    "Ef.Props.C126_success_partial",
    "Ef.Props.C126_connection_partial",
    "Ef.Props.C126_example",
    "Ef.Props.C126_late",
    "Ef.Props.C126_false"
   ],
   "note": "Refuted: the clock is read after select; if it has passed the deadline by then, frames that wait in the sockets are not looked at. Proved if the last select returns 0; in any case the report is about the first frames that arrived, without a gap."
  },
  {
   "property": "C127",
   "status": "partial",
   "theorems": [
    "Ef.Props.C127_errors_partial",
    "Ef.Props.C127_messages_partial",
    "Ef.Props.C127_possible",
    "Ef.Props.C127_example",
    "Ef.Props.C127_false"
   ],
   "note": "Refuted: a line is printed with several calls, and the handler for SIGCHLD prints its own line between them. Proved: standard error can always be read, standard output if captures end only between messages."
  },
  {
   "property": "C128",
   "status": "proved",
   "theorems": [
    "Ef.Props.C128_nothing_expected",
    "Ef.Props.C128_not_asked",
    "Ef.Props.C128_words",
    "Ef.Props.C128_silence"
   ],
   "note": "C128_silence under the condition of C126 that the last select returns 0."
  },
  {
   "property": "C129",
   "status": "partial",
   "theorems": [
    "Ef.Props.C129_lines_partial",
    "Ef.Props.C129_all_lines_partial",
    "Ef.Props.C129_always_zero",
    "Ef.Props.C129_refused",
    "Ef.Props.C129_last_only",
    "Ef.Props.C129_false"
   ],
   "note": "Refuted: transmissions do not count for the result. If an interface does not get ready in time, or send fails, the result is still 0; without rx commands it is always 0. Proved: the TX lines are those of the completed commands, and if every send succeeds and there is a line for each tx command, everything was transmitted."
  },
  {
   "property": "C130",
   "status": "proved",
   "theorems": [
    "Ef.Props.C130_off_by_one",
    "Ef.Props.C130_rare",
    "Ef.Props.C130_ipv4",
    "Ef.Props.C130_usual",
    "Ef.Props.C130_example"
   ],
   "note": "Data of at most 128 KiB. The two bytes of a wrong checksum are compared for the routine, not in the frame."
  },
  {
   "property": "C131",
   "status": "proved",
   "theorems": [
    "Ef.Props.C131_masked",
    "Ef.Props.C131_one",
    "Ef.Props.C131_fields",
    "Ef.Props.C131_relaxed",
    "Ef.Props.C131_example"
   ],
   "note": "Expectations of which two different ones have a frame in common are excluded in one direction (C58); frames without padding. C131_relaxed under the conditions of C85."
  },
  {
   "property": "C132",
   "status": "partial",
   "theorems": [
    "Ef.Props.C132_line_partial",
    "Ef.Props.C132_enough",
    "Ef.Props.C132_success_partial",
    "Ef.Props.C132_examples",
    "Ef.Props.C132_false"
   ],
   "note": "Refuted: the result of strdup is not looked at. Without the name of an expected frame the tool expects nothing and reports success. Proved: which names are lost; a run that reports success has kept all interfaces and files, and a definition for each name referred to."
  },
  {
   "property": "C133",
   "status": "partial",
   "theorems": [
    "Ef.Props.C133_every",
    "Ef.Props.C133_timeout_partial",
    "Ef.Props.C133_repeat_partial",
    "Ef.Props.C133_unique",
    "Ef.Props.C133_examples",
    "Ef.Props.C133_false"
   ],
   "note": "Refuted: atoi has no errors, -t 1O0 is a timeout of 1 millisecond. Proved: how every text is read."
  },
  {
   "property": "C134",
   "status": "proved",
   "theorems": [
    "Ef.Props.C134_noticed",
    "Ef.Props.C134_enough",
    "Ef.Props.C134_example"
   ],
   "note": "What is proved is that no run ends with another result; the tool does not report the lack of memory but uses NULL."
  },
  {
   "property": "C135",
   "status": "partial",
   "theorems": [
    "Ef.Props.C135_outcome_partial",
    "Ef.Props.C135_added_partial",
    "Ef.Props.C135_files_partial",
    "Ef.Props.C135_run_partial",
    "Ef.Props.C135_enough",
    "Ef.Props.C135_run_enough",
    "Ef.Props.C135_examples",
    "Ef.Props.C135_run_example",
    "Ef.Props.C135_false",
    "Ef.Props.C135_false_null"
   ],
   "note": "Refuted: the file of the capture is deleted before the last requests for memory, and two results of the allocator are used without a check. Proved: exactly what happens depending on the first request that is refused, and that a run ends as usual or fails before anything is sent or recorded."
  },
  {
   "property": "C136",
   "status": "partial",
   "theorems": [
    "Ef.Props.C136_payload_partial",
    "Ef.Props.C136_requests_partial",
    "Ef.Props.C136_values",
    "Ef.Props.C136_examples",
    "Ef.Props.C136_false"
   ],
   "note": "Refuted: `hex`, `ascii` and `ascii0` use the result of the allocator without a check. Proved: a payload or value that is accepted is the one written, and a refused request leads to a refusal or a use of NULL."
  },
  {
   "property": "C137",
   "status": "partial",
   "theorems": [
    "Ef.Props.C137_ether_type_partial",
    "Ef.Props.C137_ipv4_partial",
    "Ef.Props.C137_ipv6_partial",
    "Ef.Props.C137_enough",
    "Ef.Props.C137_examples",
    "Ef.Props.C137_left_out",
    "Ef.Props.C137_false"
   ],
   "note": "Refuted: without memory for a computed value the field is silently left out, and the frame goes out with 0 in it. Proved: the Ethernet type and the computed fields of the IP headers are each computed as usual or left out, the latter only if a request was refused."
  },
  {
   "property": "C138",
   "status": "partial",
   "theorems": [
    "Ef.Props.C138_only_partial",
    "Ef.Props.C138_enough",
    "Ef.Props.C138_examples",
    "Ef.Props.C138_false"
   ],
   "note": "Refuted: without memory for the copy of an address, the protocol or the length of the pseudo header a wrong checksum is stored silently. Proved: the length is the usual one or left out, nothing but length and checksum changes, a given checksum stays, and with enough memory all is as usual."
  },
  {
   "property": "C139",
   "status": "proved",
   "theorems": [
    "Ef.Props.C139_icmp",
    "Ef.Props.C139_igmp",
    "Ef.Props.C139_icmp_enough",
    "Ef.Props.C139_igmp_enough",
    "Ef.Props.C139_examples"
   ],
   "note": ""
  }
 ]
}