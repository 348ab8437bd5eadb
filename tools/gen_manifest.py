#!/usr/bin/env python3
"""Write MANIFEST.json from the table below; theorem names are given without the Ef.Props prefix."""
import json, os, re
ROOT = os.path.dirname(os.path.dirname(os.path.abspath(__file__)))
C = []
def c(prop, status, thms, note=""):
    C.append({"property": prop, "status": status,
              "theorems": ["Ef.Props." + t for t in thms], "note": note})

c("C01", "proved", ["C01_integer_literals"])
c("C02", "partial", ["C02_long_hex_partial", "C02_false", "C02_too_long_writes_outside"],
  "The full statement C02_statement is refuted: an even literal longer than the field writes in front of the buffer.")
c("C03", "partial", ["C03_long_binary_partial", "C03_false", "C03_too_long_writes_outside"],
  "The full statement C03_statement is refuted: a literal longer than the field writes in front of the buffer.")
c("C04", "proved", ["C04_dotted_quad"])
c("C05", "partial", ["C05_mac_partial", "C05_false"],
  "The full statement is refuted: an address whose text begins with 0b is taken for a binary literal and rejected.")
c("C06", "partial", ["C06_ipv6_partial", "C06_false"],
  "The full statement is refuted: an address whose text begins with 0b is taken for a binary literal and rejected.")
c("C07", "proved", ["C07_size_exact"])
c("C08", "proved", ["C08_hex_round_trip"])
c("C09", "proved", ["C09_hex_strings"])
c("C10", "proved", ["C10_payload_concatenates"])
c("C11", "proved", ["C11_payload_segments"], "Counts below 2^32 (larger counts are reduced by the 4 byte parser).")
c("C12", "proved", ["C12_write_field_exact", "C12_write_field_outside_aborts"])
c("C13", "proved", ["C13_read_back"])
c("C14", "proved", ["C14_layouts", "C14_table"])
c("C15", "proved", ["C15_frame_bytes"])
c("C17", "proved", ["C17_values_appear"])
c("C18", "proved", ["C18_last_overlay_wins"])
c("C19", "proved", ["C19_mask_length"])
c("C20", "proved", ["C20_mask_bits", "C20_exactly", "C20_parsed"],
  "C20_parsed is for all frames of the command line for which there is a mask; in all other cases an assertion fails.")
c("C21", "partial", ["C21_ignored_field_partial", "C21_false", "C21_exactly"],
  "The full statement is refuted for overlay fields: ifh-oc1 b0-masq ign still compares bits of the other overlays. Proved that the differences are ignored exactly if none of the bits belongs to a compared field or to the padding.")
c("C23", "proved", ["C23_masked_comparison"])
c("C24", "partial", ["C24_padding_partial", "C24_false", "C24_padding_reads_outside", "C24_exactly"],
  "The full statement is refuted: with padding the comparison reads behind the expected frame. Proved for exactly which frames this happens; all others are compared correctly.")
c("C25", "proved", ["C25_self_match"])
c("C26", "proved", ["C26_equal_and_copies"])

c("C16", "partial", ["C16_own_bytes_partial", "C16_exactly", "C16_false", "C16_abort"],
  "The full statement is refuted: 'sv' with a last but no second TLV writes into the next header or aborts.")
c("C27", "proved", ["C27_explicit_values_win"], "On the wire: fields inside their header (see C16). coap-opt 'num' is the exception named in the property.")
c("C28", "proved", ["C28_ethertype", "C28_ethertype_last", "C28_ethertype_overwritten"],
  "The last theorem shows that the exception named in the property does occur.")
c("C29", "proved", ["C29_ipv4_length"], "")
c("C30", "proved", ["C30_ipv4_protocol"], "")
c("C31", "partial", ["C31_ipv4_checksum_partial", "C31_false"],
  "Refuted in general (carries are added once only); proved that the header verifies exactly if one fold suffices.")
c("C32", "partial", ["C32_checksum_partial", "C32_false"],
  "Refuted in general (carries are added once only); proved that the result is right exactly if one fold suffices.")
c("C33", "proved", ["C33_udp_length"], "")
c("C34", "partial", ["C34_over_ipv4_partial", "C34_over_ipv6_partial", "C34_false"],
  "Refuted in general; proved that the checksum verifies exactly if one fold suffices.")
c("C35", "partial", ["C35_icmp_checksum_partial", "C35_false"],
  "Refuted in general; proved that the checksum verifies exactly if one fold suffices.")
c("C36", "partial", ["C36_igmp_layout", "C36_igmp_checksum_partial", "C36_false"],
  "Sizes and positions proved; the checksum part is refuted in general, proved exactly if one fold suffices.")
c("C37", "partial", ["C37_mld_layout_partial", "C37_mld_checksum_partial", "C37_false", "C37_both_abort", "C37_checksum_wrong"],
  "Refuted: without ipv6 addresses the program ends, with query and report fields it aborts, and carries are added once only.")
c("C38", "partial", ["C38_ipv6_length", "C38_ipv6_next_partial", "C38_false"],
  "Length proved; the next header number is refuted for mld, proved for the others.")
c("C39", "proved", ["C39_ptp_length", "C39_tlv_length"], "")
c("C22", "proved", ["C22_mask_needed", "C22_marks"], "Assignments of fields of fixed size; the mask flag for any continuation.")
c("C45", "proved", ["C45_stack_bound"], "")
c("C46", "proved", ["C46_consumed", "C46_prefix", "C46_terminates"], "")
c("C47", "proved", ["C47_last_assignment_wins"], "Fields of fixed size.")
c("C48", "proved", ["C48_field_order"], "Fields of fixed size.")
c("C40", "partial", ["C40_option_partial", "C40_option_words_partial", "C40_false"],
  "Refuted: the option number is sent as delta without subtracting the number of the option before. Proved for single options.")
c("C41", "partial", ["C41_code_partial", "C41_code_on_the_wire", "C41_false", "C41_token_on_the_wire", "C41_token_text"],
  "Refuted: malformed codes such as 0.0: are accepted. Proved for well-formed codes, other malformed codes, and tokens.")
c("C42", "partial", ["C42_little_endian_partial", "C42_others_big_endian", "C42_false"],
  "Refuted for gversion, nm-num and seq-num, which are sent big-endian; proved for pub-id and wg-id.")
c("C43", "partial", ["C43_size_partial", "C43_false"],
  "Refuted: in the short form the terminating TLV stays at bytes 20 and 21, outside the header. Sizes and all other fields proved.")
c("C44", "partial", ["C44_twice_partial", "C44_false"],
  "Refuted: IGMP, MLD, short supervision headers and CoAP options change again. Proved for frames without these.")
c("C49", "partial", ["C49_rejected_partial", "C49_dropped", "C49_false"],
  "Refuted: C49_dropped shows that such texts are dropped silently for all plain fields. Payload segments and padding do reject them.")
c("C50", "partial", ["C50_no_crash_partial", "C50_sane", "C50_mask", "C50_crashes", "C50_false"],
  "Refuted by seven kinds of crashes. Proved for all command lines without the situations that lead to them; conditions on the words alone are enough, and the condition on masks is exact.")
c("C70", "proved", ["C70_assigned_values", "C70_numbers_on_the_wire"], "")
c("C71", "proved", ["C71_payload_on_the_wire"], "")
c("C72", "proved", ["C72_coap_payload"], "")
c("C53", "proved", ["C53_first_definition"], "")
c("C54", "proved", ["C54_unknown_names"], "")
c("C55", "proved", ["C55_grouped", "C55_sockets"], "")
c("C56", "proved", ["C56_credit"], "The operating system is an arbitrary history of answers.")
c("C57", "proved", ["C57_error_count"], "")
c("C58", "partial", ["C58_success_partial", "C58_false"],
  "Refuted with overlapping masks, where the order of arrival matters; proved if no two expectations overlap.")
c("C59", "proved", ["C59_arrival_order"], "")
c("C60", "partial", ["C60_count_partial", "C60_false", "C60_rep_zero", "C60_exactly", "C60_last_one_counts"],
  "Refuted: a failing last transmission or a repeat count of 0 wraps the counter. Proved if all sends succeed and the count is at least 1. For all results of send, the number of calls is described exactly.")
c("C61", "proved", ["C61_order"], "")
c("C62", "partial", ["C62_independent_partial", "C62_false"],
  "Refuted: a received frame that equals a pending tx frame cancels it. Proved if no such frame is received.")
c("C63", "proved", ["C63_duration"], "")
c("C64", "proved", ["C64_timeouts"], "Non-negative timeouts.")
c("C51", "proved", ["C51_all_or_nothing", "C51_whole_tool"], "")
c("C52", "partial", ["C52_commands_partial", "C52_too_long", "C52_false"],
  "Refuted: a frame ending with a payload takes a following hex command as its own, and rx IF takes a following name command. Proved otherwise; more than 100 words behind the beginning of a command are always rejected.")
c("C65", "partial", ["C65_same_run_partial", "C65_large", "C65_false"],
  "Refuted: without the tag protocol id in the kernel headers every tag becomes 0x8100, and frames of 32 KiB or more are compared without tag. Proved otherwise.")
c("C66", "partial", ["C66_exit_status_partial", "C66_false"],
  "Refuted: 256 errors give exit status 0. Proved that the status is 0 exactly if the number of problems is divisible by 256.")
c("C67", "proved", ["C67_fed_back"], "Frames shorter than 2^31 bytes.")
c("C68", "proved", ["C68_capture_command", "C68_every_text"], "")
c("C69", "partial", ["C69_stop", "C69_signals_partial", "C69_false"],
  "Refuted: a child that ends before its process id is stored is signalled. Proved otherwise, for distinct process ids.")
c("C73", "proved", ["C73_options_anywhere", "C73_options_first", "C73_bad_option", "C73_version_help", "C73_timeout"], "getopt as in glibc.")
c("C74", "proved", ["C74_sleep"], "Non-negative timeouts, normalised clock values.")
c("C75", "partial", ["C75_settable_partial", "C75_hidden_fields", "C75_false"],
  "Refuted: the second of two fields with the same name cannot be reached (ifh-la, oam-ccm, ptp-announce). Proved that exactly the first fields of their name can be given.")
c("C76", "partial", ["C76_next_header_partial", "C76_clashes", "C76_false"],
  "Refuted: behind ten headers the next word is taken as a field of the same name, e.g. 'mrp_tst padding'. Proved for all other pairs; all ten clashes shown.")
c("C77", "proved", ["C77_report"],
  "Interface names without newline, colon and leading blank, frame names without newline; the text itself, character by character.")
c("C78", "partial", ["C78_presets_partial", "C78_exceptions", "C78_lengths", "C78_false"],
  "Refuted: t_length of mrp_topo is 12 instead of 10, tlv-type of ptp-tlv-path 0 instead of 8, flags1-flags2 of opc-ua 1 without the byte announced. Proved for every other field.")
c("C79", "proved", ["C79_size", "C79_every_size", "C79_numbers", "C79_bytes", "C79_ipv4_address", "C79_mac_address", "C79_ipv6_address"],
  "Layout tables written from the documents. igmp and mld are dealt with by C36 and C37, sv by C43, number bytes of OPC-UA by C42.")

c("C80", "proved", ["C80_header_list", "C80_field_list", "C80_positions", "C80_one_field"],
  "The texts are generated from the sources. Positions for headers whose layout does not depend on the fields given (not igmp, mld, sv, coap-opt).")
c("C81", "partial", ["C81_rejected_reported_partial", "C81_silent", "C81_silent_lines", "C81_parse_error", "C81_false"],
  "Refuted: 'hex eth padding' is rejected without a word. Proved that only lines ending in an incomplete or unreadable payload or padding are rejected silently.")
c("C82", "partial", ["C82_value_messages", "C82_dropped_reported_partial", "C82_false"],
  "Refuted: nothing is printed for 'hex eth dmac xyz'. Proved that exactly values that look like an address of the right size or are 0x/0b literals for more than 8 bytes are reported.")

c("C83", "proved", ["C83_announced_defaults"],
  "24 announced defaults in sp-oc1, lp-oc1, sp-jr2, lp-jr2 and profinet-rtc (with 40 data bytes, as in the help).")
c("C84", "partial", ["C84_examples_partial", "C84_false"],
  "Refuted: the example for ipv4 uses the fields sa and da, which do not exist. Proved for all other examples.")
c("C85", "partial", ["C85_ignored_values_partial", "C85_false"],
  "Refuted: 'eth ipv4 sip ign' does not accept 'eth ipv4 sip 1.2.3.4', as the checksum is still compared. Proved for headers of fixed size (not igmp, mld, sv, coap, coap-opt, coap-parms, profinet-rtc) if ignored fields do not overlap compared ones and nothing ignored goes into a compared checksum; the short form 'ign' only.")
c("C86", "partial", ["C86_mac_texts_partial", "C86_false"],
  "Refuted as stated: '1:2:3' is accepted as 00:00:00:01:02:03 and a single colon at either end is ignored. Proved instead: the exact set of accepted texts and their values, for every text with a colon.")
c("C87", "proved", ["C87_ipv6_texts"], "Texts that begin with '0b' are excluded in the statement (see C06).")
c("C88", "partial", ["C88_all_texts_partial", "C88_false"],
  "Refuted as stated: for fields of more than 8 bytes an even hexadecimal or binary number that is too long writes outside the buffer (C02, C03). Proved: acceptance and value are exactly as specified for every text and size, everything else is rejected. 'MAC address' is the set of texts of C86.")
c("C89", "proved", ["C89_sent_in_time"], "Repeat counts are at least 1; a command to which a received frame is credited (C62) is excepted in the statement.")
c("C90", "proved", ["C90_connection"], "Frames without ignored values and padding, two different interfaces, at most 101 words (C52).")
c("C91", "partial", ["C91_exactly", "C91_padding_partial", "C91_false"],
  "Refuted: 'eth dmac ::1 padding 4' expects the Ethernet type 0 instead of 0xaaaa, as the padding header announces itself. C91_exactly says for all frames what happens: a last header eth, ctag, stag, rtag, htag, ipv4 or ipv6 without explicit type of the next header announces 0, and nothing else changes.")
c("C92", "proved", ["C92_repetitions"])
c("C93", "proved", ["C93_memory_safety"],
  "The receive buffer of ef-exec.c:187 (released in the same loop iteration), blocks of the C library and exhaustion of memory are not modelled.")
c("C94", "partial", ["C94_released_partial", "C94_never_all", "C94_false"],
  "Refuted: eight default values of oam-lb, oam-lt and oam-raps are never released (ef-oam.c:304-312). Proved: an accepted command line leaves exactly these eight blocks, unless a value of token or meg_id is too long for the field (then it is lost, too). A rejected command line loses the commands and captures before the error.")
c("C95", "partial", ["C95_socket_set_up_partial", "C95_unknown_interface", "C95_false"],
  "Refuted: the answer to the request for VLAN tags is not looked at (ef-exec.c:60-65 tests the result of the call before). Proved for the other steps. The system hands out no descriptor that is open.")
c("C96", "partial", ["C96_sockets_closed_partial", "C96_false"],
  "Refuted: if a later interface cannot be opened, the sockets of the earlier ones stay open (ef-exec.c:462-468). Proved: they are closed otherwise, and exactly these stay open in that case. The system hands out no descriptor that is open.")
c("C97", "partial", ["C97_pcap_files_partial", "C97_other_files", "C97_pcap_line", "C97_packets_unique", "C97_false"],
  "Refuted: the result of pcap_append is not looked at (ef-exec.c:430), so that a file that cannot be opened leaves exit status 0. Proved for files that libpcap opens; the others are not touched. Write errors and the texts of error messages are not modelled.")

c("C98", "partial", ["C98_no_crash_partial", "C98_tool", "C98_reads_outside", "C98_false"],
  "Refuted: when a frame with padding arrives at an interface where it is expected, the comparison reads behind the expected frame (see C24). Proved when no received frame has that size or a compared bit differs (exact for the first frames that arrive), and for the whole tool (with C50) for command lines without the word padding.")

c("C99", "proved", ["C99_receiver", "C99_payload"],
  "Checksums are not part of it (C31, C34). Behind IPv4 and IPv6, arp and the PTP extensions are excluded, as their type numbers end with that of TCP.")

c("C100", "partial", ["C100_spelled_out_partial", "C100_numbers_partial", "C100_false"],
  "Refuted: a written-out checksum of icmp on ipv6 changes the announced next header from 58 to 1 (ef-icmp.c:18-37). Proved outside of this case for headers of fixed shape in frames without mld. Fields with parsers of their own are not covered.")

c("C101", "partial", ["C101_separate_partial", "C101_errors_partial", "C101_sum", "C101_false"],
  "Refuted: a received frame that equals the frame of a tx command of the same interface is expected before and unexpected after its transmission (see C62). Proved if no such frame is received.")

c("C102", "partial", ["C102_message_partial", "C102_right_partial", "C102_received_partial", "C102_false"],
  "Refuted: the number of the second of two options is decoded as the sum of both (see C40). Proved: everything else is decoded as given, for any number of options, and the numbers are the running sums; they are right exactly if all but the last one are 0.")

c("C103", "partial", ["C103_names_partial", "C103_exists", "C103_false"],
  "Refuted: a name in front of a 'hex' command cannot be replaced by a frame that ends with payload segments (see C52). Proved for all lines whose commands can be separated before and after the replacement; the results are equal including waiting and crashes.")

c("C104", "partial", ["C104_once_partial", "C104_false", "C104_processes", "C104_doubles", "C104_inherited"],
  "Refuted: a child in which execl fails returns from capture_start and goes on as a second tool (ef-capture.c:174-189); without /bin/bash n captures lead to 2^n processes that all transmit. Proved: they are executed once exactly if no execl fails; all processes and their captures are described.")
c("C105", "proved", ["C105_one_more"])
c("C106", "proved", ["C106_longer", "C106_timeout"])
c("C107", "partial", ["C107_arguments_partial", "C107_false", "C107_exactly", "C107_blank"],
  "Refuted: with an empty interface the words of the command move up, and elements with blanks are split by the shell, so that another file is written than the one deleted before. Proved that these are the only exceptions for texts without characters that mean something to the shell.")
c("C108", "proved", ["C108_no_influence"])
c("C109", "proved", ["C109_values", "C109_numbers", "C109_success"])
c("C110", "proved", ["C110_carried", "C110_tag"])
c("C111", "proved", ["C111_order", "C111_swap", "C111_words"])
c("C112", "partial", ["C112_false", "C112_debug", "C112_printed_partial", "C112_append", "C112_bprintf"], "Refuted: with assertions no call of bl_printf_append returns; without them the printed text is lost and the next call dereferences NULL.")
c("C113", "proved", ["C113_dump"])
c("C114", "proved", ["C114_execution", "C114_words"])
c("C115", "proved", ["C115_asked", "C115_whole_tool"])
c("C116", "proved", ["C116_meg_id"])
c("C117", "partial", ["C117_own_sockets_partial", "C117_lowest", "C117_false"],
  "Refuted: a socket with a descriptor of 1024 or more is written behind the end of the set for select. Proved for lower descriptors, which systems that hand out the lowest free descriptor always give if at most 924 descriptors were open at the start.")
c("C118", "proved", ["C118_same_frame", "C118_same_words"])
c("C119", "proved", ["C119_frames", "C119_lines"])
c("C120", "proved", ["C120_reason", "C120_needs", "C120_lines"])
c("C121", "partial", ["C121_told_partial", "C121_false"], "Refuted: the line about the failed call does not contain the name of the interface (and a refused PACKET_AUXDATA is silent).")
c("C122", "partial", ["C122_named_partial", "C122_header", "C122_enough", "C122_crash", "C122_false"], "Refuted: if the copy of the bytes of a named frame is not granted, an rx command forgets that it waits for the frame and the run succeeds.")
c("C123", "partial", ["C123_payload_partial", "C123_agrees", "C123_exactly", "C123_false"], "Refuted: the width of a field is an int, so of a payload of 2^29 bytes only zeros are sent.")
c("C124", "partial", ["C124_commands_partial", "C124_beginning", "C124_ends_the_run", "C124_example", "C124_false"], "Refuted: SIGCHLD interrupts select, which ends the run; frames that arrive later are reported missing. Proved if no capture ends while the tool waits; otherwise the run is exactly the one up to that moment.")
c("C125", "partial", ["C125_start_partial", "C125_timeout_partial", "C125_stop_partial", "C125_no_time", "C125_cut_short", "C125_false"], "Refuted: SIGCHLD interrupts sleep, so that the end of one capture takes the time away from all others. Proved for each of the waits if no capture ends during it.")
c("C126", "partial", ["C126_all_partial", "C126_first", "C126_success_partial", "C126_connection_partial", "C126_example", "C126_late", "C126_false"], "Refuted: the clock is read after select; if it has passed the deadline by then, frames that wait in the sockets are not looked at. Proved if the last select returns 0; in any case the report is about the first frames that arrived, without a gap.")
c("C127", "partial", ["C127_errors_partial", "C127_messages_partial", "C127_possible", "C127_example", "C127_false"], "Refuted: a line is printed with several calls, and the handler for SIGCHLD prints its own line between them. Proved: standard error can always be read, standard output if captures end only between messages.")
c("C128", "proved", ["C128_nothing_expected", "C128_not_asked", "C128_words", "C128_silence"], "C128_silence under the condition of C126 that the last select returns 0.")
c("C129", "partial", ["C129_lines_partial", "C129_all_lines_partial", "C129_always_zero", "C129_refused", "C129_last_only", "C129_false"], "Refuted: transmissions do not count for the result. If an interface does not get ready in time, or send fails, the result is still 0; without rx commands it is always 0. Proved: the TX lines are those of the completed commands, and if every send succeeds and there is a line for each tx command, everything was transmitted.")
c("C130", "proved", ["C130_off_by_one", "C130_rare", "C130_ipv4", "C130_usual", "C130_example"], "Data of at most 128 KiB. The two bytes of a wrong checksum are compared for the routine, not in the frame.")
c("C131", "proved", ["C131_masked", "C131_one", "C131_fields", "C131_relaxed", "C131_example"], "Expectations of which two different ones have a frame in common are excluded in one direction (C58); frames without padding. C131_relaxed under the conditions of C85.")
c("C132", "partial", ["C132_line_partial", "C132_enough", "C132_success_partial", "C132_examples", "C132_false"], "Refuted: the result of strdup is not looked at. Without the name of an expected frame the tool expects nothing and reports success. Proved: which names are lost; a run that reports success has kept all interfaces and files, and a definition for each name referred to.")
c("C133", "partial", ["C133_every", "C133_timeout_partial", "C133_repeat_partial", "C133_unique", "C133_examples", "C133_false"], "Refuted: atoi has no errors, -t 1O0 is a timeout of 1 millisecond. Proved: how every text is read.")
c("C134", "proved", ["C134_noticed", "C134_enough", "C134_example"], "What is proved is that no run ends with another result; the tool does not report the lack of memory but uses NULL.")
c("C135", "partial", ["C135_outcome_partial", "C135_added_partial", "C135_files_partial", "C135_run_partial", "C135_enough", "C135_run_enough", "C135_examples", "C135_run_example", "C135_false", "C135_false_null"], "Refuted: the file of the capture is deleted before the last requests for memory, and two results of the allocator are used without a check. Proved: exactly what happens depending on the first request that is refused, and that a run ends as usual or fails before anything is sent or recorded.")
c("C136", "partial", ["C136_payload_partial", "C136_requests_partial", "C136_values", "C136_examples", "C136_false"], "Refuted: `hex`, `ascii` and `ascii0` use the result of the allocator without a check. Proved: a payload or value that is accepted is the one written, and a refused request leads to a refusal or a use of NULL.")
c("C137", "partial", ["C137_ether_type_partial", "C137_ipv4_partial", "C137_ipv6_partial", "C137_enough", "C137_examples", "C137_left_out", "C137_false"], "Refuted: without memory for a computed value the field is silently left out, and the frame goes out with 0 in it. Proved: the Ethernet type and the computed fields of the IP headers are each computed as usual or left out, the latter only if a request was refused.")
c("C138", "partial", ["C138_only_partial", "C138_enough", "C138_examples", "C138_false"], "Refuted: without memory for the copy of an address, the protocol or the length of the pseudo header a wrong checksum is stored silently. Proved: the length is the usual one or left out, nothing but length and checksum changes, a given checksum stays, and with enough memory all is as usual.")
c("C139", "proved", ["C139_icmp", "C139_igmp", "C139_icmp_enough", "C139_igmp_enough", "C139_examples"], "")


if __name__ == "__main__":
    json.dump({"claims": C}, open(os.path.join(ROOT, "MANIFEST.json"), "w"), indent=1)
    src = ""
    d = os.path.join(ROOT, "lean/Verif/Props")
    for f in os.listdir(d):
        src += open(os.path.join(d, f)).read()
    for x in C:
        for t in x["theorems"]:
            n = t.split(".")[-1]
            if not re.search(r"theorem %s\b" % n, src):
                print("missing", t)
    ids = [json.loads(l)["id"] for l in open(os.path.join(ROOT, "properties.jsonl"))]
    print("uncovered:", [i for i in ids if i not in [x["property"] for x in C]])
