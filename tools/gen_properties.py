#!/usr/bin/env python3
"""Writes /verif/properties.jsonl (kept as a script so that the text stays reviewable)."""
import json, os
P = []
def p(title, statement, quantifier, why, anchors):
    P.append(dict(id="C%02d" % (len(P)+1), title=title, statement=statement,
                  quantifier=quantifier, why_tests_cant=why, anchors=anchors))

PB="src/ef-parse-bytes.c"
# ---------------------------------------------------------------- text -> bytes
p("Integer literals are encoded exactly",
  "For a field of 1..8 bytes, writing a number in decimal, hexadecimal (0x), octal (0o) or binary (0b) notation yields the big-endian encoding of exactly that number (reduced modulo the size of the field), if the number fits in 64 bits; a number of 2^64 or more is rejected and never wraps around.",
  "every non-empty or empty digit string in each of the four notations, every field size from 1 to 8 bytes",
  "The set of digit strings is infinite and the interesting cases (leading zeros, 64-bit overflow, truncation at each width) are spread over it; tests sample a handful.",
  [PB+":parse_bytes"])
p("Long hexadecimal literals are right-aligned and never write outside the value",
  "For a field of more than 8 bytes, an 0x literal with an even number of digits that fits in the field yields the bytes of the literal, right-aligned and zero padded on the left; an odd digit count is rejected; and no literal whatsoever makes the parser write outside the buffer it allocated.",
  "every digit string and every field size above 8 bytes",
  "An out-of-bounds write only happens for literals longer than the field, which no test tries, and silent heap corruption is not an observable test failure.",
  [PB+":parse_bytes_hex", PB+":parse_bytes"])
p("Long binary literals are right-aligned and never write outside the value",
  "For a field of more than 8 bytes, an 0b literal whose digit count is a multiple of eight and fits the field yields these bytes right-aligned and zero padded; other digit counts are rejected; no literal makes the parser write outside the buffer it allocated.",
  "every string of binary digits and every field size above 8 bytes",
  "Same as for hexadecimal: the input space is infinite and memory corruption is silent.",
  [PB+":parse_bytes_binary", PB+":parse_bytes"])
p("Dotted-quad IPv4 addresses are encoded exactly",
  "For a four byte field the text a.b.c.d with decimal octets yields the four bytes a, b, c, d in that order; any other text that contains a dot yields no value at all.",
  "all 2^32 addresses and every other string containing a dot",
  "2^32 addresses plus all malformed strings cannot be enumerated by tests.",
  [PB+":parse_bytes"])
p("MAC addresses with '::' compression expand like IPv6",
  "For a six byte field, 'x:..:y::z:..:w' with at most five one- or two-digit hexadecimal elements in total yields the elements before '::' first, the elements after '::' last and zero bytes between; six elements separated by single colons yield exactly these six bytes.",
  "all element lists before and after '::', every way of writing each element (one/two digits, upper/lower case)",
  "There are more than 2^40 addresses and many spellings each; in particular spellings whose first two characters look like a number prefix behave differently, which sampled tests miss.",
  [PB+":parse_bytes"])
p("IPv6 addresses are encoded exactly",
  "For a 16 byte field, eight groups of hexadecimal digits separated by colons yield the 16 bytes in network order, and '::' stands for the missing zero groups.",
  "all 2^128 addresses in full form, all splits around '::'",
  "2^128 addresses cannot be enumerated.",
  [PB+":parse_bytes"])
p("A parsed value always has exactly the size of its field",
  "Parsing any text for a field of n bytes either yields no value, or a value of exactly n bytes; it never yields a shorter or longer buffer.",
  "every text, every field size",
  "The property is about all inputs of a hand written multi-format parser; a single short buffer would later trip an assertion when the frame is built.",
  [PB+":parse_bytes", PB+":parse_uint8", PB+":parse_uint32"])
p("Hex strings round-trip with the printer",
  "Printing any byte sequence with the hex printer and parsing the text back as a variable length hex string gives the identical byte sequence.",
  "every non-empty byte sequence of any length",
  "Byte sequences are unbounded; tests check a few short strings.",
  ["src/ef.c:print_hex_str", PB+":parse_var_bytes_hex"])
p("Hex strings are accepted exactly when they are byte aligned",
  "A variable length hex string is accepted if and only if it contains at least one digit, consists only of hex digits and the delimiters . : - _, and every delimiter and the end of the string fall on a byte boundary; the bytes are then the digit pairs in order, zero padded at the end up to the requested minimum size, and nothing is written outside the buffer.",
  "every string and every minimum size",
  "An if-and-only-if over all strings cannot be settled by examples.",
  [PB+":parse_var_bytes_hex"])
p("Payload specifications concatenate",
  "A payload given as several segments (hex, ascii, ascii0, repeat, pattern) is the concatenation of the segments in the order given, the parser consumes exactly the words of the segments and stops at the first word that starts no segment; a malformed segment rejects the whole command.",
  "every sequence of segments followed by any other words",
  "Sequences are unbounded and consumption errors only show when something follows.",
  [PB+":parse_var_bytes", PB+":parse_var_bytes_"])
p("Payload segments produce the documented bytes",
  "'repeat N V' is N copies of byte V, 'pattern cnt N' is 0,1,2,.. counting modulo 256, 'pattern zero N' and 'pattern ones N' are N bytes 0x00 / 0xff, 'ascii S' are the characters of S and 'ascii0 S' additionally a terminating zero byte.",
  "every count N below 2^32, every V, every S",
  "N ranges over 2^32 values; wrap-around of the counter pattern and truncation of N and V are boundary behaviour at unbounded sizes.",
  [PB+":parse_var_bytes_repeat", PB+":parse_var_bytes_pattern", PB+":parse_var_bytes_ascii", PB+":parse_var_bytes_ascii0"])
# ---------------------------------------------------------------- bit writer / layout
EF="src/ef.c"
p("Writing a field changes exactly the bits of that field",
  "Serialising one field into a buffer sets the bits of the field to the low-order bits of the value (most significant first) and leaves every other bit of the buffer unchanged.",
  "every buffer, every field position and width that lies within it, every value at least as wide as the field",
  "Bit positions, widths and values multiply to an unbounded space; off-by-one errors at byte boundaries only affect some alignments.",
  [EF+":hdr_write_field", EF+":bit_get", EF+":bit_set"])
p("A field reads back as the value modulo its width",
  "After serialising, reading the field's bits as an unsigned big-endian number gives the number denoted by the value modulo 2^width.",
  "every buffer, field position, width and value",
  "Unbounded value and width space.",
  [EF+":hdr_write_field"])
p("Header layouts are gap-free, non-overlapping and inside the header",
  "In every header known to the tool the fields declared without an explicit position are adjacent in declaration order starting at bit 0, they do not overlap, they fill the header to its last byte, and overlay fields (explicit position) lie within the header; start-up reports no layout error.",
  "all 55 header templates (data and coap-parms start with room for 1 byte, padding with none) and all their fields",
  "Layout is data spread over some 900 table lines, and no unit test covers every field; a wrong width shifts all later fields silently.",
  [EF+":def_offset", "src/ef.h:hdr_tmpl_t", "src/ef-ifh.c:ifh_init"])
p("A frame is the concatenation of its headers padded to 60 bytes",
  "The bytes of a frame are the bytes of its headers in stack order, each rendered independently of the others, followed by zero bytes up to a minimum total of 60; the total length is max(60, sum of header sizes).",
  "every header stack whose headers keep their written fields inside the header",
  "Stacks are unbounded combinations of 55 headers with arbitrary values.",
  [EF+":frame_to_buf", EF+":hdr_copy_to_buf_"])
p("No header writes into its neighbours",
  "For every frame specification accepted on the command line, no header's fields are written outside the bytes belonging to that header.",
  "every accepted sequence of command line words",
  "It concerns all combinations of fields in headers whose size depends on which fields are given.",
  [EF+":frame_to_buf", "src/ef-sv.c:sv_fill_defaults", "src/ef-mld.c:mld_fill_defaults", "src/ef-igmp.c:igmp_fill_defaults"])
p("User supplied and default values appear in the frame",
  "In a header with non-overlapping fields, every field the user gave a value for carries that value (modulo its width) in the emitted frame; a field that was not given and is not computed carries its documented default, or zero.",
  "every header, every set of fields and values",
  "Unbounded number of combinations.",
  [EF+":hdr_parse_fields", EF+":hdr_copy_to_buf_", EF+":frame_to_buf"])
p("Overlapping (overlay) fields: the last declared one wins",
  "When several fields of a header cover the same bit (injection frame headers overlay alternative layouts), the emitted bit is that of the last field in declaration order which has a value, and 0 if none has.",
  "every header, every assignment of values",
  "All combinations of overlay fields are too many to test.",
  [EF+":hdr_copy_to_buf_"])
# ---------------------------------------------------------------- masks
p("The match mask has the same length as the frame",
  "Whenever a frame has ignored parts, the generated mask has exactly as many bytes as the generated frame.",
  "every frame specification",
  "Headers change size while defaults are filled in; equality must hold for all combinations.",
  [EF+":frame_mask_to_buf", EF+":frame_to_buf", "src/ef-args.c:argc_cmd"])
p("The mask clears exactly the ignored bits",
  "A mask bit is 1 if and only if the bit belongs to the padding after the last header or to at least one field that is not ignored.",
  "every frame specification for which a mask is produced, every bit",
  "Per-bit statement over all frames.",
  [EF+":frame_mask_to_buf", EF+":hdr_copy_to_buf_"])
p("Ignoring a field ignores all of its bits",
  "After 'FIELD ign' no difference in the bits of that field can make a received frame mismatch.",
  "every header, every field, every pair of frames that differ only in that field",
  "Quantifies over fields and over pairs of frames; overlay fields are a corner case that tests on single fields do not reach.",
  [EF+":hdr_parse_fields", EF+":hdr_copy_to_buf_", "src/ef-buf.c:bequal_mask"])
p("'ign' directly after a header name ignores the whole header except fields given later",
  "'HDR ign F1 V1 ...' marks every field of the header as ignored except those assigned a value afterwards, and sets the flag that a mask is needed.",
  "every header, every following sequence of assignments of fixed-size fields",
  "Sequences are unbounded.",
  [EF+":hdr_parse_fields"])
BUF="src/ef-buf.c"
p("Masked comparison means equality on unmasked bits",
  "Without trailing padding a received frame matches an expected frame if and only if both have the same length and agree on every bit that is set in the mask (all bits, where there is no mask).",
  "all pairs of frames and all masks of any length",
  "An if-and-only-if over unbounded byte sequences.",
  [BUF+":bequal_mask"])
p("Trailing padding is ignored when matching",
  "With 'padding N' a received frame matches if it is the expected frame followed by any N bytes, and comparing never reads outside the two frames.",
  "all frames, all N, all trailing bytes",
  "The comparison reads memory behind the expected frame; whether a test notices depends on heap contents.",
  [BUF+":bequal_mask", "src/ef-padding.c:padding_parser", "src/ef-exec.c:rfds_wfds_process"])
p("An expected frame always matches itself",
  "A received frame that is byte for byte the generated frame always matches the expectation it was generated from, whatever is ignored.",
  "every frame specification without trailing padding",
  "All frames and masks.",
  [BUF+":bequal_mask", EF+":frame_mask_to_buf"])
p("Buffer equality is an equivalence and clones are equal",
  "Comparing two buffers tells whether they have the same bytes (a missing buffer equals only a missing buffer); a clone always equals its original, and copies of fields, headers and frames are equal to and independent of their originals.",
  "all buffers, fields, headers and frames",
  "Unbounded data; independence needs all later modifications.",
  [BUF+":bequal", BUF+":bclone", EF+":field_copy", EF+":hdr_copy", EF+":frame_copy"])
# ---------------------------------------------------------------- derived fields
p("Explicit values always beat computed defaults",
  "Computing defaults (types, lengths, checksums) never changes the value of a field the user gave, in any header (the CoAP option number, which is re-encoded as a delta, is the documented exception).",
  "every frame, every header, every field",
  "About all fields of all headers in all stacks.",
  [EF+":frame_to_buf", "src/ef-ipv4.c:ipv4_fill_defaults", "src/ef-udp.c:udp_tcp_fill_defaults", "src/ef-eth.c:eth_fill_defaults"])
p("The Ethernet type announces the next header",
  "If the user gives no ethertype, the type field of an Ethernet header or VLAN/redundancy tag carries the protocol number of the header that follows it in the stack; when nothing follows it carries its default (a default of zero is not written, so bytes written there by an earlier header that violates C16 stay).",
  "every stack, every position, all following headers",
  "All pairs of headers and all stack positions.",
  [EF+":ether_type_fill_defaults", "src/ef-eth.c", "src/ef-vlan.c"])
p("The IPv4 total length counts the header and everything after it",
  "If not given by the user, the IPv4 total length in the emitted frame is the number of bytes from the start of the IPv4 header to the end of the last header (padding up to 60 bytes excluded), modulo 65536.",
  "every stack containing ipv4 at any position",
  "Headers behind it may change their own size while defaults are computed.",
  ["src/ef-ipv4.c:ipv4_fill_defaults"])
p("The IPv4 protocol field announces the next header",
  "If not given by the user, the IPv4 protocol field is the protocol number of the following header (modulo 256), or the default when nothing follows.",
  "every stack containing ipv4",
  "All stacks.",
  ["src/ef-ipv4.c:ipv4_fill_defaults"])
p("The IPv4 header checksum verifies",
  "If the user gives no checksum, the ones' complement sum of the ten 16-bit words of the emitted IPv4 header is 0xffff.",
  "every stack containing ipv4 with arbitrary field values",
  "The carry folding is wrong only for about one header in 2^14; sampled tests practically never hit it.",
  ["src/ef-ipv4.c:ipv4_fill_defaults", EF+":inet_chksum"])
p("The internet checksum routine computes RFC 1071",
  "For every buffer the checksum routine returns the complement of the ones' complement sum (in network byte order) of the buffer's 16-bit words, padding an odd last byte with zero.",
  "every byte sequence, every initial sum",
  "The routine folds the carry only once; failing inputs are rare and need a specific sum.",
  [EF+":inet_chksum"])
p("The UDP length counts the UDP header and everything after it",
  "If not given by the user, the UDP length in the emitted frame is the number of bytes from the UDP header to the end of the last header, modulo 65536.",
  "every stack containing udp",
  "All stacks.",
  ["src/ef-udp.c:udp_tcp_fill_defaults"])
p("UDP and TCP checksums verify",
  "If the user gives no checksum and UDP/TCP directly follows ipv4 or ipv6, then the ones' complement sum of the pseudo header and all bytes from the UDP/TCP header to the end of the last header is 0xffff.",
  "every such stack, all addresses, payloads and field values",
  "The payload is unbounded, and single-fold carry errors are rare.",
  ["src/ef-udp.c:udp_tcp_fill_defaults", EF+":inet_chksum"])
p("ICMP checksums verify and ICMP over IPv6 is announced as 58",
  "If the user gives no checksum, the ICMP checksum verifies (over ICMP alone above IPv4, including the IPv6 pseudo header above IPv6); ICMP above IPv6 is announced with next header 58.",
  "every stack with icmp above ipv4/ipv6",
  "All payloads; the announcement is a side effect that depends on whether the user gave a checksum.",
  ["src/ef-icmp.c:icmp_fill_defaults"])
p("IGMP messages have the size of their version and a verifying checksum",
  "An IGMP header occupies 8 bytes without version 3 fields, 12 bytes as a version 3 query, 8 bytes as a version 3 report (group records following), and its checksum over the header and all following records verifies if not given by the user.",
  "every set of igmp fields, every list of following headers",
  "Size depends on the subset of fields (2^9 subsets) and checksum on unbounded records.",
  ["src/ef-igmp.c:igmp_fill_defaults"])
p("MLD messages have the size of their version and a verifying checksum",
  "An MLD header has the size of a version 1 message, version 2 query or version 2 report according to the fields given, building it never aborts the program, and its checksum verifies if not given by the user.",
  "every set of mld fields, every list of following headers, ipv6 below",
  "Some field combinations abort; only exhaustive reasoning over the subsets finds them.",
  ["src/ef-mld.c:mld_fill_defaults"])
p("IPv6 payload length and next header",
  "If not given by the user, the IPv6 payload length is the number of bytes after the IPv6 header up to the end of the last header (modulo 65536) and next header is the protocol number of the following header (modulo 256).",
  "every stack containing ipv6",
  "All stacks.",
  ["src/ef-ipv6.c:ipv6_fill_defaults"])
p("PTP message and TLV lengths count the following bytes",
  "If not given by the user, a PTP header's message length is the number of bytes from it to the end of the last header, and a TLV's length is the number of bytes after its type/length fields to the end of the last header.",
  "every stack containing a PTP header or TLV",
  "All stacks.",
  ["src/ef-ptp.c:fill_defaults", "src/ef-ptp.c:tlv_fill_defaults"])
p("CoAP options decode to what was specified",
  "Decoding the emitted CoAP options according to RFC 7252 (delta and length nibbles with 13/14 extensions, numbers accumulated over the options) gives for every option the option number and the value specified for it; a value consisting of zero bytes only is sent as the empty value.",
  "all option numbers 0..65535 in ascending order and all values up to 65535 bytes",
  "Thresholds 13 and 269 for both nibbles, relative numbering between consecutive headers and unbounded values.",
  ["src/ef-coap.c:options_fill_defaults", "src/ef-coap.c:coap_parse_option_value"])
p("CoAP code and token",
  "The CoAP code 'c.dd' is encoded as class*32+detail and malformed codes give no value; the token length field counts the bytes of the token and the token follows the fixed header.",
  "every code string, every token string",
  "All strings.",
  ["src/ef-coap.c:coap_parse_code", "src/ef-coap.c:coap_parse_token", "src/ef-coap.c:coap_fill_defaults"])
p("OPC-UA 16-bit fields are little-endian",
  "For fields of the OPC-UA header that the protocol defines as little-endian, the two bytes on the wire are the little-endian encoding of the number given.",
  "all numbers and notations",
  "65536 values in four notations each.",
  ["src/ef-opcua.c:opc_parse_uint16"])
p("Supervision frames have the size implied by their TLVs",
  "A redundancy supervision header is 8 bytes shorter when no second-TLV field is given, and all its fields (including the terminating TLV) are then placed inside the header.",
  "every set of sv fields",
  "Field subset dependent layout.",
  ["src/ef-sv.c:sv_fill_defaults"])
p("Serialising a frame twice gives the same bytes",
  "Converting the same frame object to bytes a second time yields the same bytes as the first time.",
  "every frame",
  "All frames; only headers whose size is adjusted during default filling violate it.",
  [EF+":frame_to_buf"])
# ---------------------------------------------------------------- word parsing
AR="src/ef-args.c"
p("The header stack never overflows",
  "No command line, however long, makes the tool store more than 100 headers in a frame (the capacity of the stack).",
  "every list of words",
  "The bound must hold for all lengths; overflow is silent corruption.",
  [AR+":argc_frame", EF+":frame_clone_and_push_hdr"])
p("Frame parsing consumes a prefix of the words and always terminates",
  "Parsing a frame from n words terminates, and either fails or reports a number of consumed words between 0 and n; the word after the consumed prefix (if any) is neither a header name nor a field of the last header, and the consumed words give the same frame alone or in front of any other words that cannot continue the frame.",
  "every list of words",
  "Termination and range need all inputs.",
  [AR+":argc_frame", EF+":hdr_parse_fields"])
p("Later assignments of the same field win",
  "If a field is assigned several times in one header, the headers are the same as if only the last assignment had been given, and so is the whole frame unless an 'ign' was overridden (which leaves the frame with a mask).",
  "every header, every list of assignments of fixed-size fields, with or without a leading ign",
  "Unbounded sequences.",
  [EF+":hdr_parse_fields"])
p("Field order does not matter",
  "Assigning distinct plain fields of a header in any order gives the same frame.",
  "every header, every list of distinct fixed-size fields, every permutation of assignments",
  "Factorially many permutations.",
  [EF+":hdr_parse_fields"])
p("A value that cannot be parsed is not silently replaced",
  "If the text given for a field cannot be parsed as a value for it, the command line is rejected.",
  "every field and every unparsable text",
  "Universal claim; the code falls back to the default value silently, so a counterexample proof is needed.",
  [EF+":hdr_parse_fields", PB+":parse_bytes"])
p("No command line crashes the tool",
  "For every command line, parsing and building the frames ends normally: no failed assertion, no access outside a buffer, no null pointer access.",
  "every list of words",
  "Universal over all inputs; crashes hide in rare combinations.",
  [AR+":argc_cmds", AR+":argc_cmd", AR+":argc_frame", EF+":frame_to_buf"])
p("A command line is executed completely or not at all",
  "Commands are executed only when every word of the command line was understood as part of one of at most 100 commands; otherwise an error is returned and nothing is transmitted, printed as a frame, or captured.",
  "every list of words",
  "All inputs, including more than 100 commands.",
  [AR+":argc_cmds"])
p("Splitting the command line into commands is unambiguous",
  "For every sequence of at most 100 well-formed commands (with at most 100 words per remaining line), concatenating their words and parsing gives back exactly these commands in order.",
  "every list of commands",
  "Unbounded sequences; requires that no command's parser eats words of the next.",
  [AR+":argc_cmds", AR+":argc_cmd"])
# ---------------------------------------------------------------- execution
EX="src/ef-exec.c"
p("Named frames resolve to the first definition",
  "A command that refers to a frame by name uses the bytes, mask and padding of the first frame defined under this name anywhere on the command line.",
  "every list of commands",
  "All lists, forward references, duplicates.",
  [EX+":copy_cmd_by_name", EX+":exec_cmds"])
p("Unknown names are errors before anything happens",
  "If any command refers to an undefined name, the tool returns the number of such commands as error count, opens no socket and transmits nothing.",
  "every list of commands with at least one unresolved name",
  "All lists.",
  [EX+":exec_cmds"])
p("Commands are grouped by interface in order",
  "Every tx/rx command is attached to exactly one socket, that of its interface; each interface gets exactly one socket and within it the commands keep their order.",
  "every list of at most 100 commands",
  "All lists.",
  [EX+":add_cmd_to_resource"])
p("Each expected frame is satisfied by at most one received frame and vice versa",
  "During a run every received frame satisfies at most one expectation, namely the first open one on its interface that it matches, and every expectation is satisfied at most once.",
  "every list of commands and every history of received frames",
  "Arrival histories are unbounded.",
  [EX+":rfds_wfds_process"])
p("The error count is exact",
  "The result of a run is the number of received frames that matched nothing plus the number of expected frames that were never received, on the interfaces that are listened to.",
  "every history of received frames and send results",
  "Unbounded histories.",
  [EX+":rfds_wfds_process", EX+":exec_cmds"])
p("Success means exactly the expected traffic was seen",
  "On an interface with only rx commands, the run reports no error if and only if the received frames can be paired one-to-one with the expectations so that each pair matches.",
  "every list of expectations and every history",
  "Pairings over unbounded histories; the greedy assignment can be wrong when masks make expectations overlap.",
  [EX+":rfds_wfds_process", EX+":exec_cmds"])
p("Arrival order does not matter for exact expectations",
  "When expectations have no mask, the number of errors does not depend on the order in which frames arrive on an interface.",
  "every list of expectations and every permutation of arrivals",
  "Permutations of unbounded histories.",
  [EX+":rfds_wfds_process"])
p("Frames are transmitted exactly as often as requested",
  "If every send succeeds and the run is not cut short, a tx command with repeat count n is transmitted exactly n times, and never more often than n times whatever the network does.",
  "every list of commands, every n, every history of events",
  "Histories and repeat counts are unbounded; failing sends are hard to provoke in tests.",
  [EX+":rfds_wfds_process"])
p("Transmission order is command order",
  "On each interface, frames are transmitted in command line order: all repetitions of one tx command before the first of the next.",
  "every list of commands, every schedule of socket readiness",
  "Schedules are unbounded.",
  [EX+":rfds_wfds_process"])
p("Received frames never cancel transmissions",
  "Receiving a frame never prevents a pending tx command from being transmitted.",
  "every history",
  "Needs a particular interleaving of receive and transmit readiness.",
  [EX+":rfds_wfds_process"])
p("Listening lasts for the whole timeout",
  "When at least one interface is listened to, the run ends only when the timeout has expired or waiting failed, not when all expectations are satisfied; when nothing is listened to, it ends as soon as everything is transmitted.",
  "every history of events and clock readings",
  "Schedules and clock readings.",
  [EX+":exec_cmds", EX+":rfds_wfds_fill"])
p("Timeout arithmetic is exact",
  "The remaining time handed to the wait call is exactly deadline minus now, normalised to 0..999999 microseconds, where the deadline is start plus the timeout in milliseconds.",
  "all non-negative timeouts and all (normalised) clock readings",
  "All integer values; borrow and carry cases.",
  [EX+":exec_cmds", AR+":argc_cmds"])
p("VLAN tags removed by the kernel are restored",
  "When the kernel reports a stripped VLAN tag, the frame that is compared is the original frame: first 12 bytes, tag protocol id, tag control information, then the rest.",
  "all frames of at least 12 bytes and all tags",
  "All frames; the memory move must be in bounds for all lengths.",
  [EX+":rfds_wfds_process"])
p("The exit status tells success from failure",
  "The process exit status is 0 if and only if the error count is 0.",
  "every error count",
  "Wrap-around of the status byte needs 256 errors.",
  [EX+":exec_cmds", AR+":main_", "src/main.c"])
p("Printed frames can be fed back",
  "Feeding the text printed by 'hex FRAME' back as 'hex data hex TEXT' prints the same text.",
  "every frame without ignored parts",
  "All frames.",
  [EX+":exec_cmds", EF+":print_hex_str", "src/ef-payload.c:payload_parser"])
# ---------------------------------------------------------------- capture
CA="src/ef-capture.c"
p("Capture options become the documented tcpdump command",
  "'-c IF,SNAP,SYNC,FILE,CNT' runs 'tcpdump -i IF [-s SNAP] [-j SYNC] -w FILE [-c CNT]', omitting options whose element is empty or missing, with FILE defaulting to IF.pcap; a sixth and later elements are ignored.",
  "every option string",
  "All strings.",
  [CA+":capture_add"])
p("Stopping captures signals exactly the running ones",
  "When captures are stopped, every capture process that is still running gets an interrupt, one that has already terminated gets none, and whatever is still running after the grace period is terminated.",
  "every list of captures and every history of child exits",
  "Interleavings of child exits and polling.",
  [CA+":capture_all_stop", CA+":signal_child"])
# ---------------------------------------------------------------- values in the frame
p("A value given for a field is what the frame contains",
  "The value of a field is what the text assigned to it last denotes; a field that was not assigned, or assigned 'ign', has no value. A number given for a field of up to 64 bits stands in the frame at the field's place in its header, reduced to the field's width, whatever else is in the frame. (Not for igmp, mld, sv and coap-opt, whose layout depends on the fields given, and for fields sharing bits with a later field.)",
  "every frame, every header kind and field, every list of assignments, every number in every notation",
  "Product of all frames, headers, fields and texts.",
  [EF+":hdr_parse_fields", EF+":frame_to_buf", EF+":hdr_write_field"])
p("The payload consists of the bytes given",
  "The bytes of a 'data' header are exactly the concatenated bytes of its segments (hex, ascii, repeat, pattern), wherever it stands in the frame.",
  "every frame and every non-empty list of segments",
  "Unbounded lists of segments in arbitrary frames.",
  ["src/ef-payload.c:payload_parser", "src/ef-parse-bytes.c:parse_var_bytes", EF+":frame_to_buf"])
p("CoAP payload follows a marker",
  "The payload of a CoAP message is sent as the marker byte 0xff followed by exactly the bytes given.",
  "every frame and every non-empty list of segments",
  "Unbounded lists of segments in arbitrary frames.",
  ["src/ef-coap.c:coap_parse_parms", EF+":frame_to_buf"])
# ---------------------------------------------------------------- options
p("Options may stand anywhere on the command line",
  "The options -t and -c may stand anywhere between the other words, with their value in the same or in the next word; the other words are executed as if they stood alone, with the last timeout given (100 ms without) and all captures in the order given; words after '--' are never options. An unknown option or a missing value prints the help text and executes nothing. (With POSIXLY_CORRECT set, options must stand first.)",
  "every arrangement of options and words",
  "Unbounded arrangements.",
  [AR+":main_"])
p("Captures last as long as the timeout",
  "With captures the tool sleeps after executing the commands for exactly the part of the timeout that has not passed since the captures were started, and not at all if it has passed or there are no captures.",
  "every non-negative timeout, all normalised clock values",
  "All clock values, borrow from seconds to microseconds.",
  [AR+":argc_cmds"])
# ---------------------------------------------------------------- names
p("Every field can be given a value",
  "For every field of every header there is a command line that gives the field a value.",
  "every header kind and field, every command line",
  "Needs a command line for every field, or an argument over all command lines that there is none.",
  [EF+":hdr_parse_fields", EF+":find_field"])
p("The name of a header starts that header",
  "If a frame has been accepted and the next word is the name of a header, the frame continues with that header.",
  "every frame, every header kind, every further words",
  "Unbounded frames; a clash of names shows only for certain neighbours.",
  [AR+":argc_frame", EF+":hdr_parse_fields"])
# ---------------------------------------------------------------- report
p("The printed report tells what happened",
  "Reading standard output and standard error back line by line gives exactly one message for every named frame, hex frame, received, unexpected, transmitted and missing frame and unknown name, in the order in which they happened, each with the right interface, the bytes (or the name) of the frame and its mask if it has one; unless the return value is -1 it equals the number of messages on standard error.",
  "every command line whose interface names have no newline, colon or leading blank and whose frame names have none either, every network history",
  "Unbounded runs; the text must be unambiguous for all frames and names.",
  [EX+":rfds_wfds_process", EX+":exec_cmds"])
# ---------------------------------------------------------------- documents
p("Fields that are not given hold their preset value",
  "A field that is neither given on the command line nor computed from the frame is sent with the constant its defining document prescribes (e.g. version 4, OAM opcode 1, MRP block lengths) or, if there is none, with zero.",
  "every frame, every header of the list in Spec/Standard.lean (all but ifh, sv, igmp, mld, coap-options, coap-parms, data and padding), every field",
  "All frames; needs an independent table of all presets.",
  [EF+":frame_fill_defaults", "src/ef-mrp.c", "src/ef-oam.c", "src/ef-ptp.c", "src/ef-opcua.c"])
p("Headers have the layout of their documents",
  "Every header has the size, and every field assigned a number, bytes or an address appears at the byte, bit and width, that IEEE 802.1Q, 802.1CB, 1588, 62439, RFC 791, 826, 768, 793, 792, 8200, 7252, G.8013 and IEC 61158 prescribe.",
  "every frame, every header and field of the list in Spec/Standard.lean, every value",
  "All frames and values; needs an independent table of all layouts.",
  [EF+":hdr_copy_to_buf_", "src/ef-eth.c", "src/ef-ipv4.c", "src/ef-ptp.c", "src/ef-oam.c", "src/ef-mrp.c"])
# ---------------------------------------------------------------- messages
p("The help tells the truth",
  "The list printed for 'help' names exactly the words that can start a header. The list printed for 'HEADER help' contains exactly the fields of the header, in order, and for every field that can be reached, shares no bit with a later one and has no syntax of its own, the printed position and width are where a number given for it stands in every frame sent. 'HEADER FIELD help' prints the same position.",
  "every command before the frame, every header kind and field, every frame and number",
  "The printed text must agree with the bytes of all frames.",
  [AR+":argc_frame", EF+":hdr_parse_fields", EF+":def_offset", EF+":hdr_help", EF+":field_help"])
p("A rejected command line is reported",
  "If a command line is rejected, something is printed; the message 'Parse error! arg# I out of N, cmd_idx = K' tells how many words of how many make up how many complete commands.",
  "every command line",
  "All command lines; silence shows only for particular ones.",
  [AR+":argc_cmds", AR+":argc_cmd", AR+":argc_frame"])
p("A value that is not understood is reported",
  "Whenever the text given for a field is not understood, and the field therefore keeps its preset value, something is printed.",
  "every command line, every field, every text",
  "All texts in all places of the command line.",
  ["src/ef-parse-bytes.c:parse_bytes", EF+":hdr_parse_fields"])
p("Defaults announced in the help are what is sent",
  "If the help of a header announces a default for a field and the field is not given, the value announced stands in the frame at the position announced.",
  "every frame, every header kind and field",
  "The printed text must agree with the bytes of all frames.",
  [EF+":hdr_help", EF+":field_help", EF+":def_val", "src/ef-ifh.c:ifh_init", "src/ef-profinet.c:profinet_init"])
p("The examples in the help work",
  "Every example in the top level help is accepted without a message, and every example given for a header in the list of headers is an accepted frame that starts with that header.",
  "every example in the help texts, in every place where help can be asked for",
  "Examples in help texts are not tested; they must be read out of the printed text.",
  [AR+":print_help", EF+":hdr_help", "src/ef-ipv4.c"])
p("Ignoring values does not reject the frame",
  "Take the words of a frame, replace some values by 'ign' and add further pairs 'FIELD ign'. The frame sent for the original words is accepted by an expectation of the new words.",
  "every frame, every choice of ignored fields",
  "All frames with all choices of ignored fields; computed values (lengths, protocol numbers, checksums) differ in ways a few examples do not show.",
  [EF+":hdr_parse_fields", EF+":frame_to_buf", EF+":frame_mask_to_buf", BUF+":bequal_mask", AR+":argc_frame"])
p("Only MAC addresses are accepted as MAC addresses",
  "A text with a colon is accepted for a 6 byte field only if it is a MAC address (six elements of one or two hexadecimal digits, or fewer with one '::' for the missing ones), and the value is that address.",
  "every text",
  "The set of texts is infinite; a test shows that some wrong texts are rejected, not that all are.",
  [PB+":parse_bytes", PB+":316-453"])
p("Exactly the IPv6 addresses are accepted as IPv6 addresses",
  "A text with a colon which does not begin with '0b' is accepted for a 16 byte field exactly when it is an address in one of the forms of RFC 4291 section 2.2, including the form with a dotted quad at the end, and the value is that address; every other text with a colon is rejected.",
  "every text",
  "The set of texts is infinite, in both directions.",
  [PB+":parse_bytes", PB+":456-478"])
p("Only texts for a value of the right size are accepted",
  "A text is accepted for a field of n bytes exactly when it is a number (in the bases and sizes documented), a dotted quad (n = 4), a MAC address (n = 6) or an IPv6 address (n = 16); the value is what the text denotes; everything else is rejected.",
  "every text, every field size",
  "All texts and all field sizes.",
  [PB+":parse_bytes", PB+":parse_bytes_hex", PB+":parse_bytes_binary"])
p("What can be transmitted in time is transmitted",
  "If no transmission on an interface fails and the interface is ready for transmission at least as often as it has tx commands before the deadline, then every tx command is transmitted exactly as often as requested, also if the run ends because the time is over; without expectations on the same interface exactly the requested frames are transmitted, in order.",
  "every set of commands, every behaviour of the operating system, every mixture with other interfaces and expectations",
  "Depends on the order of events delivered by the operating system; tests see one order.",
  ["src/ef-exec.c:rfds_wfds_process", "src/ef-exec.c:exec_cmds"])
p("A test over a connection succeeds exactly if the connection works",
  "For a command line that transmits frames on one interface and expects frames on another one, the tool succeeds exactly if the frames received are the expected ones, each as often as expected, in any order. If the words of the expectations are those of the transmissions, a connection which delivers exactly what was transmitted makes the tool succeed and every other one makes it fail.",
  "all descriptions of frames without ignored values and padding, all received traffic",
  "Needs a network and all its misbehaviours; the whole chain from words to exit status.",
  ["src/ef-exec.c:exec_cmds", AR+":argc_cmds", EF+":frame_to_buf", BUF+":bequal_mask"])
p("padding only adds ignored bytes",
  "Behind the words of a frame, 'padding N' changes neither the bytes nor the mask of the frame; an expectation with it wants exactly the frames which consist of the frame without it and N further bytes.",
  "every frame, every number",
  "All frames and all numbers; what the padding header does to computed values of the header before it shows in few of them.",
  ["src/ef-padding.c:padding_parser", EF+":frame_to_buf", EF+":ether_type_fill_defaults", "src/ef-ipv4.c:ipv4_fill_defaults", BUF+":bequal_mask"])
p("rep N transmits N times",
  "'tx IF rep N FRAME' transmits the frame exactly N times and 'tx IF FRAME' once, if no transmission fails and the interface is ready at least once before the deadline, and the tool reports success.",
  "every decimal number from 1 to 2^31 - 1, every frame, every behaviour of the operating system within these conditions",
  "All numbers, and all orders of events.",
  [AR+":argc_cmd", AR+":argc_cmds", "src/ef-exec.c:rfds_wfds_process"])
p("Memory is not used after its release",
  "Whatever the command line, the traffic and the answers of the system, no block of memory is used or released after its release (and none is released that was not allocated), also in runs that end early; the blocks make no difference to the outcome.",
  "every command line, every environment",
  "Every path through parsing, computed values, pairing of names and error handling; a memory checker only sees the paths of the test.",
  [EF+":hdr_copy", EF+":frame_copy", EF+":frame_destruct", EF+":hdr_parse_fields", EF+":frame_to_buf", AR+":cmd_destruct", AR+":argc_cmd", "src/ef-exec.c:copy_cmd_by_name", "src/ef-capture.c:capture_add"])
p("Memory is released at the end",
  "When the tool has returned, all memory it has allocated is released.",
  "every command line, every environment in which the run ends",
  "Every path, including all ways in which values are rejected.",
  [AR+":argc_cmds", AR+":cmd_destruct", EF+":uninit", "src/ef-oam.c:oam_uninit", "src/ef-coap.c:coap_parse_token", PB+":parse_field_hex"])
p("A socket is set up completely or closed",
  "A socket that is used for an interface was bound to it, sees all frames there, reports VLAN tags and was emptied before; if one of these steps fails, there is no socket and no descriptor stays open.",
  "every answer of the operating system to every call, every name",
  "Failures of single system calls are hard to provoke, and no test sees descriptors that stay open.",
  ["src/ef-exec.c:raw_socket"])
p("Sockets are closed when the run ends",
  "When exec_cmds returns, the descriptors which it has opened are closed; the main loop is only reached when every interface could be opened.",
  "every answer of the operating system to every call, every list of interfaces",
  "Failures at any interface, and any behaviour of the system before and after.",
  ["src/ef-exec.c:exec_cmds", "src/ef-exec.c:raw_socket"])
p("Success means the frames are in the capture file",
  "After a run that ends with success, every file named in a pcap command is a capture file with the packets it held before, followed by the frames of its pcap commands, complete and in their order; no other file is touched.",
  "every command line, every previous contents of the files, every answer of libpcap",
  "All contents of existing files, and failures to open them.",
  ["src/ef-exec.c:pcap_append", "src/ef-exec.c:exec_cmds", AR+":argc_cmd"])
p("No traffic crashes the tool",
  "When the command line has been parsed, executing it ends normally, without access outside of buffers, whatever frames arrive and whatever the system calls return.",
  "every command line, every sequence of received frames of at least 14 bytes, every answer of the system",
  "All frames from the network at all moments; the tool is run on networks which others control.",
  ["src/ef-exec.c:exec_cmds", "src/ef-exec.c:rfds_wfds_process", "src/ef-buf.c:bequal_mask"])
p("A receiver finds the headers and the payload",
  "A receiver that takes a frame apart along the standards (Ethernet, C-, S-, R- and HSR tags, IPv4, IPv6, UDP, TCP; types, versions, header lengths, total lengths) finds exactly the headers of the command line, in their order and with their bytes, and behind them exactly the given payload, without the bytes added to reach 60 - for stacks in which each header may carry the next one and in which the user has not overridden the fields the receiver goes by.",
  "every such stack of any depth, all values of the other fields, every payload (frames below 64 KiB)",
  "All combinations of headers; the computed fields have to agree with each other and with the layout.",
  [EF+":frame_to_buf", EF+":ether_type_fill_defaults", "src/ef-ipv4.c:ipv4_fill_defaults", "src/ef-ipv6.c:ipv6_fill_defaults", "src/ef-udp.c:udp_tcp_fill_defaults"])
p("Writing out what is sent anyway changes nothing",
  "If a field has a certain value on the wire - a default, a length, a protocol number, a checksum computed by the tool - then assigning this value to it on the command line, in any notation, leaves every byte of the frame as it is.",
  "every accepted command line, every header and field in it that shares no bits with others, every notation of the value",
  "All combinations of headers, fields and computed values; a computed value may depend on whether another field was given.",
  [EF+":frame_to_buf", "src/ef-icmp.c:icmp_fill_defaults", "src/ef-udp.c:udp_tcp_fill_defaults", "src/ef-ipv4.c:ipv4_fill_defaults", EF+":hdr_copy_to_buf_"])
p("Interfaces do not influence each other",
  "What is reported about the frames of an interface - which of them were expected, which were not, which are missing - depends only on the commands for this interface and on what it hears until the deadline. Commands for other interfaces, their order, and other traffic make no difference. The result of a run is the sum of the errors about the single interfaces.",
  "every two runs that agree about one interface, all other commands and traffic",
  "Compares all pairs of runs; tests see a few set-ups.",
  ["src/ef-exec.c:exec_cmds", "src/ef-exec.c:rfds_wfds_process"])
p("A CoAP receiver decodes the message",
  "A receiver that decodes CoAP along RFC 7252 finds in the UDP payload of '... udp coap ... coap-opt ... coap-parms' the type, code, message id and token given, the options with their numbers and values in their order, and the payload.",
  "every frame with such a message, any number of options, all values",
  "All combinations of options; the encoding of an option depends on the one before.",
  ["src/ef-coap.c:options_fill_defaults", "src/ef-coap.c:coap_fill_defaults", "src/ef-coap.c:coap_parse_parms", "src/ef-coap.c:coap_parse_token"])
p("A name stands for its frame",
  "A command line, and the same line without the name definitions and with each 'name N' replaced by the words of the first definition of N, do the same in every environment: the same frames are transmitted, printed and written to files, the same received frames are accepted, rejected or missed, and the result is the same. Only the lines about the named frames, and the names in the other lines, differ.",
  "every command line, every answer of the operating system",
  "Compares two runs of the tool for all command lines and all traffic.",
  ["src/ef-exec.c:copy_cmd_by_name", "src/ef-exec.c:exec_cmds", AR+":argc_cmd"])
p("Captures do not multiply the commands",
  "With any number of captures (-c), the commands are executed once, also if captures cannot be started.",
  "every number of captures, every result of fork and execl",
  "Needs failing system calls in child processes, and an observation of all processes of the tool.",
  ["src/ef-capture.c:capture_start", "src/ef-capture.c:capture_all_start", AR+":argc_cmds"])
p("One more expectation takes no frame from the others",
  "If an rx command for an interface that is already listened to is put behind all other commands, then the reports about all frames that were expected before, all transmissions and the reports about missing frames stay as they are. The additional command gets the first frame it describes among those that were reported as unexpected before, which makes one error less; if there is none, it is reported missing, which makes one error more.",
  "every list of commands, every additional rx command with a frame or a name, every behaviour of the operating system",
  "Compares two runs with the same arbitrary traffic; a test has one traffic and cannot repeat it with the same timing.",
  [EX+":rfds_wfds_process", EX+":exec_cmds", EX+":add_cmd_to_resource"])


p("Waiting longer only adds",
  "A run that is given more time, with the same behaviour of the operating system up to the end of the shorter run, transmits, receives and reports everything that the shorter run does, in the same order, before anything else, and it reports no frame missing that the shorter run does not report missing.",
  "every list of commands, every pair of timeouts, every behaviour of the operating system",
  "Compares two runs with the same arbitrary traffic; a test cannot repeat traffic with the same timing.",
  [EX+":exec_cmds", EX+":rfds_wfds_process"])
p("tcpdump is started with the arguments of the option",
  "With -c IF,SNAP,SYNC,FILE,CNT, tcpdump is started by the shell with the arguments -i IF, -s SNAP, -j SYNC, -w FILE and -c CNT (those that are given), each as one argument, and it writes to the file that was deleted before.",
  "every option text without characters that have a special meaning in the shell",
  "Unbounded input; a test looks at the text of the command, but the arguments are what the shell makes of it.",
  ["src/ef-capture.c:capture_add", "src/ef-capture.c:capture_execl"])
p("Printing and saving frames does not disturb the traffic",
  "If the hex and pcap commands are taken away from a command line, everything else stays the same: the inventory, the sockets, the frames transmitted and received, all reports, the timeouts and the exit code.",
  "every list of commands whose names are defined, every behaviour of the operating system",
  "Compares two runs with the same arbitrary traffic.",
  [EX+":exec_cmds"])
p("An accepted frame has the values that were asked for",
  "If rx IF FRAME gives a field of a header a value (and not ign), every frame that is accepted for this command has exactly this value at the place of the field, whatever else in the frame is ignored; and if ef returns 0, such a frame was received on this interface before the time was up. Holds for the fields of headers of fixed shape that are parsed as numbers or bytes and do not overlap later fields.",
  "every such command, every other word of the frame, every received traffic",
  "Unbounded input and arbitrary traffic; tests compare a few masks.",
  [EX+":rfds_wfds_process", AR+":argc_frame", "src/ef.c:frame_mask_to_buf", "src/ef-buf.c:bequal_mask"])
p("What is carried does not depend on what carries it",
  "If the same words, beginning with the name of a header, end two frames and no IP header comes before them, their bytes are the same in both frames. In particular one more tag behind the Ethernet header or another tag (type fields not given) changes nothing but itself: the bytes before the type field stay, then the type of the tag and its bytes follow, and then the type and everything behind it as before, up to the padding to 60 bytes.",
  "all words before and all common words, every nesting of tags",
  "Relates two inputs of unbounded length; the tests check single frames.",
  [AR+":argc_frame", "src/ef.c:frame_to_buf", "src/ef.c:ether_type_fill_defaults", "src/ef-udp.c:udp_tcp_fill_defaults"])
p("Only the order of commands of the same kind or interface matters",
  "If two command lines have the same definitions of names, the same hex commands, the same pcap commands and for every interface the same tx and rx commands, each in the same order, and use the interfaces first in the same order, then ef does exactly the same for both: the same output in the same order, the same frames transmitted, the same frames accepted and missed, the same result. In particular a name may be defined behind its use.",
  "every list of commands whose names are defined, every behaviour of the operating system",
  "Relates two command lines under the same arbitrary traffic.",
  [EX+":exec_cmds", EX+":add_cmd_to_resource", EX+":copy_cmd_by_name"])
p("Lists of buffers collect what is printed to them",
  "Everything that is printed to an empty list of buffers with bl_printf_append is found in the list, in order. FALSE: with assertions every call ends the program, because bl_check ends in assert(0); without assertions the new element is never linked to the list, so the text is lost, and unless every text but the last is empty or at least 4096 characters long the next call dereferences NULL (exact condition proved). Buffers appended with ble_append_buf do come last, and bprintf gives the text and its terminating zero.",
  "every sequence of printed texts, every list",
  "Sequences and texts of any length; no test calls these functions.",
  ["src/ef-buf.c:bl_printf_append", "src/ef-buf.c:bl_check", "src/ef-buf.c:ble_append_buf", "src/ef-buf.c:bprintf"])
p("A dump shows every byte at its position",
  "The text printed by hexdump can be read back: it consists of rows of 16 bytes (the last may be shorter, but is not empty), each with its position, and the bytes of the rows together are exactly the dumped bytes.",
  "all buffers of less than 2^31 bytes",
  "Infinitely many buffers; read back by a reader that does not know how the text is made.",
  ["src/ef.c:hexdump"])
p("Names are only names",
  "If the interfaces, the capture files and the names of frames in a list of commands are replaced by others, different interfaces by different interfaces and different names by different names, and the operating system opens the same interfaces as before, then ef does the same with the new names in place of the old ones: the same frames in the same order on the corresponding interfaces, the same frames accepted and missed, the same result. The same holds for command lines if the commands end where they end (C52).",
  "every list of commands, every renaming that keeps different interfaces and different names apart, every behaviour of the operating system",
  "Relates two command lines under the same arbitrary traffic; the renamings are arbitrary functions.",
  [EX+":exec_cmds", EX+":add_cmd_to_resource", EX+":copy_cmd_by_name", AR+":argc_cmd"])
p("Nothing happens that was not asked for",
  "Whenever ef runs, its command line can be cut into commands such that every effect comes from one of them: every frame put on an interface is the frame written behind tx and this interface (or defined by the name written there), every frame in a capture file or in the output of hex is the frame of a pcap command with this file or of a hex command, every frame reported as accepted matches the frame of a command for this interface, every frame reported as missing is the frame of an rx command for this interface, and only interfaces of tx and rx commands are opened.",
  "every command line and every behaviour of the operating system",
  "Says what does not happen, for all command lines and all traffic.",
  [EX+":exec_cmds", EX+":add_cmd_to_resource", EX+":rfds_wfds_process", AR+":argc_cmds", AR+":argc_cmd"])
p("The group id of an oam-ccm header holds the bytes given",
  "The 48 bytes of meg_id, which start 10 bytes behind the beginning of the oam-ccm header, are the bytes of the hex string assigned last, followed by zeros. A text that is no hex string or denotes more than 48 bytes is not sent: the field is zero and the frame is still accepted.",
  "every frame with an oam-ccm header, every sequence of assignments, every text",
  "Infinitely many texts and surrounding headers.",
  ["src/ef-parse-bytes.c:parse_field_hex", "src/ef-oam.c:CCM_FIELDS"])
p("Every interface is served through its own socket",
  "Whatever descriptors the operating system hands out for the sockets, a frame that is received is compared with the commands of the interface to which the socket it came from was bound, every frame is sent through the socket that was bound to the interface of its command, and select waits for all sockets that are needed and for no others: the run is the same as if each interface was asked directly.",
  "every list of commands, every system that does not hand out a descriptor twice, every traffic",
  "Arbitrarily many interfaces, orders of descriptors and traffic; the sets of descriptors overflow only on crowded systems.",
  [EX+":rfds_wfds_fill", EX+":rfds_wfds_process", EX+":raw_socket", EX+":exec_cmds"])
p("The same words mean the same frame in every command",
  "The words of a frame describe the same bytes behind hex, name NAME, pcap FILE, tx IF, tx IF rep N and rx IF, in every run: what hex prints is what tx puts on the interface, what pcap saves and what rx expects (with the same mask), and every frame that rx accepts matches it. Words that are accepted behind one of hex, pcap FILE, tx IF and tx IF rep N are accepted behind the others, whatever they are.",
  "every sequence of words behind the beginning of the command, every pair of commands, every behaviour of the operating system in both runs",
  "Relates the runs of two command lines under different traffic; a test compares a few frames.",
  [AR+":argc_cmd", AR+":argc_frame", EX+":exec_cmds", EX+":cmd_process_frame"])
p("Odd frames end in an assertion, never in foreign memory",
  "Whatever headers and fields an accepted frame description consists of, computing its bytes and its mask never reads or writes outside of a buffer and uses no null or uninitialised pointer: the outcome is a frame, a failed assertion, or exit(-1) because of an mld header. A whole command line has no undefined behaviour if no literal is too long for its field, CoAP payload is well-formed, and something follows tx IF and tx IF rep.",
  "every word list that is accepted as a frame, every command line with these conditions on the words",
  "Tests (even with sanitizers) see the frames they build; the fields that move when a header shrinks make the positions of the writes depend on all other headers.",
  [EF+":frame_to_buf", EF+":frame_mask_to_buf", EF+":hdr_copy_to_buf_", EF+":hdr_write_field", AR+":argc_cmds"])
p("An mld header that cannot be completed ends the program with its reason",
  "The only reason for which building a frame calls exit is an mld header without explicit checksum that has no IPv6 header before it, or whose first IPv6 header lacks the source or the destination address. The status is -1, exactly one line is printed before, and it names what the last such header lacks. A frame with such a header never gets bytes, and building any other frame prints nothing.",
  "every word list accepted as a frame, every position of the header, and every command line free of over-long literals",
  "The condition ranges over all stacks of headers around the mld header; tests try the message for one stack.",
  ["src/ef-mld.c:mld_fill_defaults", EF+":frame_to_buf", AR+":argc_cmds"])
p("An interface that cannot be opened is named",
  "If the sockets of a run cannot all be opened, the output names the interface. (Refuted; what holds: the lines printed while opening are exactly those about the failed calls (socket, bind, promiscuous mode) in their order, there is exactly one if the run cannot begin and none if it begins.)",
  "every behaviour of the operating system, every list of interfaces",
  "Failures of single system calls after others succeeded are hard to provoke; a test sees the error of one system.",
  ["src/ef-exec.c:raw_socket", "src/ef-exec.c:exec_cmds"])
p("Running out of memory is noticed",
  "If memory runs out while named frames are copied, the tool does not report success, unless the run is the same as with enough memory. (Refuted; what holds: unknown names are reported as always, and otherwise the run is that of commands that may have lost the frame, its bytes or its mask; commands with their own frames are not affected. The copy of a header is refused exactly if the memory for the header or for its fields is not granted; else it exists, and each field silently lacks those of its two buffers that were not granted.)",
  "every sequence of granted and refused requests, every list of commands, every environment, every header",
  "The requests that may fail are chosen in all combinations; tests run with enough memory.",
  [EF+":field_copy", EF+":hdr_copy", "src/ef-exec.c:copy_cmd_by_name", "src/ef-buf.c:bclone"])
p("Frames of any size are sent as they are",
  "The bytes of a payload are sent as given, whatever its size. (Refuted; what holds: frames of less than 2^28 bytes have the bytes and the mask that all other properties state, also when widths, offsets and sizes are 32-bit numbers with a sign. For payloads below 2^32 bytes the bytes are given exactly: by their number modulo 2^29, the beginning is lost, the frame consists of zeros, an assertion fails or the computation has no meaning; from 2^31 bytes on the frame has 60 bytes.)",
  "every frame of the command line below 2^28 bytes; every payload below 2^32 bytes in any segments",
  "A test of the boundary needs frames of 256 MiB to 4 GiB; the wrap-around only shows at sizes no test uses.",
  ["src/ef-payload.c:payload_parser", EF+":hdr_write_field", EF+":hdr_copy_to_buf_", EF+":frame_to_buf", EF+":frame_mask_to_buf"])
p("Captures do not disturb the commands",
  "That a capture ends, for example because it has the number of packets it was asked for, makes no difference for the commands: the same frames are transmitted and received, and the exit code is the same. (Refuted; what holds: there is no difference if no capture ends while the tool waits. Otherwise the first end of a capture ends the run: everything before is the same, whatever comes later is neither received nor transmitted, and the expectations that are open are reported missing.)",
  "every list of commands, every traffic, captures that end at any time",
  "The moment at which another process ends relative to the traffic is not under the control of a test.",
  ["src/ef-capture.c:capture_start", "src/ef-capture.c:signal_child", "src/ef-exec.c:exec_cmds"])
p("Captures get the time they need",
  "With captures, three seconds pass between the start of the last capture and the first command, and the captures run from then on for the whole timeout and three more seconds before they are stopped. (Refuted: the end of one capture interrupts the waiting for all others. Each of the three waits has its full length if no capture ends during it.)",
  "every timeout, all durations of the commands, captures that end at any time",
  "The moment at which another process ends is not under the control of a test; the effect is a capture file that lacks frames.",
  ["src/ef-capture.c:capture_all_start", "src/ef-capture.c:capture_all_stop", "src/ef-args.c:argc_cmds"])
p("Frames that arrive in time are looked at",
  "Every frame that arrives at an interface with an rx command before the timeout has passed is reported, in the order of arrival, and a test succeeds exactly if these frames are the expected ones. (Refuted: if the tool is slow, frames that have arrived in time are left unread, so an expected frame is reported missing, and an unexpected one goes unnoticed. What holds: everything is read if the last select returns 0; in any case the report is about the first frames that arrived.)",
  "every list of commands, all frames on the wire, all times of arrival, every scheduling of the tool",
  "A test on an idle machine never sees the tool being late; the outcome depends on microseconds.",
  ["src/ef-exec.c:exec_cmds", "src/ef-exec.c:rfds_wfds_process"])
p("The report can be read when captures end",
  "If captures end during a run, the two outputs still say exactly what happened: without the lines about the ends of the captures, every line can be read and tells the right interface, bytes or name, and mask. (Refuted: a line may be torn apart by the message about a capture. What holds: standard error is never touched, and standard output can be read if captures end only between messages, for example while the tool waits.)",
  "every command line, every traffic, captures that end between any two calls that print",
  "A signal would have to arrive between two particular calls.",
  ["src/ef-capture.c:signal_child", "src/ef-exec.c:rfds_wfds_process", "src/ef.c:print_hex_str"])
p("rx without a frame",
  "An interface for which only rx without a frame is given must stay silent: every frame that is received there in time is reported as an error, in order, nothing is reported missing, and the result of a line of such commands is exactly the number of these frames, however often an interface is named. It is 0 exactly if no frame arrives until the deadline, if everything was read (C126). Nothing is said about interfaces without rx command.",
  "every list of commands, every traffic, every scheduling of the tool; lines of up to 50 interfaces with any names",
  "A test can show that some frames are noticed, not that every frame at every moment is, nor that silence is never taken for noise.",
  ["src/ef-args.c:argc_cmd", "src/ef-exec.c:rfds_wfds_process", "src/ef-exec.c:exec_cmds"])
p("Success and what was transmitted",
  "If the tool reports success, every tx command was transmitted in full as often as requested. The TX lines about an interface are those of the commands that were completed, one for each and in the order of the command line; if each transmission succeeds and there are as many TX lines as tx commands, then exactly the requested frames were transmitted.",
  "every list of commands, every traffic, every sequence of results of send, every moment at which interfaces get ready",
  "On a test machine interfaces are always ready and send does not fail; that the exit status ignores transmissions shows only elsewhere.",
  ["src/ef-exec.c:rfds_wfds_process", "src/ef-exec.c:exec_cmds"])
p("Wrong checksums are rare and off by one",
  "The checksums that are filled in are not always right (C31, C34 to C37), but nearly always. Of all frames whose data under a checksum agree except for the checksum and one more word, such as the identification of an ipv4 header or a port, at most as many have a wrong checksum as there are other words, for ipv4 at most 8 of 65536. A checksum is right unless the sum of the words is within their number of the next multiple of 65536, and a wrong one is too large by one in the byte order of the host.",
  "all frames with a checksum of ipv4, udp, tcp, icmp, igmp or mld over at most 128 KiB, every position of the word that varies",
  "The few wrong values are different for every frame; tests that try some frames do not meet them and cannot count them.",
  ["src/ef.c:inet_chksum", "src/ef-ipv4.c:ipv4_fill_defaults", "src/ef-udp.c:udp_tcp_fill_defaults"])
p("A test that ignores fields compares everything else",
  "If frames are transmitted on one interface and a frame with ignored fields is expected on another one, the test succeeds exactly if one frame is received there, of the right length and with the expected value in every bit that belongs to a compared field or to no header. For several expectations success means that received and expected frames can be brought together like this one to one, and conversely if no two different expectations have a frame in common. If the expectation has the words of the transmission with values replaced by ign, the transmitted frame is accepted.",
  "all descriptions of frames and ignored fields that fit a command line, every traffic on both interfaces",
  "Tests use a few ignored fields and a few deviations; that no other deviation is accepted, and none in the ignored bits is rejected, needs all frames.",
  ["src/ef-args.c:argc_cmds", "src/ef-exec.c:rfds_wfds_process", "src/ef-buf.c:bequal_mask", "src/ef.c:frame_mask_to_buf"])
p("A name that could not be copied is noticed",
  "If memory runs out while the names of interfaces, files and frames are copied, the tool does not report success, unless the run is the same as with enough memory. The same lines are refused; of the commands exactly those names are lost for which memory was not granted; a run that reports success has kept the interface or file of every command, and for each name that is still referred to a definition with its name.",
  "all command lines, all answers of the allocator to the copies of names, all traffic",
  "Unit tests do not let single allocations fail, and there are as many places of failure as names on a line.",
  ["src/ef-args.c:argc_cmd", "src/ef-exec.c:add_cmd_to_resource", "src/ef-exec.c:copy_cmd_by_name", "src/ef-exec.c:pcap_append"])
p("A timeout or number of repetitions that is not a number is refused",
  "A value of -t that is not a decimal number below 2^31 is refused. What holds for all values: white space, a sign and digits are read, the rest is ignored, a text without a number is 0; numbers outside of 64 bits become the nearest one inside, and the low 32 bits are the timeout in milliseconds, or the number of repetitions.",
  "all texts as values of -t and rep, in all lines",
  "Tests use small numbers; that every other text is read as some number, and as which one, needs all texts.",
  ["src/ef-args.c:main_", "src/ef-args.c:argc_cmd"])
p("Running out of memory for received frames never changes the result",
  "If the memory for a received frame is refused, the run does not end with a result; every run that ends has the result, the report and the transmissions of the run with enough memory. With each run there is a fixed number of requests, at least one for each frame reported, and exactly a refusal of one of these makes the difference.",
  "all commands, all traffic, all answers of the allocator to the requests for received frames",
  "Tests do not let the allocation of the receive buffer fail, and there is one for each interface in each round.",
  ["src/ef-exec.c:rfds_wfds_process", "src/ef-exec.c:exec_cmds", "src/ef-buf.c:balloc"])
p("Without memory for a capture the option is refused and no file is lost",
  "If memory for the option `-c` is refused, the tool reports an error, and a refused option deletes no file. A run with captures either has all of them, with the commands of the options, or fails before anything is sent, received or recorded.",
  "all texts of the option, all command lines, all answers of the allocator",
  "Tests do not let single allocations fail, and their number depends on the elements of the option.",
  ["src/ef-capture.c:capture_add", "src/ef-args.c:main_", "src/ef-buf.c:bprintf"])
p("Without memory for a payload the payload is refused",
  "If memory for a payload is refused, for instance because of the number of repetitions, the payload is refused. A payload or value that is accepted is the one that was written, whatever the allocator answers; none is shorter or different.",
  "all payload words, all texts of values, all answers of the allocator",
  "Tests do not let single allocations fail; the number of requests depends on the segments.",
  ["src/ef-parse-bytes.c:parse_var_bytes", "src/ef-parse-bytes.c:parse_var_bytes_", "src/ef-parse-bytes.c:parse_var_bytes_repeat", "src/ef-parse-bytes.c:parse_bytes", "src/ef-buf.c:balloc"])
p("Without memory for a computed field no frame is sent",
  "If the memory does not suffice to compute the Ethernet type, the protocol, the length or the checksum of an IP header, no frame with another value is built. Fields are only left out if memory was refused, and nothing but computed fields changes.",
  "all headers, all headers carried, all answers of the allocator",
  "Tests do not let single allocations fail, and the tool reports nothing when this one does.",
  ["src/ef.c:ether_type_fill_defaults", "src/ef-ipv4.c:ipv4_fill_defaults", "src/ef-ipv6.c:ipv6_fill_defaults", "src/ef-parse-bytes.c:parse_bytes"])
p("Without memory no wrong UDP or TCP checksum is sent",
  "If memory is refused while the length and the checksum of a UDP or TCP header are computed, each of them is the usual one or is left out; a given checksum stays, and nothing else in the header changes. With enough memory both are the usual ones.",
  "all headers, all headers below and above, all answers of the allocator",
  "Tests do not let single allocations fail, and the tool reports nothing when this one does.",
  ["src/ef-udp.c:udp_tcp_fill_defaults", "src/ef.c:hdr_copy", "src/ef-buf.c:bclone", "src/ef-parse-bytes.c:parse_bytes"])
p("Without memory no wrong ICMP or IGMP checksum is sent",
  "If memory is refused while the checksum of an IGMP header, or of an ICMP header not carried by IPv6, is computed and the program goes on, the checksum is the usual one or left out, the latter only if a request was refused; nothing else in the header changes. With enough memory the checksum is the usual one, over IPv6 too.",
  "all headers, all headers below and above, all answers of the allocator",
  "Tests do not let single allocations fail, and the tool reports nothing when this one does.",
  ["src/ef-icmp.c:icmp_fill_defaults", "src/ef-igmp.c:igmp_fill_defaults", "src/ef-parse-bytes.c:parse_bytes"])


with open(os.path.join(os.path.dirname(__file__), "..", "properties.jsonl"), "w") as f:
    for x in P: f.write(json.dumps(x)+"\n")
print(len(P))
