{"id": "C01", "title": "Integer literals are encoded exactly", "statement": "For a field of 1..8 bytes, writing a number in decimal, hexadecimal (0x), octal (0o) or binary (0b) notation yields the big-endian encoding of exactly that number (reduced modulo the size of the field), if the number fits in 64 bits; a number of 2^64 or more is rejected and never wraps around.", "quantifier": "every non-empty or empty digit string in each of the four notations, every field size from 1 to 8 bytes", "why_tests_cant": "The set of digit strings is infinite and the interesting cases (leading zeros, 64-bit overflow, truncation at each width) are spread over it; tests sample a handful.", "anchors": ["src/ef-parse-bytes.c:parse_bytes"]}
{"id": "C02", "title": "Long hexadecimal literals are right-aligned and never write outside the value", "statement": "For a field of more than 8 bytes, an 0x literal with an even number of digits that fits in the field yields the bytes of the literal, right-aligned and zero padded on the left; an odd digit count is rejected; and no literal whatsoever makes the parser write outside the buffer it allocated.", "quantifier": "every digit string and every field size above 8 bytes", "why_tests_cant": "An out-of-bounds write only happens for literals longer than the field, which no test tries, and silent heap corruption is not an observable test failure.", "anchors": ["src/ef-parse-bytes.c:parse_bytes_hex", "src/ef-parse-bytes.c:parse_bytes"]}
{"id": "C03", "title": "Long binary literals are right-aligned and never write outside the value", "statement": "For a field of more than 8 bytes, an 0b literal whose digit count is a multiple of eight and fits the field yields these bytes right-aligned and zero padded; other digit counts are rejected; no literal makes the parser write outside the buffer it allocated.", "quantifier": "every string of binary digits and every field size above 8 bytes", "why_tests_cant": "Same as for hexadecimal: the input space is infinite and memory corruption is silent.", "anchors": ["src/ef-parse-bytes.c:parse_bytes_binary", "src/ef-parse-bytes.c:parse_bytes"]}
{"id": "C04", "title": "Dotted-quad IPv4 addresses are encoded exactly", "statement": "For a four byte field the text a.b.c.d with decimal octets yields the four bytes a, b, c, d in that order; any other text that contains a dot yields no value at all.", "quantifier": "all 2^32 addresses and every other string containing a dot", "why_tests_cant": "2^32 addresses plus all malformed strings cannot be enumerated by tests.", "anchors": ["src/ef-parse-bytes.c:parse_bytes"]}
{"id": "C05", "title": "MAC addresses with '::' compression expand like IPv6", "statement": "For a six byte field, 'x:..:y::z:..:w' with at most five one- or two-digit hexadecimal elements in total yields the elements before '::' first, the elements after '::' last and zero bytes between; six elements separated by single colons yield exactly these six bytes.", "quantifier": "all element lists before and after '::', every way of writing each element (one/two digits, upper/lower case)", "why_tests_cant": "There are more than 2^40 addresses and many spellings each; in particular spellings whose first two characters look like a number prefix behave differently, which sampled tests miss.", "anchors": ["src/ef-parse-bytes.c:parse_bytes"]}
{"id": "C06", "title": "IPv6 addresses are encoded exactly", "statement": "For a 16 byte field, eight groups of hexadecimal digits separated by colons yield the 16 bytes in network order, and '::' stands for the missing zero groups.", "quantifier": "all 2^128 addresses in full form, all splits around '::'", "why_tests_cant": "2^128 addresses cannot be enumerated.", "anchors": ["src/ef-parse-bytes.c:parse_bytes"]}
{"id": "C07", "title": "A parsed value always has exactly the size of its field", "statement": "Parsing any text for a field of n bytes either yields no value, or a value of exactly n bytes; it never yields a shorter or longer buffer.", "quantifier": "every text, every field size", "why_tests_cant": "The property is about all inputs of a hand written multi-format parser; a single short buffer would later trip an assertion when the frame is built.", "anchors": ["src/ef-parse-bytes.c:parse_bytes", "src/ef-parse-bytes.c:parse_uint8", "src/ef-parse-bytes.c:parse_uint32"]}
{"id": "C08", "title": "Hex strings round-trip with the printer", "statement": "Printing any byte sequence with the hex printer and parsing the text back as a variable length hex string gives the identical byte sequence.", "quantifier": "every non-empty byte sequence of any length", "why_tests_cant": "Byte sequences are unbounded; tests check a few short strings.", "anchors": ["src/ef.c:print_hex_str", "src/ef-parse-bytes.c:parse_var_bytes_hex"]}
{"id": "C09", "title": "Hex strings are accepted exactly when they are byte aligned", "statement": "A variable length hex string is accepted if and only if it contains at least one digit, consists only of hex digits and the delimiters . : - _, and every delimiter and the end of the string fall on a byte boundary; the bytes are then the digit pairs in order, zero padded at the end up to the requested minimum size, and nothing is written outside the buffer.", "quantifier": "every string and every minimum size", "why_tests_cant": "An if-and-only-if over all strings cannot be settled by examples.", "anchors": ["src/ef-parse-bytes.c:parse_var_bytes_hex"]}
{"id": "C10", "title": "Payload specifications concatenate", "statement": "A payload given as several segments (hex, ascii, ascii0, repeat, pattern) is the concatenation of the segments in the order given, the parser consumes exactly the words of the segments and stops at the first word that starts no segment; a malformed segment rejects the whole command.", "quantifier": "every sequence of segments followed by any other words", "why_tests_cant": "Sequences are unbounded and consumption errors only show when something follows.", "anchors": ["src/ef-parse-bytes.c:parse_var_bytes", "src/ef-parse-bytes.c:parse_var_bytes_"]}
{"id": "C11", "title": "Payload segments produce the documented bytes", "statement": "'repeat N V' is N copies of byte V, 'pattern cnt N' is 0,1,2,.. counting modulo 256, 'pattern zero N' and 'pattern ones N' are N bytes 0x00 / 0xff, 'ascii S' are the characters of S and 'ascii0 S' additionally a terminating zero byte.", "quantifier": "every count N below 2^32, every V, every S", "why_tests_cant": "N ranges over 2^32 values; wrap-around of the counter pattern and truncation of N and V are boundary behaviour at unbounded sizes.", "anchors": ["src/ef-parse-bytes.c:parse_var_bytes_repeat", "src/ef-parse-bytes.c:parse_var_bytes_pattern", "src/ef-parse-bytes.c:parse_var_bytes_ascii", "src/ef-parse-bytes.c:parse_var_bytes_ascii0"]}
{"id": "C12", "title": "Writing a field changes exactly the bits of that field", "statement": "Serialising one field into a buffer sets the bits of the field to the low-order bits of the value (most significant first) and leaves every other bit of the buffer unchanged.", "quantifier": "every buffer, every field position and width that lies within it, every value at least as wide as the field", "why_tests_cant": "Bit positions, widths and values multiply to an unbounded space; off-by-one errors at byte boundaries only affect some alignments.", "anchors": ["src/ef.c:hdr_write_field", "src/ef.c:bit_get", "src/ef.c:bit_set"]}
{"id": "C13", "title": "A field reads back as the value modulo its width", "statement": "After serialising, reading the field's bits as an unsigned big-endian number gives the number denoted by the value modulo 2^width.", "quantifier": "every buffer, field position, width and value", "why_tests_cant": "Unbounded value and width space.", "anchors": ["src/ef.c:hdr_write_field"]}
{"id": "C14", "title": "Header layouts are gap-free, non-overlapping and inside the header", "statement": "In every header known to the tool the fields declared without an explicit position are adjacent in declaration order starting at bit 0, they do not overlap, they fill the header to its last byte, and overlay fields (explicit position) lie within the header; start-up reports no layout error.", "quantifier": "all 55 header templates (data and coap-parms start with room for 1 byte, padding with none) and all their fields", "why_tests_cant": "Layout is data spread over some 900 table lines, and no unit test covers every field; a wrong width shifts all later fields silently.", "anchors": ["src/ef.c:def_offset", "src/ef.h:hdr_tmpl_t", "src/ef-ifh.c:ifh_init"]}
{"id": "C15", "title": "A frame is the concatenation of its headers padded to 60 bytes", "statement": "The bytes of a frame are the bytes of its headers in stack order, each rendered independently of the others, followed by zero bytes up to a minimum total of 60; the total length is max(60, sum of header sizes).", "quantifier": "every header stack whose headers keep their written fields inside the header", "why_tests_cant": "Stacks are unbounded combinations of 55 headers with arbitrary values.", "anchors": ["src/ef.c:frame_to_buf", "src/ef.c:hdr_copy_to_buf_"]}
{"id": "C16", "title": "No header writes into its neighbours", "statement": "For every frame specification accepted on the command line, no header's fields are written outside the bytes belonging to that header.", "quantifier": "every accepted sequence of command line words", "why_tests_cant": "It concerns all combinations of fields in headers whose size depends on which fields are given.", "anchors": ["src/ef.c:frame_to_buf", "src/ef-sv.c:sv_fill_defaults", "src/ef-mld.c:mld_fill_defaults", "src/ef-igmp.c:igmp_fill_defaults"]}
{"id": "C17", "title": "User supplied and default values appear in the frame", "statement": "In a header with non-overlapping fields, every field the user gave a value for carries that value (modulo its width) in the emitted frame; a field that was not given and is not computed carries its documented default, or zero.", "quantifier": "every header, every set of fields and values", "why_tests_cant": "Unbounded number of combinations.", "anchors": ["src/ef.c:hdr_parse_fields", "src/ef.c:hdr_copy_to_buf_", "src/ef.c:frame_to_buf"]}
{"id": "C18", "title": "Overlapping (overlay) fields: the last declared one wins", "statement": "When several fields of a header cover the same bit (injection frame headers overlay alternative layouts), the emitted bit is that of the last field in declaration order which has a value, and 0 if none has.", "quantifier": "every header, every assignment of values", "why_tests_cant": "All combinations of overlay fields are too many to test.", "anchors": ["src/ef.c:hdr_copy_to_buf_"]}
{"id": "C19", "title": "The match mask has the same length as the frame", "statement": "Whenever a frame has ignored parts, the generated mask has exactly as many bytes as the generated frame.", "quantifier": "every frame specification", "why_tests_cant": "Headers change size while defaults are filled in; equality must hold for all combinations.", "anchors": ["src/ef.c:frame_mask_to_buf", "src/ef.c:frame_to_buf", "src/ef-args.c:argc_cmd"]}
{"id": "C20", "title": "The mask clears exactly the ignored bits", "statement": "A mask bit is 1 if and only if the bit belongs to the padding after the last header or to at least one field that is not ignored.", "quantifier": "every frame specification for which a mask is produced, every bit", "why_tests_cant": "Per-bit statement over all frames.", "anchors": ["src/ef.c:frame_mask_to_buf", "src/ef.c:hdr_copy_to_buf_"]}
{"id": "C21", "title": "Ignoring a field ignores all of its bits", "statement": "After 'FIELD ign' no difference in the bits of that field can make a received frame mismatch.", "quantifier": "every header, every field, every pair of frames that differ only in that field", "why_tests_cant": "Quantifies over fields and over pairs of frames; overlay fields are a corner case that tests on single fields do not reach.", "anchors": ["src/ef.c:hdr_parse_fields", "src/ef.c:hdr_copy_to_buf_", "src/ef-buf.c:bequal_mask"]}
{"id": "C22", "title": "'ign' directly after a header name ignores the whole header except fields given later", "statement": "'HDR ign F1 V1 ...' marks every field of the header as ignored except those assigned a value afterwards, and sets the flag that a mask is needed.", "quantifier": "every header, every following sequence of assignments of fixed-size fields", "why_tests_cant": "Sequences are unbounded.", "anchors": ["src/ef.c:hdr_parse_fields"]}
{"id": "C23", "title": "Masked comparison means equality on unmasked bits", "statement": "Without trailing padding a received frame matches an expected frame if and only if both have the same length and agree on every bit that is set in the mask (all bits, where there is no mask).", "quantifier": "all pairs of frames and all masks of any length", "why_tests_cant": "An if-and-only-if over unbounded byte sequences.", "anchors": ["src/ef-buf.c:bequal_mask"]}
{"id": "C24", "title": "Trailing padding is ignored when matching", "statement": "With 'padding N' a received frame matches if it is the expected frame followed by any N bytes, and comparing never reads outside the two frames.", "quantifier": "all frames, all N, all trailing bytes", "why_tests_cant": "The comparison reads memory behind the expected frame; whether a test notices depends on heap contents.", "anchors": ["src/ef-buf.c:bequal_mask", "src/ef-padding.c:padding_parser", "src/ef-exec.c:rfds_wfds_process"]}
{"id": "C25", "title": "An expected frame always matches itself", "statement": "A received frame that is byte for byte the generated frame always matches the expectation it was generated from, whatever is ignored.", "quantifier": "every frame specification without trailing padding", "why_tests_cant": "All frames and masks.", "anchors": ["src/ef-buf.c:bequal_mask", "src/ef.c:frame_mask_to_buf"]}
{"id": "C26", "title": "Buffer equality is an equivalence and clones are equal", "statement": "Comparing two buffers tells whether they have the same bytes (a missing buffer equals only a missing buffer); a clone always equals its original, and copies of fields, headers and frames are equal to and independent of their originals.", "quantifier": "all buffers, fields, headers and frames", "why_tests_cant": "Unbounded data; independence needs all later modifications.", "anchors": ["src/ef-buf.c:bequal", "src/ef-buf.c:bclone", "src/ef.c:field_copy", "src/ef.c:hdr_copy", "src/ef.c:frame_copy"]}
{"id": "C27", "title": "Explicit values always beat computed defaults", "statement": "Computing defaults (types, lengths, checksums) never changes the value of a field the user gave, in any header (the CoAP option number, which is re-encoded as a delta, is the documented exception).", "quantifier": "every frame, every header, every field", "why_tests_cant": "About all fields of all headers in all stacks.", "anchors": ["src/ef.c:frame_to_buf", "src/ef-ipv4.c:ipv4_fill_defaults", "src/ef-udp.c:udp_tcp_fill_defaults", "src/ef-eth.c:eth_fill_defaults"]}
{"id": "C28", "title": "The Ethernet type announces the next header", "statement": "If the user gives no ethertype, the type field of an Ethernet header or VLAN/redundancy tag carries the protocol number of the header that follows it in the stack; when nothing follows it carries its default (a default of zero is not written, so bytes written there by an earlier header that violates C16 stay).", "quantifier": "every stack, every position, all following headers", "why_tests_cant": "All pairs of headers and all stack positions.", "anchors": ["src/ef.c:ether_type_fill_defaults", "src/ef-eth.c", "src/ef-vlan.c"]}
{"id": "C29", "title": "The IPv4 total length counts the header and everything after it", "statement": "If not given by the user, the IPv4 total length in the emitted frame is the number of bytes from the start of the IPv4 header to the end of the last header (padding up to 60 bytes excluded), modulo 65536.", "quantifier": "every stack containing ipv4 at any position", "why_tests_cant": "Headers behind it may change their own size while defaults are computed.", "anchors": ["src/ef-ipv4.c:ipv4_fill_defaults"]}
{"id": "C30", "title": "The IPv4 protocol field announces the next header", "statement": "If not given by the user, the IPv4 protocol field is the protocol number of the following header (modulo 256), or the default when nothing follows.", "quantifier": "every stack containing ipv4", "why_tests_cant": "All stacks.", "anchors": ["src/ef-ipv4.c:ipv4_fill_defaults"]}
{"id": "C31", "title": "The IPv4 header checksum verifies", "statement": "If the user gives no checksum, the ones' complement sum of the ten 16-bit words of the emitted IPv4 header is 0xffff.", "quantifier": "every stack containing ipv4 with arbitrary field values", "why_tests_cant": "The carry folding is wrong only for about one header in 2^14; sampled tests practically never hit it.", "anchors": ["src/ef-ipv4.c:ipv4_fill_defaults", "src/ef.c:inet_chksum"]}
{"id": "C32", "title": "The internet checksum routine computes RFC 1071", "statement": "For every buffer the checksum routine returns the complement of the ones' complement sum (in network byte order) of the buffer's 16-bit words, padding an odd last byte with zero.", "quantifier": "every byte sequence, every initial sum", "why_tests_cant": "The routine folds the carry only once; failing inputs are rare and need a specific sum.", "anchors": ["src/ef.c:inet_chksum"]}
{"id": "C33", "title": "The UDP length counts the UDP header and everything after it", "statement": "If not given by the user, the UDP length in the emitted frame is the number of bytes from the UDP header to the end of the last header, modulo 65536.", "quantifier": "every stack containing udp", "why_tests_cant": "All stacks.", "anchors": ["src/ef-udp.c:udp_tcp_fill_defaults"]}
{"id": "C34", "title": "UDP and TCP checksums verify", "statement": "If the user gives no checksum and UDP/TCP directly follows ipv4 or ipv6, then the ones' complement sum of the pseudo header and all bytes from the UDP/TCP header to the end of the last header is 0xffff.", "quantifier": "every such stack, all addresses, payloads and field values", "why_tests_cant": "The payload is unbounded, and single-fold carry errors are rare.", "anchors": ["src/ef-udp.c:udp_tcp_fill_defaults", "src/ef.c:inet_chksum"]}
{"id": "C35", "title": "ICMP checksums verify and ICMP over IPv6 is announced as 58", "statement": "If the user gives no checksum, the ICMP checksum verifies (over ICMP alone above IPv4, including the IPv6 pseudo header above IPv6); ICMP above IPv6 is announced with next header 58.", "quantifier": "every stack with icmp above ipv4/ipv6", "why_tests_cant": "All payloads; the announcement is a side effect that depends on whether the user gave a checksum.", "anchors": ["src/ef-icmp.c:icmp_fill_defaults"]}
{"id": "C36", "title": "IGMP messages have the size of their version and a verifying checksum", "statement": "An IGMP header occupies 8 bytes without version 3 fields, 12 bytes as a version 3 query, 8 bytes as a version 3 report (group records following), and its checksum over the header and all following records verifies if not given by the user.", "quantifier": "every set of igmp fields, every list of following headers", "why_tests_cant": "Size depends on the subset of fields (2^9 subsets) and checksum on unbounded records.", "anchors": ["src/ef-igmp.c:igmp_fill_defaults"]}
{"id": "C37", "title": "MLD messages have the size of their version and a verifying checksum", "statement": "An MLD header has the size of a version 1 message, version 2 query or version 2 report according to the fields given, building it never aborts the program, and its checksum verifies if not given by the user.", "quantifier": "every set of mld fields, every list of following headers, ipv6 below", "why_tests_cant": "Some field combinations abort; only exhaustive reasoning over the subsets finds them.", "anchors": ["src/ef-mld.c:mld_fill_defaults"]}
{"id": "C38", "title": "IPv6 payload length and next header", "statement": "If not given by the user, the IPv6 payload length is the number of bytes after the IPv6 header up to the end of the last header (modulo 65536) and next header is the protocol number of the following header (modulo 256).", "quantifier": "every stack containing ipv6", "why_tests_cant": "All stacks.", "anchors": ["src/ef-ipv6.c:ipv6_fill_defaults"]}
{"id": "C39", "title": "PTP message and TLV lengths count the following bytes", "statement": "If not given by the user, a PTP header's message length is the number of bytes from it to the end of the last header, and a TLV's length is the number of bytes after its type/length fields to the end of the last header.", "quantifier": "every stack containing a PTP header or TLV", "why_tests_cant": "All stacks.", "anchors": ["src/ef-ptp.c:fill_defaults", "src/ef-ptp.c:tlv_fill_defaults"]}
{"id": "C40", "title": "CoAP options decode to what was specified", "statement": "Decoding the emitted CoAP options according to RFC 7252 (delta and length nibbles with 13/14 extensions, numbers accumulated over the options) gives for every option the option number and the value specified for it; a value consisting of zero bytes only is sent as the empty value.", "quantifier": "all option numbers 0..65535 in ascending order and all values up to 65535 bytes", "why_tests_cant": "Thresholds 13 and 269 for both nibbles, relative numbering between consecutive headers and unbounded values.", "anchors": ["src/ef-coap.c:options_fill_defaults", "src/ef-coap.c:coap_parse_option_value"]}
{"id": "C41", "title": "CoAP code and token", "statement": "The CoAP code 'c.dd' is encoded as class*32+detail and malformed codes give no value; the token length field counts the bytes of the token and the token follows the fixed header.", "quantifier": "every code string, every token string", "why_tests_cant": "All strings.", "anchors": ["src/ef-coap.c:coap_parse_code", "src/ef-coap.c:coap_parse_token", "src/ef-coap.c:coap_fill_defaults"]}
{"id": "C42", "title": "OPC-UA 16-bit fields are little-endian", "statement": "For fields of the OPC-UA header that the protocol defines as little-endian, the two bytes on the wire are the little-endian encoding of the number given.", "quantifier": "all numbers and notations", "why_tests_cant": "65536 values in four notations each.", "anchors": ["src/ef-opcua.c:opc_parse_uint16"]}
{"id": "C43", "title": "Supervision frames have the size implied by their TLVs", "statement": "A redundancy supervision header is 8 bytes shorter when no second-TLV field is given, and all its fields (including the terminating TLV) are then placed inside the header.", "quantifier": "every set of sv fields", "why_tests_cant": "Field subset dependent layout.", "anchors": ["src/ef-sv.c:sv_fill_defaults"]}
{"id": "C44", "title": "Serialising a frame twice gives the same bytes", "statement": "Converting the same frame object to bytes a second time yields the same bytes as the first time.", "quantifier": "every frame", "why_tests_cant": "All frames; only headers whose size is adjusted during default filling violate it.", "anchors": ["src/ef.c:frame_to_buf"]}
{"id": "C45", "title": "The header stack never overflows", "statement": "No command line, however long, makes the tool store more than 100 headers in a frame (the capacity of the stack).", "quantifier": "every list of words", "why_tests_cant": "The bound must hold for all lengths; overflow is silent corruption.", "anchors": ["src/ef-args.c:argc_frame", "src/ef.c:frame_clone_and_push_hdr"]}
{"id": "C46", "title": "Frame parsing consumes a prefix of the words and always terminates", "statement": "Parsing a frame from n words terminates, and either fails or reports a number of consumed words between 0 and n; the word after the consumed prefix (if any) is neither a header name nor a field of the last header, and the consumed words give the same frame alone or in front of any other words that cannot continue the frame.", "quantifier": "every list of words", "why_tests_cant": "Termination and range need all inputs.", "anchors": ["src/ef-args.c:argc_frame", "src/ef.c:hdr_parse_fields"]}
{"id": "C47", "title": "Later assignments of the same field win", "statement": "If a field is assigned several times in one header, the headers are the same as if only the last assignment had been given, and so is the whole frame unless an 'ign' was overridden (which leaves the frame with a mask).", "quantifier": "every header, every list of assignments of fixed-size fields, with or without a leading ign", "why_tests_cant": "Unbounded sequences.", "anchors": ["src/ef.c:hdr_parse_fields"]}
{"id": "C48", "title": "Field order does not matter", "statement": "Assigning distinct plain fields of a header in any order gives the same frame.", "quantifier": "every header, every list of distinct fixed-size fields, every permutation of assignments", "why_tests_cant": "Factorially many permutations.", "anchors": ["src/ef.c:hdr_parse_fields"]}
{"id": "C49", "title": "A value that cannot be parsed is not silently replaced", "statement": "If the text given for a field cannot be parsed as a value for it, the command line is rejected.", "quantifier": "every field and every unparsable text", "why_tests_cant": "Universal claim; the code falls back to the default value silently, so a counterexample proof is needed.", "anchors": ["src/ef.c:hdr_parse_fields", "src/ef-parse-bytes.c:parse_bytes"]}
{"id": "C50", "title": "No command line crashes the tool", "statement": "For every command line, parsing and building the frames ends normally: no failed assertion, no access outside a buffer, no null pointer access.", "quantifier": "every list of words", "why_tests_cant": "Universal over all inputs; crashes hide in rare combinations.", "anchors": ["src/ef-args.c:argc_cmds", "src/ef-args.c:argc_cmd", "src/ef-args.c:argc_frame", "src/ef.c:frame_to_buf"]}
{"id": "C51", "title": "A command line is executed completely or not at all", "statement": "Commands are executed only when every word of the command line was understood as part of one of at most 100 commands; otherwise an error is returned and nothing is transmitted, printed as a frame, or captured.", "quantifier": "every list of words", "why_tests_cant": "All inputs, including more than 100 commands.", "anchors": ["src/ef-args.c:argc_cmds"]}
{"id": "C52", "title": "Splitting the command line into commands is unambiguous", "statement": "For every sequence of at most 100 well-formed commands (with at most 100 words per remaining line), concatenating their words and parsing gives back exactly these commands in order.", "quantifier": "every list of commands", "why_tests_cant": "Unbounded sequences; requires that no command's parser eats words of the next.", "anchors": ["src/ef-args.c:argc_cmds", "src/ef-args.c:argc_cmd"]}
{"id": "C53", "title": "Named frames resolve to the first definition", "statement": "A command that refers to a frame by name uses the bytes, mask and padding of the first frame defined under this name anywhere on the command line.", "quantifier": "every list of commands", "why_tests_cant": "All lists, forward references, duplicates.", "anchors": ["src/ef-exec.c:copy_cmd_by_name", "src/ef-exec.c:exec_cmds"]}
{"id": "C54", "title": "Unknown names are errors before anything happens", "statement": "If any command refers to an undefined name, the tool returns the number of such commands as error count, opens no socket and transmits nothing.", "quantifier": "every list of commands with at least one unresolved name", "why_tests_cant": "All lists.", "anchors": ["src/ef-exec.c:exec_cmds"]}
{"id": "C55", "title": "Commands are grouped by interface in order", "statement": "Every tx/rx command is attached to exactly one socket, that of its interface; each interface gets exactly one socket and within it the commands keep their order.", "quantifier": "every list of at most 100 commands", "why_tests_cant": "All lists.", "anchors": ["src/ef-exec.c:add_cmd_to_resource"]}
{"id": "C56", "title": "Each expected frame is satisfied by at most one received frame and vice versa", "statement": "During a run every received frame satisfies at most one expectation, namely the first open one on its interface that it matches, and every expectation is satisfied at most once.", "quantifier": "every list of commands and every history of received frames", "why_tests_cant": "Arrival histories are unbounded.", "anchors": ["src/ef-exec.c:rfds_wfds_process"]}
{"id": "C57", "title": "The error count is exact", "statement": "The result of a run is the number of received frames that matched nothing plus the number of expected frames that were never received, on the interfaces that are listened to.", "quantifier": "every history of received frames and send results", "why_tests_cant": "Unbounded histories.", "anchors": ["src/ef-exec.c:rfds_wfds_process", "src/ef-exec.c:exec_cmds"]}
{"id": "C58", "title": "Success means exactly the expected traffic was seen", "statement": "On an interface with only rx commands, the run reports no error if and only if the received frames can be paired one-to-one with the expectations so that each pair matches.", "quantifier": "every list of expectations and every history", "why_tests_cant": "Pairings over unbounded histories; the greedy assignment can be wrong when masks make expectations overlap.", "anchors": ["src/ef-exec.c:rfds_wfds_process", "src/ef-exec.c:exec_cmds"]}
{"id": "C59", "title": "Arrival order does not matter for exact expectations", "statement": "When expectations have no mask, the number of errors does not depend on the order in which frames arrive on an interface.", "quantifier": "every list of expectations and every permutation of arrivals", "why_tests_cant": "Permutations of unbounded histories.", "anchors": ["src/ef-exec.c:rfds_wfds_process"]}
{"id": "C60", "title": "Frames are transmitted exactly as often as requested", "statement": "If every send succeeds and the run is not cut short, a tx command with repeat count n is transmitted exactly n times, and never more often than n times whatever the network does.", "quantifier": "every list of commands, every n, every history of events", "why_tests_cant": "Histories and repeat counts are unbounded; failing sends are hard to provoke in tests.", "anchors": ["src/ef-exec.c:rfds_wfds_process"]}
{"id": "C61", "title": "Transmission order is command order", "statement": "On each interface, frames are transmitted in command line order: all repetitions of one tx command before the first of the next.", "quantifier": "every list of commands, every schedule of socket readiness", "why_tests_cant": "Schedules are unbounded.", "anchors": ["src/ef-exec.c:rfds_wfds_process"]}
{"id": "C62", "title": "Received frames never cancel transmissions", "statement": "Receiving a frame never prevents a pending tx command from being transmitted.", "quantifier": "every history", "why_tests_cant": "Needs a particular interleaving of receive and transmit readiness.", "anchors": ["src/ef-exec.c:rfds_wfds_process"]}
{"id": "C63", "title": "Listening lasts for the whole timeout", "statement": "When at least one interface is listened to, the run ends only when the timeout has expired or waiting failed, not when all expectations are satisfied; when nothing is listened to, it ends as soon as everything is transmitted.", "quantifier": "every history of events and clock readings", "why_tests_cant": "Schedules and clock readings.", "anchors": ["src/ef-exec.c:exec_cmds", "src/ef-exec.c:rfds_wfds_fill"]}
{"id": "C64", "title": "Timeout arithmetic is exact", "statement": "The remaining time handed to the wait call is exactly deadline minus now, normalised to 0..999999 microseconds, where the deadline is start plus the timeout in milliseconds.", "quantifier": "all non-negative timeouts and all (normalised) clock readings", "why_tests_cant": "All integer values; borrow and carry cases.", "anchors": ["src/ef-exec.c:exec_cmds", "src/ef-args.c:argc_cmds"]}
{"id": "C65", "title": "VLAN tags removed by the kernel are restored", "statement": "When the kernel reports a stripped VLAN tag, the frame that is compared is the original frame: first 12 bytes, tag protocol id, tag control information, then the rest.", "quantifier": "all frames of at least 12 bytes and all tags", "why_tests_cant": "All frames; the memory move must be in bounds for all lengths.", "anchors": ["src/ef-exec.c:rfds_wfds_process"]}
{"id": "C66", "title": "The exit status tells success from failure", "statement": "The process exit status is 0 if and only if the error count is 0.", "quantifier": "every error count", "why_tests_cant": "Wrap-around of the status byte needs 256 errors.", "anchors": ["src/ef-exec.c:exec_cmds", "src/ef-args.c:main_", "src/main.c"]}
{"id": "C67", "title": "Printed frames can be fed back", "statement": "Feeding the text printed by 'hex FRAME' back as 'hex data hex TEXT' prints the same text.", "quantifier": "every frame without ignored parts", "why_tests_cant": "All frames.", "anchors": ["src/ef-exec.c:exec_cmds", "src/ef.c:print_hex_str", "src/ef-payload.c:payload_parser"]}
{"id": "C68", "title": "Capture options become the documented tcpdump command", "statement": "'-c IF,SNAP,SYNC,FILE,CNT' runs 'tcpdump -i IF [-s SNAP] [-j SYNC] -w FILE [-c CNT]', omitting options whose element is empty or missing, with FILE defaulting to IF.pcap; a sixth and later elements are ignored.", "quantifier": "every option string", "why_tests_cant": "All strings.", "anchors": ["src/ef-capture.c:capture_add"]}
{"id": "C69", "title": "Stopping captures signals exactly the running ones", "statement": "When captures are stopped, every capture process that is still running gets an interrupt, one that has already terminated gets none, and whatever is still running after the grace period is terminated.", "quantifier": "every list of captures and every history of child exits", "why_tests_cant": "Interleavings of child exits and polling.", "anchors": ["src/ef-capture.c:capture_all_stop", "src/ef-capture.c:signal_child"]}
{"id": "C70", "title": "A value given for a field is what the frame contains", "statement": "The value of a field is what the text assigned to it last denotes; a field that was not assigned, or assigned 'ign', has no value. A number given for a field of up to 64 bits stands in the frame at the field's place in its header, reduced to the field's width, whatever else is in the frame. (Not for igmp, mld, sv and coap-opt, whose layout depends on the fields given, and for fields sharing bits with a later field.)", "quantifier": "every frame, every header kind and field, every list of assignments, every number in every notation", "why_tests_cant": "Product of all frames, headers, fields and texts.", "anchors": ["src/ef.c:hdr_parse_fields", "src/ef.c:frame_to_buf", "src/ef.c:hdr_write_field"]}
{"id": "C71", "title": "The payload consists of the bytes given", "statement": "The bytes of a 'data' header are exactly the concatenated bytes of its segments (hex, ascii, repeat, pattern), wherever it stands in the frame.", "quantifier": "every frame and every non-empty list of segments", "why_tests_cant": "Unbounded lists of segments in arbitrary frames.", "anchors": ["src/ef-payload.c:payload_parser", "src/ef-parse-bytes.c:parse_var_bytes", "src/ef.c:frame_to_buf"]}
{"id": "C72", "title": "CoAP payload follows a marker", "statement": "The payload of a CoAP message is sent as the marker byte 0xff followed by exactly the bytes given.", "quantifier": "every frame and every non-empty list of segments", "why_tests_cant": "Unbounded lists of segments in arbitrary frames.", "anchors": ["src/ef-coap.c:coap_parse_parms", "src/ef.c:frame_to_buf"]}
{"id": "C73", "title": "Options may stand anywhere on the command line", "statement": "The options -t and -c may stand anywhere between the other words, with their value in the same or in the next word; the other words are executed as if they stood alone, with the last timeout given (100 ms without) and all captures in the order given; words after '--' are never options. An unknown option or a missing value prints the help text and executes nothing. (With POSIXLY_CORRECT set, options must stand first.)", "quantifier": "every arrangement of options and words", "why_tests_cant": "Unbounded arrangements.", "anchors": ["src/ef-args.c:main_"]}
{"id": "C74", "title": "Captures last as long as the timeout", "statement": "With captures the tool sleeps after executing the commands for exactly the part of the timeout that has not passed since the captures were started, and not at all if it has passed or there are no captures.", "quantifier": "every non-negative timeout, all normalised clock values", "why_tests_cant": "All clock values, borrow from seconds to microseconds.", "anchors": ["src/ef-args.c:argc_cmds"]}
{"id": "C75", "title": "Every field can be given a value", "statement": "For every field of every header there is a command line that gives the field a value.", "quantifier": "every header kind and field, every command line", "why_tests_cant": "Needs a command line for every field, or an argument over all command lines that there is none.", "anchors": ["src/ef.c:hdr_parse_fields", "src/ef.c:find_field"]}
{"id": "C76", "title": "The name of a header starts that header", "statement": "If a frame has been accepted and the next word is the name of a header, the frame continues with that header.", "quantifier": "every frame, every header kind, every further words", "why_tests_cant": "Unbounded frames; a clash of names shows only for certain neighbours.", "anchors": ["src/ef-args.c:argc_frame", "src/ef.c:hdr_parse_fields"]}
{"id": "C77", "title": "The printed report tells what happened", "statement": "Reading standard output and standard error back line by line gives exactly one message for every named frame, hex frame, received, unexpected, transmitted and missing frame and unknown name, in the order in which they happened, each with the right interface, the bytes (or the name) of the frame and its mask if it has one; unless the return value is -1 it equals the number of messages on standard error.", "quantifier": "every command line whose interface names have no newline, colon or leading blank and whose frame names have none either, every network history", "why_tests_cant": "Unbounded runs; the text must be unambiguous for all frames and names.", "anchors": ["src/ef-exec.c:rfds_wfds_process", "src/ef-exec.c:exec_cmds"]}
{"id": "C78", "title": "Fields that are not given hold their preset value", "statement": "A field that is neither given on the command line nor computed from the frame is sent with the constant its defining document prescribes (e.g. version 4, OAM opcode 1, MRP block lengths) or, if there is none, with zero.", "quantifier": "every frame, every header of the list in Spec/Standard.lean (all but ifh, sv, igmp, mld, coap-options, coap-parms, data and padding), every field", "why_tests_cant": "All frames; needs an independent table of all presets.", "anchors": ["src/ef.c:frame_fill_defaults", "src/ef-mrp.c", "src/ef-oam.c", "src/ef-ptp.c", "src/ef-opcua.c"]}
{"id": "C79", "title": "Headers have the layout of their documents", "statement": "Every header has the size, and every field assigned a number, bytes or an address appears at the byte, bit and width, that IEEE 802.1Q, 802.1CB, 1588, 62439, RFC 791, 826, 768, 793, 792, 8200, 7252, G.8013 and IEC 61158 prescribe.", "quantifier": "every frame, every header and field of the list in Spec/Standard.lean, every value", "why_tests_cant": "All frames and values; needs an independent table of all layouts.", "anchors": ["src/ef.c:hdr_copy_to_buf_", "src/ef-eth.c", "src/ef-ipv4.c", "src/ef-ptp.c", "src/ef-oam.c", "src/ef-mrp.c"]}
{"id": "C80", "title": "The help tells the truth", "statement": "The list printed for 'help' names exactly the words that can start a header. The list printed for 'HEADER help' contains exactly the fields of the header, in order, and for every field that can be reached, shares no bit with a later one and has no syntax of its own, the printed position and width are where a number given for it stands in every frame sent. 'HEADER FIELD help' prints the same position.", "quantifier": "every command before the frame, every header kind and field, every frame and number", "why_tests_cant": "The printed text must agree with the bytes of all frames.", "anchors": ["src/ef-args.c:argc_frame", "src/ef.c:hdr_parse_fields", "src/ef.c:def_offset", "src/ef.c:hdr_help", "src/ef.c:field_help"]}
{"id": "C81", "title": "A rejected command line is reported", "statement": "If a command line is rejected, something is printed; the message 'Parse error! arg# I out of N, cmd_idx = K' tells how many words of how many make up how many complete commands.", "quantifier": "every command line", "why_tests_cant": "All command lines; silence shows only for particular ones.", "anchors": ["src/ef-args.c:argc_cmds", "src/ef-args.c:argc_cmd", "src/ef-args.c:argc_frame"]}
{"id": "C82", "title": "A value that is not understood is reported", "statement": "Whenever the text given for a field is not understood, and the field therefore keeps its preset value, something is printed.", "quantifier": "every command line, every field, every text", "why_tests_cant": "All texts in all places of the command line.", "anchors": ["src/ef-parse-bytes.c:parse_bytes", "src/ef.c:hdr_parse_fields"]}
{"id": "C83", "title": "Defaults announced in the help are what is sent", "statement": "If the help of a header announces a default for a field and the field is not given, the value announced stands in the frame at the position announced.", "quantifier": "every frame, every header kind and field", "why_tests_cant": "The printed text must agree with the bytes of all frames.", "anchors": ["src/ef.c:hdr_help", "src/ef.c:field_help", "src/ef.c:def_val", "src/ef-ifh.c:ifh_init", "src/ef-profinet.c:profinet_init"]}
{"id": "C84", "title": "The examples in the help work", "statement": "Every example in the top level help is accepted without a message, and every example given for a header in the list of headers is an accepted frame that starts with that header.", "quantifier": "every example in the help texts, in every place where help can be asked for", "why_tests_cant": "Examples in help texts are not tested; they must be read out of the printed text.", "anchors": ["src/ef-args.c:print_help", "src/ef.c:hdr_help", "src/ef-ipv4.c"]}
{"id": "C85", "title": "Ignoring values does not reject the frame", "statement": "Take the words of a frame, replace some values by 'ign' and add further pairs 'FIELD ign'. The frame sent for the original words is accepted by an expectation of the new words.", "quantifier": "every frame, every choice of ignored fields", "why_tests_cant": "All frames with all choices of ignored fields; computed values (lengths, protocol numbers, checksums) differ in ways a few examples do not show.", "anchors": ["src/ef.c:hdr_parse_fields", "src/ef.c:frame_to_buf", "src/ef.c:frame_mask_to_buf", "src/ef-buf.c:bequal_mask", "src/ef-args.c:argc_frame"]}
{"id": "C86", "title": "Only MAC addresses are accepted as MAC addresses", "statement": "A text with a colon is accepted for a 6 byte field only if it is a MAC address (six elements of one or two hexadecimal digits, or fewer with one '::' for the missing ones), and the value is that address.", "quantifier": "every text", "why_tests_cant": "The set of texts is infinite; a test shows that some wrong texts are rejected, not that all are.", "anchors": ["src/ef-parse-bytes.c:parse_bytes", "src/ef-parse-bytes.c:316-453"]}
{"id": "C87", "title": "Exactly the IPv6 addresses are accepted as IPv6 addresses", "statement": "A text with a colon which does not begin with '0b' is accepted for a 16 byte field exactly when it is an address in one of the forms of RFC 4291 section 2.2, including the form with a dotted quad at the end, and the value is that address; every other text with a colon is rejected.", "quantifier": "every text", "why_tests_cant": "The set of texts is infinite, in both directions.", "anchors": ["src/ef-parse-bytes.c:parse_bytes", "src/ef-parse-bytes.c:456-478"]}
{"id": "C88", "title": "Only texts for a value of the right size are accepted", "statement": "A text is accepted for a field of n bytes exactly when it is a number (in the bases and sizes documented), a dotted quad (n = 4), a MAC address (n = 6) or an IPv6 address (n = 16); the value is what the text denotes; everything else is rejected.", "quantifier": "every text, every field size", "why_tests_cant": "All texts and all field sizes.", "anchors": ["src/ef-parse-bytes.c:parse_bytes", "src/ef-parse-bytes.c:parse_bytes_hex", "src/ef-parse-bytes.c:parse_bytes_binary"]}
{"id": "C89", "title": "What can be transmitted in time is transmitted", "statement": "If no transmission on an interface fails and the interface is ready for transmission at least as often as it has tx commands before the deadline, then every tx command is transmitted exactly as often as requested, also if the run ends because the time is over; without expectations on the same interface exactly the requested frames are transmitted, in order.", "quantifier": "every set of commands, every behaviour of the operating system, every mixture with other interfaces and expectations", "why_tests_cant": "Depends on the order of events delivered by the operating system; tests see one order.", "anchors": ["src/ef-exec.c:rfds_wfds_process", "src/ef-exec.c:exec_cmds"]}
{"id": "C90", "title": "A test over a connection succeeds exactly if the connection works", "statement": "For a command line that transmits frames on one interface and expects frames on another one, the tool succeeds exactly if the frames received are the expected ones, each as often as expected, in any order. If the words of the expectations are those of the transmissions, a connection which delivers exactly what was transmitted makes the tool succeed and every other one makes it fail.", "quantifier": "all descriptions of frames without ignored values and padding, all received traffic", "why_tests_cant": "Needs a network and all its misbehaviours; the whole chain from words to exit status.", "anchors": ["src/ef-exec.c:exec_cmds", "src/ef-args.c:argc_cmds", "src/ef.c:frame_to_buf", "src/ef-buf.c:bequal_mask"]}
{"id": "C91", "title": "padding only adds ignored bytes", "statement": "Behind the words of a frame, 'padding N' changes neither the bytes nor the mask of the frame; an expectation with it wants exactly the frames which consist of the frame without it and N further bytes.", "quantifier": "every frame, every number", "why_tests_cant": "All frames and all numbers; what the padding header does to computed values of the header before it shows in few of them.", "anchors": ["src/ef-padding.c:padding_parser", "src/ef.c:frame_to_buf", "src/ef.c:ether_type_fill_defaults", "src/ef-ipv4.c:ipv4_fill_defaults", "src/ef-buf.c:bequal_mask"]}
{"id": "C92", "title": "rep N transmits N times", "statement": "'tx IF rep N FRAME' transmits the frame exactly N times and 'tx IF FRAME' once, if no transmission fails and the interface is ready at least once before the deadline, and the tool reports success.", "quantifier": "every decimal number from 1 to 2^31 - 1, every frame, every behaviour of the operating system within these conditions", "why_tests_cant": "All numbers, and all orders of events.", "anchors": ["src/ef-args.c:argc_cmd", "src/ef-args.c:argc_cmds", "src/ef-exec.c:rfds_wfds_process"]}
{"id": "C93", "title": "Memory is not used after its release", "statement": "Whatever the command line, the traffic and the answers of the system, no block of memory is used or released after its release (and none is released that was not allocated), also in runs that end early; the blocks make no difference to the outcome.", "quantifier": "every command line, every environment", "why_tests_cant": "Every path through parsing, computed values, pairing of names and error handling; a memory checker only sees the paths of the test.", "anchors": ["src/ef.c:hdr_copy", "src/ef.c:frame_copy", "src/ef.c:frame_destruct", "src/ef.c:hdr_parse_fields", "src/ef.c:frame_to_buf", "src/ef-args.c:cmd_destruct", "src/ef-args.c:argc_cmd", "src/ef-exec.c:copy_cmd_by_name", "src/ef-capture.c:capture_add"]}
{"id": "C94", "title": "Memory is released at the end", "statement": "When the tool has returned, all memory it has allocated is released.", "quantifier": "every command line, every environment in which the run ends", "why_tests_cant": "Every path, including all ways in which values are rejected.", "anchors": ["src/ef-args.c:argc_cmds", "src/ef-args.c:cmd_destruct", "src/ef.c:uninit", "src/ef-oam.c:oam_uninit", "src/ef-coap.c:coap_parse_token", "src/ef-parse-bytes.c:parse_field_hex"]}
{"id": "C95", "title": "A socket is set up completely or closed", "statement": "A socket that is used for an interface was bound to it, sees all frames there, reports VLAN tags and was emptied before; if one of these steps fails, there is no socket and no descriptor stays open.", "quantifier": "every answer of the operating system to every call, every name", "why_tests_cant": "Failures of single system calls are hard to provoke, and no test sees descriptors that stay open.", "anchors": ["src/ef-exec.c:raw_socket"]}
{"id": "C96", "title": "Sockets are closed when the run ends", "statement": "When exec_cmds returns, the descriptors which it has opened are closed; the main loop is only reached when every interface could be opened.", "quantifier": "every answer of the operating system to every call, every list of interfaces", "why_tests_cant": "Failures at any interface, and any behaviour of the system before and after.", "anchors": ["src/ef-exec.c:exec_cmds", "src/ef-exec.c:raw_socket"]}
{"id": "C97", "title": "Success means the frames are in the capture file", "statement": "After a run that ends with success, every file named in a pcap command is a capture file with the packets it held before, followed by the frames of its pcap commands, complete and in their order; no other file is touched.", "quantifier": "every command line, every previous contents of the files, every answer of libpcap", "why_tests_cant": "All contents of existing files, and failures to open them.", "anchors": ["src/ef-exec.c:pcap_append", "src/ef-exec.c:exec_cmds", "src/ef-args.c:argc_cmd"]}
{"id": "C98", "title": "No traffic crashes the tool", "statement": "When the command line has been parsed, executing it ends normally, without access outside of buffers, whatever frames arrive and whatever the system calls return.", "quantifier": "every command line, every sequence of received frames of at least 14 bytes, every answer of the system", "why_tests_cant": "All frames from the network at all moments; the tool is run on networks which others control.", "anchors": ["src/ef-exec.c:exec_cmds", "src/ef-exec.c:rfds_wfds_process", "src/ef-buf.c:bequal_mask"]}
{"id": "C99", "title": "A receiver finds the headers and the payload", "statement": "A receiver that takes a frame apart along the standards (Ethernet, C-, S-, R- and HSR tags, IPv4, IPv6, UDP, TCP; types, versions, header lengths, total lengths) finds exactly the headers of the command line, in their order and with their bytes, and behind them exactly the given payload, without the bytes added to reach 60 - for stacks in which each header may carry the next one and in which the user has not overridden the fields the receiver goes by.", "quantifier": "every such stack of any depth, all values of the other fields, every payload (frames below 64 KiB)", "why_tests_cant": "All combinations of headers; the computed fields have to agree with each other and with the layout.", "anchors": ["src/ef.c:frame_to_buf", "src/ef.c:ether_type_fill_defaults", "src/ef-ipv4.c:ipv4_fill_defaults", "src/ef-ipv6.c:ipv6_fill_defaults", "src/ef-udp.c:udp_tcp_fill_defaults"]}
{"id": "C100", "title": "Writing out what is sent anyway changes nothing", "statement": "If a field has a certain value on the wire - a default, a length, a protocol number, a checksum computed by the tool - then assigning this value to it on the command line, in any notation, leaves every byte of the frame as it is.", "quantifier": "every accepted command line, every header and field in it that shares no bits with others, every notation of the value", "why_tests_cant": "All combinations of headers, fields and computed values; a computed value may depend on whether another field was given.", "anchors": ["src/ef.c:frame_to_buf", "src/ef-icmp.c:icmp_fill_defaults", "src/ef-udp.c:udp_tcp_fill_defaults", "src/ef-ipv4.c:ipv4_fill_defaults", "src/ef.c:hdr_copy_to_buf_"]}
{"id": "C101", "title": "Interfaces do not influence each other", "statement": "What is reported about the frames of an interface - which of them were expected, which were not, which are missing - depends only on the commands for this interface and on what it hears until the deadline. Commands for other interfaces, their order, and other traffic make no difference. The result of a run is the sum of the errors about the single interfaces.", "quantifier": "every two runs that agree about one interface, all other commands and traffic", "why_tests_cant": "Compares all pairs of runs; tests see a few set-ups.", "anchors": ["src/ef-exec.c:exec_cmds", "src/ef-exec.c:rfds_wfds_process"]}
{"id": "C102", "title": "A CoAP receiver decodes the message", "statement": "A receiver that decodes CoAP along RFC 7252 finds in the UDP payload of '... udp coap ... coap-opt ... coap-parms' the type, code, message id and token given, the options with their numbers and values in their order, and the payload.", "quantifier": "every frame with such a message, any number of options, all values", "why_tests_cant": "All combinations of options; the encoding of an option depends on the one before.", "anchors": ["src/ef-coap.c:options_fill_defaults", "src/ef-coap.c:coap_fill_defaults", "src/ef-coap.c:coap_parse_parms", "src/ef-coap.c:coap_parse_token"]}
{"id": "C103", "title": "A name stands for its frame", "statement": "A command line, and the same line without the name definitions and with each 'name N' replaced by the words of the first definition of N, do the same in every environment: the same frames are transmitted, printed and written to files, the same received frames are accepted, rejected or missed, and the result is the same. Only the lines about the named frames, and the names in the other lines, differ.", "quantifier": "every command line, every answer of the operating system", "why_tests_cant": "Compares two runs of the tool for all command lines and all traffic.", "anchors": ["src/ef-exec.c:copy_cmd_by_name", "src/ef-exec.c:exec_cmds", "src/ef-args.c:argc_cmd"]}
{"id": "C104", "title": "Captures do not multiply the commands", "statement": "With any number of captures (-c), the commands are executed once, also if captures cannot be started.", "quantifier": "every number of captures, every result of fork and execl", "why_tests_cant": "Needs failing system calls in child processes, and an observation of all processes of the tool.", "anchors": ["src/ef-capture.c:capture_start", "src/ef-capture.c:capture_all_start", "src/ef-args.c:argc_cmds"]}
{"id": "C105", "title": "One more expectation takes no frame from the others", "statement": "If an rx command for an interface that is already listened to is put behind all other commands, then the reports about all frames that were expected before, all transmissions and the reports about missing frames stay as they are. The additional command gets the first frame it describes among those that were reported as unexpected before, which makes one error less; if there is none, it is reported missing, which makes one error more.", "quantifier": "every list of commands, every additional rx command with a frame or a name, every behaviour of the operating system", "why_tests_cant": "Compares two runs with the same arbitrary traffic; a test has one traffic and cannot repeat it with the same timing.", "anchors": ["src/ef-exec.c:rfds_wfds_process", "src/ef-exec.c:exec_cmds", "src/ef-exec.c:add_cmd_to_resource"]}
{"id": "C106", "title": "Waiting longer only adds", "statement": "A run that is given more time, with the same behaviour of the operating system up to the end of the shorter run, transmits, receives and reports everything that the shorter run does, in the same order, before anything else, and it reports no frame missing that the shorter run does not report missing.", "quantifier": "every list of commands, every pair of timeouts, every behaviour of the operating system", "why_tests_cant": "Compares two runs with the same arbitrary traffic; a test cannot repeat traffic with the same timing.", "anchors": ["src/ef-exec.c:exec_cmds", "src/ef-exec.c:rfds_wfds_process"]}
{"id": "C107", "title": "tcpdump is started with the arguments of the option", "statement": "With -c IF,SNAP,SYNC,FILE,CNT, tcpdump is started by the shell with the arguments -i IF, -s SNAP, -j SYNC, -w FILE and -c CNT (those that are given), each as one argument, and it writes to the file that was deleted before.", "quantifier": "every option text without characters that have a special meaning in the shell", "why_tests_cant": "Unbounded input; a test looks at the text of the command, but the arguments are what the shell makes of it.", "anchors": ["src/ef-capture.c:capture_add", "src/ef-capture.c:capture_execl"]}
{"id": "C108", "title": "Printing and saving frames does not disturb the traffic", "statement": "If the hex and pcap commands are taken away from a command line, everything else stays the same: the inventory, the sockets, the frames transmitted and received, all reports, the timeouts and the exit code.", "quantifier": "every list of commands whose names are defined, every behaviour of the operating system", "why_tests_cant": "Compares two runs with the same arbitrary traffic.", "anchors": ["src/ef-exec.c:exec_cmds"]}
{"id": "C109", "title": "An accepted frame has the values that were asked for", "statement": "If rx IF FRAME gives a field of a header a value (and not ign), every frame that is accepted for this command has exactly this value at the place of the field, whatever else in the frame is ignored; and if ef returns 0, such a frame was received on this interface before the time was up. Holds for the fields of headers of fixed shape that are parsed as numbers or bytes and do not overlap later fields.", "quantifier": "every such command, every other word of the frame, every received traffic", "why_tests_cant": "Unbounded input and arbitrary traffic; tests compare a few masks.", "anchors": ["src/ef-exec.c:rfds_wfds_process", "src/ef-args.c:argc_frame", "src/ef.c:frame_mask_to_buf", "src/ef-buf.c:bequal_mask"]}
{"id": "C110", "title": "What is carried does not depend on what carries it", "statement": "If the same words, beginning with the name of a header, end two frames and no IP header comes before them, their bytes are the same in both frames. In particular one more tag behind the Ethernet header or another tag (type fields not given) changes nothing but itself: the bytes before the type field stay, then the type of the tag and its bytes follow, and then the type and everything behind it as before, up to the padding to 60 bytes.", "quantifier": "all words before and all common words, every nesting of tags", "why_tests_cant": "Relates two inputs of unbounded length; the tests check single frames.", "anchors": ["src/ef-args.c:argc_frame", "src/ef.c:frame_to_buf", "src/ef.c:ether_type_fill_defaults", "src/ef-udp.c:udp_tcp_fill_defaults"]}
{"id": "C111", "title": "Only the order of commands of the same kind or interface matters", "statement": "If two command lines have the same definitions of names, the same hex commands, the same pcap commands and for every interface the same tx and rx commands, each in the same order, and use the interfaces first in the same order, then ef does exactly the same for both: the same output in the same order, the same frames transmitted, the same frames accepted and missed, the same result. In particular a name may be defined behind its use.", "quantifier": "every list of commands whose names are defined, every behaviour of the operating system", "why_tests_cant": "Relates two command lines under the same arbitrary traffic.", "anchors": ["src/ef-exec.c:exec_cmds", "src/ef-exec.c:add_cmd_to_resource", "src/ef-exec.c:copy_cmd_by_name"]}
{"id": "C112", "title": "Lists of buffers collect what is printed to them", "statement": "Everything that is printed to an empty list of buffers with bl_printf_append is found in the list, in order. FALSE: with assertions every call ends the program, because bl_check ends in assert(0); without assertions the new element is never linked to the list, so the text is lost, and unless every text but the last is empty or at least 4096 characters long the next call dereferences NULL (exact condition proved). Buffers appended with ble_append_buf do come last, and bprintf gives the text and its terminating zero.", "quantifier": "every sequence of printed texts, every list", "why_tests_cant": "Sequences and texts of any length; no test calls these functions.", "anchors": ["src/ef-buf.c:bl_printf_append", "src/ef-buf.c:bl_check", "src/ef-buf.c:ble_append_buf", "src/ef-buf.c:bprintf"]}
{"id": "C113", "title": "A dump shows every byte at its position", "statement": "The text printed by hexdump can be read back: it consists of rows of 16 bytes (the last may be shorter, but is not empty), each with its position, and the bytes of the rows together are exactly the dumped bytes.", "quantifier": "all buffers of less than 2^31 bytes", "why_tests_cant": "Infinitely many buffers; read back by a reader that does not know how the text is made.", "anchors": ["src/ef.c:hexdump"]}
{"id": "C114", "title": "Names are only names", "statement": "If the interfaces, the capture files and the names of frames in a list of commands are replaced by others, different interfaces by different interfaces and different names by different names, and the operating system opens the same interfaces as before, then ef does the same with the new names in place of the old ones: the same frames in the same order on the corresponding interfaces, the same frames accepted and missed, the same result. The same holds for command lines if the commands end where they end (C52).", "quantifier": "every list of commands, every renaming that keeps different interfaces and different names apart, every behaviour of the operating system", "why_tests_cant": "Relates two command lines under the same arbitrary traffic; the renamings are arbitrary functions.", "anchors": ["src/ef-exec.c:exec_cmds", "src/ef-exec.c:add_cmd_to_resource", "src/ef-exec.c:copy_cmd_by_name", "src/ef-args.c:argc_cmd"]}
{"id": "C115", "title": "Nothing happens that was not asked for", "statement": "Whenever ef runs, its command line can be cut into commands such that every effect comes from one of them: every frame put on an interface is the frame written behind tx and this interface (or defined by the name written there), every frame in a capture file or in the output of hex is the frame of a pcap command with this file or of a hex command, every frame reported as accepted matches the frame of a command for this interface, every frame reported as missing is the frame of an rx command for this interface, and only interfaces of tx and rx commands are opened.", "quantifier": "every command line and every behaviour of the operating system", "why_tests_cant": "Says what does not happen, for all command lines and all traffic.", "anchors": ["src/ef-exec.c:exec_cmds", "src/ef-exec.c:add_cmd_to_resource", "src/ef-exec.c:rfds_wfds_process", "src/ef-args.c:argc_cmds", "src/ef-args.c:argc_cmd"]}
{"id": "C116", "title": "The group id of an oam-ccm header holds the bytes given", "statement": "The 48 bytes of meg_id, which start 10 bytes behind the beginning of the oam-ccm header, are the bytes of the hex string assigned last, followed by zeros. A text that is no hex string or denotes more than 48 bytes is not sent: the field is zero and the frame is still accepted.", "quantifier": "every frame with an oam-ccm header, every sequence of assignments, every text", "why_tests_cant": "Infinitely many texts and surrounding headers.", "anchors": ["src/ef-parse-bytes.c:parse_field_hex", "src/ef-oam.c:CCM_FIELDS"]}
{"id": "C117", "title": "Every interface is served through its own socket", "statement": "Whatever descriptors the operating system hands out for the sockets, a frame that is received is compared with the commands of the interface to which the socket it came from was bound, every frame is sent through the socket that was bound to the interface of its command, and select waits for all sockets that are needed and for no others: the run is the same as if each interface was asked directly.", "quantifier": "every list of commands, every system that does not hand out a descriptor twice, every traffic", "why_tests_cant": "Arbitrarily many interfaces, orders of descriptors and traffic; the sets of descriptors overflow only on crowded systems.", "anchors": ["src/ef-exec.c:rfds_wfds_fill", "src/ef-exec.c:rfds_wfds_process", "src/ef-exec.c:raw_socket", "src/ef-exec.c:exec_cmds"]}
{"id": "C118", "title": "The same words mean the same frame in every command", "statement": "The words of a frame describe the same bytes behind hex, name NAME, pcap FILE, tx IF, tx IF rep N and rx IF, in every run: what hex prints is what tx puts on the interface, what pcap saves and what rx expects (with the same mask), and every frame that rx accepts matches it. Words that are accepted behind one of hex, pcap FILE, tx IF and tx IF rep N are accepted behind the others, whatever they are.", "quantifier": "every sequence of words behind the beginning of the command, every pair of commands, every behaviour of the operating system in both runs", "why_tests_cant": "Relates the runs of two command lines under different traffic; a test compares a few frames.", "anchors": ["src/ef-args.c:argc_cmd", "src/ef-args.c:argc_frame", "src/ef-exec.c:exec_cmds", "src/ef-exec.c:cmd_process_frame"]}
{"id": "C119", "title": "Odd frames end in an assertion, never in foreign memory", "statement": "Whatever headers and fields an accepted frame description consists of, computing its bytes and its mask never reads or writes outside of a buffer and uses no null or uninitialised pointer: the outcome is a frame, a failed assertion, or exit(-1) because of an mld header. A whole command line has no undefined behaviour if no literal is too long for its field, CoAP payload is well-formed, and something follows tx IF and tx IF rep.", "quantifier": "every word list that is accepted as a frame, every command line with these conditions on the words", "why_tests_cant": "Tests (even with sanitizers) see the frames they build; the fields that move when a header shrinks make the positions of the writes depend on all other headers.", "anchors": ["src/ef.c:frame_to_buf", "src/ef.c:frame_mask_to_buf", "src/ef.c:hdr_copy_to_buf_", "src/ef.c:hdr_write_field", "src/ef-args.c:argc_cmds"]}
{"id": "C120", "title": "An mld header that cannot be completed ends the program with its reason", "statement": "The only reason for which building a frame calls exit is an mld header without explicit checksum that has no IPv6 header before it, or whose first IPv6 header lacks the source or the destination address. The status is -1, exactly one line is printed before, and it names what the last such header lacks. A frame with such a header never gets bytes, and building any other frame prints nothing.", "quantifier": "every word list accepted as a frame, every position of the header, and every command line free of over-long literals", "why_tests_cant": "The condition ranges over all stacks of headers around the mld header; tests try the message for one stack.", "anchors": ["src/ef-mld.c:mld_fill_defaults", "src/ef.c:frame_to_buf", "src/ef-args.c:argc_cmds"]}
{"id": "C121", "title": "An interface that cannot be opened is named", "statement": "If the sockets of a run cannot all be opened, the output names the interface. (Refuted; what holds: the lines printed while opening are exactly those about the failed calls (socket, bind, promiscuous mode) in their order, there is exactly one if the run cannot begin and none if it begins.)", "quantifier": "every behaviour of the operating system, every list of interfaces", "why_tests_cant": "Failures of single system calls after others succeeded are hard to provoke; a test sees the error of one system.", "anchors": ["src/ef-exec.c:raw_socket", "src/ef-exec.c:exec_cmds"]}
{"id": "C122", "title": "Running out of memory is noticed", "statement": "If memory runs out while named frames are copied, the tool does not report success, unless the run is the same as with enough memory. (Refuted; what holds: unknown names are reported as always, and otherwise the run is that of commands that may have lost the frame, its bytes or its mask; commands with their own frames are not affected. The copy of a header is refused exactly if the memory for the header or for its fields is not granted; else it exists, and each field silently lacks those of its two buffers that were not granted.)", "quantifier": "every sequence of granted and refused requests, every list of commands, every environment, every header", "why_tests_cant": "The requests that may fail are chosen in all combinations; tests run with enough memory.", "anchors": ["src/ef.c:field_copy", "src/ef.c:hdr_copy", "src/ef-exec.c:copy_cmd_by_name", "src/ef-buf.c:bclone"]}
{"id": "C123", "title": "Frames of any size are sent as they are", "statement": "The bytes of a payload are sent as given, whatever its size. (Refuted; what holds: frames of less than 2^28 bytes have the bytes and the mask that all other properties state, also when widths, offsets and sizes are 32-bit numbers with a sign. For payloads below 2^32 bytes the bytes are given exactly: by their number modulo 2^29, the beginning is lost, the frame consists of zeros, an assertion fails or the computation has no meaning; from 2^31 bytes on the frame has 60 bytes.)", "quantifier": "every frame of the command line below 2^28 bytes; every payload below 2^32 bytes in any segments", "why_tests_cant": "A test of the boundary needs frames of 256 MiB to 4 GiB; the wrap-around only shows at sizes no test uses.", "anchors": ["src/ef-payload.c:payload_parser", "src/ef.c:hdr_write_field", "src/ef.c:hdr_copy_to_buf_", "src/ef.c:frame_to_buf", "src/ef.c:frame_mask_to_buf"]}
{"id": "C124", "title": "Captures do not disturb the commands", "statement": "That a capture ends, for example because it has the number of packets it was asked for, makes no difference for the commands: the same frames are transmitted and received, and the exit code is the same. (Refuted; what holds: there is no difference if no capture ends while the tool waits. Otherwise the first end of a capture ends the run: everything before is the same, whatever comes later is neither received nor transmitted, and the expectations that are open are reported missing.)", "quantifier": "every list of commands, every traffic, captures that end at any time", "why_tests_cant": "The moment at which another process ends relative to the traffic is not under the control of a test.", "anchors": ["src/ef-capture.c:capture_start", "src/ef-capture.c:signal_child", "src/ef-exec.c:exec_cmds"]}
{"id": "C125", "title": "Captures get the time they need", "statement": "With captures, three seconds pass between the start of the last capture and the first command, and the captures run from then on for the whole timeout and three more seconds before they are stopped. (Refuted: the end of one capture interrupts the waiting for all others. Each of the three waits has its full length if no capture ends during it.)", "quantifier": "every timeout, all durations of the commands, captures that end at any time", "why_tests_cant": "The moment at which another process ends is not under the control of a test; the effect is a capture file that lacks frames.", "anchors": ["src/ef-capture.c:capture_all_start", "src/ef-capture.c:capture_all_stop", "src/ef-args.c:argc_cmds"]}
{"id": "C126", "title": "Frames that arrive in time are looked at", "statement": "Every frame that arrives at an interface with an rx command before the timeout has passed is reported, in the order of arrival, and a test succeeds exactly if these frames are the expected ones. (Refuted: if the tool is slow, frames that have arrived in time are left unread, so an expected frame is reported missing, and an unexpected one goes unnoticed. What holds: everything is read if the last select returns 0; in any case the report is about the first frames that arrived.)", "quantifier": "every list of commands, all frames on the wire, all times of arrival, every scheduling of the tool", "why_tests_cant": "A test on an idle machine never sees the tool being late; the outcome depends on microseconds.", "anchors": ["src/ef-exec.c:exec_cmds", "src/ef-exec.c:rfds_wfds_process"]}
{"id": "C127", "title": "The report can be read when captures end", "statement": "If captures end during a run, the two outputs still say exactly what happened: without the lines about the ends of the captures, every line can be read and tells the right interface, bytes or name, and mask. (Refuted: a line may be torn apart by the message about a capture. What holds: standard error is never touched, and standard output can be read if captures end only between messages, for example while the tool waits.)", "quantifier": "every command line, every traffic, captures that end between any two calls that print", "why_tests_cant": "A signal would have to arrive between two particular calls.", "anchors": ["src/ef-capture.c:signal_child", "src/ef-exec.c:rfds_wfds_process", "src/ef.c:print_hex_str"]}
{"id": "C128", "title": "rx without a frame", "statement": "An interface for which only rx without a frame is given must stay silent: every frame that is received there in time is reported as an error, in order, nothing is reported missing, and the result of a line of such commands is exactly the number of these frames, however often an interface is named. It is 0 exactly if no frame arrives until the deadline, if everything was read (C126). Nothing is said about interfaces without rx command.", "quantifier": "every list of commands, every traffic, every scheduling of the tool; lines of up to 50 interfaces with any names", "why_tests_cant": "A test can show that some frames are noticed, not that every frame at every moment is, nor that silence is never taken for noise.", "anchors": ["src/ef-args.c:argc_cmd", "src/ef-exec.c:rfds_wfds_process", "src/ef-exec.c:exec_cmds"]}
{"id": "C129", "title": "Success and what was transmitted", "statement": "If the tool reports success, every tx command was transmitted in full as often as requested. The TX lines about an interface are those of the commands that were completed, one for each and in the order of the command line; if each transmission succeeds and there are as many TX lines as tx commands, then exactly the requested frames were transmitted.", "quantifier": "every list of commands, every traffic, every sequence of results of send, every moment at which interfaces get ready", "why_tests_cant": "On a test machine interfaces are always ready and send does not fail; that the exit status ignores transmissions shows only elsewhere.", "anchors": ["src/ef-exec.c:rfds_wfds_process", "src/ef-exec.c:exec_cmds"]}
{"id": "C130", "title": "Wrong checksums are rare and off by one", "statement": "The checksums that are filled in are not always right (C31, C34 to C37), but nearly always. Of all frames whose data under a checksum agree except for the checksum and one more word, such as the identification of an ipv4 header or a port, at most as many have a wrong checksum as there are other words, for ipv4 at most 8 of 65536. A checksum is right unless the sum of the words is within their number of the next multiple of 65536, and a wrong one is too large by one in the byte order of the host.", "quantifier": "all frames with a checksum of ipv4, udp, tcp, icmp, igmp or mld over at most 128 KiB, every position of the word that varies", "why_tests_cant": "The few wrong values are different for every frame; tests that try some frames do not meet them and cannot count them.", "anchors": ["src/ef.c:inet_chksum", "src/ef-ipv4.c:ipv4_fill_defaults", "src/ef-udp.c:udp_tcp_fill_defaults"]}
{"id": "C131", "title": "A test that ignores fields compares everything else", "statement": "If frames are transmitted on one interface and a frame with ignored fields is expected on another one, the test succeeds exactly if one frame is received there, of the right length and with the expected value in every bit that belongs to a compared field or to no header. For several expectations success means that received and expected frames can be brought together like this one to one, and conversely if no two different expectations have a frame in common. If the expectation has the words of the transmission with values replaced by ign, the transmitted frame is accepted.", "quantifier": "all descriptions of frames and ignored fields that fit a command line, every traffic on both interfaces", "why_tests_cant": "Tests use a few ignored fields and a few deviations; that no other deviation is accepted, and none in the ignored bits is rejected, needs all frames.", "anchors": ["src/ef-args.c:argc_cmds", "src/ef-exec.c:rfds_wfds_process", "src/ef-buf.c:bequal_mask", "src/ef.c:frame_mask_to_buf"]}
{"id": "C132", "title": "A name that could not be copied is noticed", "statement": "If memory runs out while the names of interfaces, files and frames are copied, the tool does not report success, unless the run is the same as with enough memory. The same lines are refused; of the commands exactly those names are lost for which memory was not granted; a run that reports success has kept the interface or file of every command, and for each name that is still referred to a definition with its name.", "quantifier": "all command lines, all answers of the allocator to the copies of names, all traffic", "why_tests_cant": "Unit tests do not let single allocations fail, and there are as many places of failure as names on a line.", "anchors": ["src/ef-args.c:argc_cmd", "src/ef-exec.c:add_cmd_to_resource", "src/ef-exec.c:copy_cmd_by_name", "src/ef-exec.c:pcap_append"]}
{"id": "C133", "title": "A timeout or number of repetitions that is not a number is refused", "statement": "A value of -t that is not a decimal number below 2^31 is refused. What holds for all values: white space, a sign and digits are read, the rest is ignored, a text without a number is 0; numbers outside of 64 bits become the nearest one inside, and the low 32 bits are the timeout in milliseconds, or the number of repetitions.", "quantifier": "all texts as values of -t and rep, in all lines", "why_tests_cant": "Tests use small numbers; that every other text is read as some number, and as which one, needs all texts.", "anchors": ["src/ef-args.c:main_", "src/ef-args.c:argc_cmd"]}
{"id": "C134", "title": "Running out of memory for received frames never changes the result", "statement": "If the memory for a received frame is refused, the run does not end with a result; every run that ends has the result, the report and the transmissions of the run with enough memory. With each run there is a fixed number of requests, at least one for each frame reported, and exactly a refusal of one of these makes the difference.", "quantifier": "all commands, all traffic, all answers of the allocator to the requests for received frames", "why_tests_cant": "Tests do not let the allocation of the receive buffer fail, and there is one for each interface in each round.", "anchors": ["src/ef-exec.c:rfds_wfds_process", "src/ef-exec.c:exec_cmds", "src/ef-buf.c:balloc"]}
{"id": "C135", "title": "Without memory for a capture the option is refused and no file is lost", "statement": "If memory for the option `-c` is refused, the tool reports an error, and a refused option deletes no file. A run with captures either has all of them, with the commands of the options, or fails before anything is sent, received or recorded.", "quantifier": "all texts of the option, all command lines, all answers of the allocator", "why_tests_cant": "Tests do not let single allocations fail, and their number depends on the elements of the option.", "anchors": ["src/ef-capture.c:capture_add", "src/ef-args.c:main_", "src/ef-buf.c:bprintf"]}
{"id": "C136", "title": "Without memory for a payload the payload is refused", "statement": "If memory for a payload is refused, for instance because of the number of repetitions, the payload is refused. A payload or value that is accepted is the one that was written, whatever the allocator answers; none is shorter or different.", "quantifier": "all payload words, all texts of values, all answers of the allocator", "why_tests_cant": "Tests do not let single allocations fail; the number of requests depends on the segments.", "anchors": ["src/ef-parse-bytes.c:parse_var_bytes", "src/ef-parse-bytes.c:parse_var_bytes_", "src/ef-parse-bytes.c:parse_var_bytes_repeat", "src/ef-parse-bytes.c:parse_bytes", "src/ef-buf.c:balloc"]}
{"id": "C137", "title": "Without memory for a computed field no frame is sent", "statement": "If the memory does not suffice to compute the Ethernet type, the protocol, the length or the checksum of an IP header, no frame with another value is built. Fields are only left out if memory was refused, and nothing but computed fields changes.", "quantifier": "all headers, all headers carried, all answers of the allocator", "why_tests_cant": "Tests do not let single allocations fail, and the tool reports nothing when this one does.", "anchors": ["src/ef.c:ether_type_fill_defaults", "src/ef-ipv4.c:ipv4_fill_defaults", "src/ef-ipv6.c:ipv6_fill_defaults", "src/ef-parse-bytes.c:parse_bytes"]}
{"id": "C138", "title": "Without memory no wrong UDP or TCP checksum is sent", "statement": "If memory is refused while the length and the checksum of a UDP or TCP header are computed, each of them is the usual one or is left out; a given checksum stays, and nothing else in the header changes. With enough memory both are the usual ones.", "quantifier": "all headers, all headers below and above, all answers of the allocator", "why_tests_cant": "Tests do not let single allocations fail, and the tool reports nothing when this one does.", "anchors": ["src/ef-udp.c:udp_tcp_fill_defaults", "src/ef.c:hdr_copy", "src/ef-buf.c:bclone", "src/ef-parse-bytes.c:parse_bytes"]}
{"id": "C139", "title": "Without memory no wrong ICMP or IGMP checksum is sent", "statement": "If memory is refused while the checksum of an IGMP header, or of an ICMP header not carried by IPv6, is computed and the program goes on, the checksum is the usual one or left out, the latter only if a request was refused; nothing else in the header changes. With enough memory the checksum is the usual one, over IPv6 too.", "quantifier": "all headers, all headers below and above, all answers of the allocator", "why_tests_cant": "Tests do not let single allocations fail, and the tool reports nothing when this one does.", "anchors": ["src/ef-icmp.c:icmp_fill_defaults", "src/ef-igmp.c:igmp_fill_defaults", "src/ef-parse-bytes.c:parse_bytes"]}
