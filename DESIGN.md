# Formal model of easyframes (`ef`): design

Target: `microchip-ung/easyframes`, C sources in `/repo/src` (read as text, never built or run).
Everything is in Lean 4 (4.33.0), Lake project `/verif/lean`, modules under `Verif/`. `lake build` checks everything.

## 1. Layers

| layer | modules | content |
|---|---|---|
| model | `Verif/Model/*.lean` | the C code, function by function; each definition cites file:lines |
| tables | `Verif/Model/Tables.lean`, `HelpTables.lean` | header tables and help texts, generated by `tools/gen_tables.py` from `/repo/src`, each citing file:lines |
| spec | `Verif/Spec/*.lean` | small specifications that do not use the functions of the model (value of a digit string, bits of a buffer, ones' complement sum, RFC 7252 option decoder, grammar of commands, credit ledger of a run, layout tables of protocol documents, reader of the printed report, ...) |
| lemmas | `Verif/Lemmas/*.lean` | helper lemmas |
| properties | `Verif/Props/*.lean` | the theorems `Cnn_*`, with concrete non-vacuity `example`s beside them |
| tests | `Verif/Tests/Vectors.lean` | upstream test vectors (`/repo/test`) replayed on the model. These are tests, not proofs: they support that the model is the code |
| seeded bugs | `seeded/LOG.jsonl` | wrong programs the theorems were tried against (section 5) |

A property that does not hold for the code is kept as a definition `Cnn_statement`, refuted by `Cnn_false` with a concrete
command line or history, and followed by a theorem `Cnn_..._partial` for the part that does hold; the doc comment says what is missing.
Its status in `MANIFEST.json` is `partial`.

## 2. Modelling conventions

* A byte is `BitVec 8`; a `buf_t` is the list of its bytes; a C string is the list of its characters without the
  terminating NUL (words of argv cannot contain NUL). `c!"eth"` is notation for such a list.
* `NULL` results are `Option.none`.
* Undefined behaviour, a failed `assert`, and `exit()` are distinct results of the type `Out` (`ub`, `abort`, `exit`), so
  "no crash" is a statement about results. `ub` is produced where the C text would read or write outside an object, use an
  uninitialised variable or dereference NULL. A model function never continues after `ub`.
* Loops over argv are structural recursions on the remaining words, or on fuel that is at least the number of remaining words,
  together with a lemma that the fuel never runs out (C46).
* Mutable C objects are values; a function that modifies an object returns the new value. `Model/Memory.lean` models the same code a
  second time with pointers, allocation and release, and C93 shows that both models have the same outcomes.
* `balloc`/`malloc` never fail. Widths, offsets and sizes of type `int` are natural numbers, which is the code for frames of less
  than 2^28 bytes (`C123_agrees`); `Model/Large.lean` counts with the types of the program, and C123 says what becomes of larger
  payloads. Where a theorem has the hypothesis `ShortWords`, words are shorter than 4 GiB. `uint32_t`/`uint16_t` arithmetic that can wrap in practice (checksum accumulator, header
  size subtraction, repeat counter, CoAP lengths, exit status) is modelled with wrap-around.
* The host is little-endian (x86-64, arm), `char` is signed with 8 bits.
* `strtoull`, `inet_pton`, `atoi`, `snprintf`, `getopt` are written down from the C/POSIX standards and glibc (`Model/Libc.lean`, `Model/Main.lean`).
* Sockets, `select`, the clock, `fork`, signals and the reaping of children are an arbitrary history of answers; every theorem
  quantifies over all histories (and says which ones it excludes).

### What each model file covers

| module | C code | simplifications |
|---|---|---|
| `Libc` | `strtoull`, `inet_pton`, `atoi`, number printing | only results, no `errno` except where the code reads it |
| `ParseBytes` | ef-parse-bytes.c | output pointers are indices; writing outside is `ub` |
| `Frame` | ef.c: templates, `hdr_write_field`, `hdr_copy_to_buf(_mask)`, `frame_to_buf`, `frame_mask_to_buf`, `inet_chksum` | |
| `Fill` | all `frame_fill_defaults` functions | get the headers before and after instead of a stack index |
| `Buf` | ef-buf.c comparisons; `hdr_clone`, `frame_clone` | cloning is the identity on values (C26 is about this) |
| `BufList` | `ble_*`, `bl_*`, `bprintf` of ef-buf.c, `hexdump` | formatted output is given by its text; an element belongs to one chain |
| `Args` | `hdr_parse_fields`, field and header parsers, `argc_frame`, `argc_cmd`, parsing half of `argc_cmds` | a frame may take at most 100 words, as in the code |
| `Exec` | ef-exec.c | a resource index stands for the file descriptor (C117 relates this to `Descriptors`); one event list for everything observable |
| `Output` | the text printed by ef-exec.c | write errors left out |
| `Capture` | ef-capture.c | the command line handed to the shell is a string; children are process ids with a history of exits |
| `Forks` | `capture_all_start` with failing `execl` | children that end meanwhile left out (they are in `Capture`) |
| `Main` | `main_`, `argc_cmds`, main.c, `getopt` | libpcap output is an event (the files are in `Pcap`) |
| `Pcap` | `pcap_append` | libpcap decides which files it opens, the format is that of a little-endian machine; no write errors, `stat` fails only for files that do not exist |
| `Socket` | `raw_socket`, opening and closing in `exec_cmds` | the operating system is an arbitrary function of the history of calls; `name` is not NULL |
| `Descriptors` | ef-exec.c with descriptors, `FD_SET`, `FD_ISSET`, the arguments of `select` | `select` clears everything at and above its first argument; what `recvmsg` returns depends on the descriptor |
| `Memory` | all of the above with `malloc`, `free` and pointers; `init`, `uninit` | block numbers are not used again; the bytes of a buffer are kept with its only pointer |
| `Messages` | everything printed while parsing | runs without undefined behaviour |
| `MldMsgs` | the texts of `mld_fill_defaults` before `exit(-1)` | what `%p` prints for a null pointer is a parameter |
| `SocketMsgs` | the texts of `raw_socket` | `__FILE__` and `%m` are parameters |
| `Pieces` | the single calls that print in ef-exec.c, the handler of ef-capture.c between them | each call is complete; the handler itself is not interrupted |
| `Exhausted` | copies (`bclone`, `hdr_clone`, `frame_clone`, `copy_cmd_by_name`) with answers of the allocator | other requests are granted |
| `Strdup` | the copies of names in ef-args.c with answers of the allocator | other requests are granted |
| `RxMemory` | reception and main loop of ef-exec.c with answers of the allocator for the receive buffer | other requests are granted |
| `CaptureMemory` | `capture_add` and the option loop of `main_` with answers of the allocator | other requests are granted |
| `PayloadMemory` | `parse_bytes` and `parse_var_bytes` with answers of the allocator | of the callers only those of `FillMemory`, `UdpMemory` and `IcmpMemory` are modelled with answers |
| `FillMemory` | the computed fields of Ethernet and IP headers with answers of the allocator | other headers are in `UdpMemory` and `IcmpMemory` |
| `UdpMemory` | the length and the checksum of UDP and TCP with answers of the allocator | as in `Fill` |
| `IcmpMemory` | the checksums of ICMP and IGMP with answers of the allocator | MLD, PTP, SV, CoAP, OAM and MRP are left out |
| `Tables`, `HelpTables` | static tables and `*_init` functions | generated |

### Vocabulary of the statements

* `Sent argv f f' b`: the words `argv` are accepted as frame `f`, completing it gives `f'` and the bytes `b`.
  `Built` adds that every header keeps inside its own bytes (`Tame`, see C16).
* `At f f' pre x post pre' x' post'`: a header `x` of the frame with what is before and after it, and the same in the completed frame.
* `Assigned argv pre f0 t lead as rest`: header `t` stands behind the words `pre` and is followed by the assignments `as`.
* `numAt b i w`: the number in the `w` bits from bit `i` of `b`.
* `Command hp ws c`, `Separated`: grammar of one command and of a sequence of commands.

## 3. Properties: what is modelled and how it is proved

For each property: status, where the model is, how it is proved, and (for partial ones) what fails.

* **C01** (proved) Integer literals are encoded exactly. `ParseBytes`, `Libc`; induction on the digit string against a positional value.
* **C02** (partial) Long hexadecimal literals are right-aligned and never write outside the value. `parse_bytes_hex` with the output pointer as an index; loop invariant. The full statement C02_statement is refuted: an even literal longer than the field writes in front of the buffer.
* **C03** (partial) Long binary literals are right-aligned and never write outside the value. `parse_bytes_binary`; loop invariant. The full statement C03_statement is refuted: a literal longer than the field writes in front of the buffer.
* **C04** (proved) Dotted-quad IPv4 addresses are encoded exactly. `inet_pton` as in glibc; induction over the parse loop.
* **C05** (partial) MAC addresses with '::' compression expand like IPv6. automaton of the MAC parser; induction over the elements. The full statement is refuted: an address whose text begins with 0b is taken for a binary literal and rejected.
* **C06** (partial) IPv6 addresses are encoded exactly. `inet_pton(AF_INET6)` as in glibc; induction over the groups. The full statement is refuted: an address whose text begins with 0b is taken for a binary literal and rejected.
* **C07** (proved) A parsed value always has exactly the size of its field. case analysis of every path of `parse_bytes`.
* **C08** (proved) Hex strings round-trip with the printer. loop invariant of `parse_var_bytes_hex` on the printer's output.
* **C09** (proved) Hex strings are accepted exactly when they are byte aligned. loop invariant against a grammar.
* **C10** (proved) Payload specifications concatenate. induction over segments.
* **C100** (partial) Writing out what is sent anyway changes nothing. the given and the written-out header differ in one value (`Lemmas/Spelled.lean`); every `fill_defaults` function of a header, of the headers before (which see sizes, types and bytes) and behind (which see addresses) gives the same bytes for both, function by function. The text level follows `argc_frame` (`Lemmas/SpelledText.lean`). The counterexample is `eth ipv6 icmp chksum 65469`. Refuted: a written-out checksum of icmp on ipv6 changes the announced next header from 58 to 1 (ef-icmp.c:18-37). Proved outside of this case for headers of fixed shape in frames without mld. Fields with parsers of their own are not covered.
* **C101** (partial) Interfaces do not influence each other. an assignment of frames to commands (`Credited`, C56) is determined by the frames and the commands if no frame is wanted by a tx command (`credited_unique`), so two runs with the same frames and commands on an interface report the same. Counterexample: the same frame before and after its transmission. Refuted: a received frame that equals the frame of a tx command of the same interface is expected before and unexpected after its transmission (see C62). Proved if no such frame is received.
* **C102** (partial) A CoAP receiver decodes the message. the bytes of each option (C40) follow each other (`options_bytes`); decoding them one after the other adds up the numbers (`decode_options`). Token, code and payload as in C41 and C72, the way through UDP from C99. Refuted: the number of the second of two options is decoded as the sum of both (see C40). Proved: everything else is decoded as given, for any number of options, and the numbers are the running sums; they are right exactly if all but the last one are 0.
* **C103** (partial) A name stands for its frame. every function of the execution commutes with taking away the names (`Lemmas/Unname.lean`), definitions are not executed, and the commands of the line written out are those of the line after resolving its names (`written_out`, with C52 for the uniqueness of parsing and C53 for the first definition). Refuted: a name in front of a 'hex' command cannot be replaced by a frame that ends with payload segments (see C52). Proved for all lines whose commands can be separated before and after the replacement; the results are equal including waiting and crashes.
* **C104** (partial) Captures do not multiply the commands. `Model/Forks.lean`: a process is the list of the sides it took in its forks; induction over the captures. Refuted: a child in which execl fails returns from capture_start and goes on as a second tool (ef-capture.c:174-189); without /bin/bash n captures lead to 2^n processes that all transmit. Proved: they are executed once exactly if no execl fails; all processes and their captures are described.
* **C105** (proved) One more expectation takes no frame from the others. both runs in step (`Lemmas/AddRx.lean`); the states differ by the command at the end of its list and by the number of errors.
* **C106** (proved) Waiting longer only adds. the answers of the operating system that are used are a prefix; induction over them, the open expectations only become fewer (`mainLoop_missing`).
* **C107** (partial) tcpdump is started with the arguments of the option. C68 gives the text; splitting it at blanks (`Spec/Shell.lean`) finds the words again exactly if they are not empty and without blanks (`shellWords_join`). Refuted: with an empty interface the words of the command move up, and elements with blanks are split by the shell, so that another file is written than the one deleted before. Proved that these are the only exceptions for texts without characters that mean something to the shell.
* **C108** (proved) Printing and saving frames does not disturb the traffic. every function of the execution skips these commands, and what they do comes before the sockets are opened.
* **C109** (proved) An accepted frame has the values that were asked for. the mask of an assigned field is set (C20, exactly), its value is on the wire (C05, C06), and C57 gives the frame that is accepted.
* **C11** (proved) Payload segments produce the documented bytes. induction over segments; count parser. Counts below 2^32 (larger counts are reduced by the 4 byte parser).
* **C110** (proved) What is carried does not depend on what carries it. the words behind the name of a header are read independently of the headers before (`afl_any`), completing a header looks back only at IP headers (`SameIp`), and C15; for tags the type field is the last field (`et_bytes`).
* **C111** (proved) Only the order of commands of the same kind or interface matters. every step of the execution looks only at one kind of commands, and the resources are the groups of `Lemmas/ExecGroup.lean`.
* **C112** (partial) Lists of buffers collect what is printed to them. invariant of the list without elements: it is full (`blPrintf_full`) or the next call fails (`blPrintf_free`). Refuted: with assertions no call of bl_printf_append returns; without them the printed text is lost and the next call dereferences NULL.
* **C113** (proved) A dump shows every byte at its position. induction over the rows; the reader (`readDump`) knows only digits, blanks and lines.
* **C114** (proved) Names are only names. every function of the execution commutes with the renaming (`Lemmas/Rename.lean`); the words give the renamed commands because parsing is unique (C52).
* **C115** (proved) Nothing happens that was not asked for. where the data in every event comes from is followed through the execution (`Lemmas/Origin.lean`); the commands are those of C51.
* **C116** (proved) The group id of an oam-ccm header holds the bytes given. C09 for the text, C70 for the place in the frame, and the default 0 as in C83.
* **C117** (partial) Every interface is served through its own socket. `Model/Descriptors.lean` has the descriptors and the sets of `select`; each function agrees with the one of `Model/Exec.lean` (`Lemmas/Descriptors.lean`), so that all theorems about runs apply. Refuted: a socket with a descriptor of 1024 or more is written behind the end of the set for select. Proved for lower descriptors, which systems that hand out the lowest free descriptor always give if at most 924 descriptors were open at the start.
* **C118** (proved) The same words mean the same frame in every command. the command that is built is the same up to its kind (`Agrees` as in C117), and every effect comes from it (C115); a frame is only accepted without padding (C24), so C23 tells that it matches.
* **C119** (proved) Odd frames end in an assertion, never in foreign memory. values and fields have room (`Roomy`) in every completed header, so each write succeeds or fails its assertion; the same for the buffers the checksums are computed over. Then as C50 with the weaker conditions.
* **C12** (proved) Writing a field changes exactly the bits of that field. `hdr_write_field`; loop invariant on the bit view of a buffer.
* **C120** (proved) An mld header that cannot be completed ends the program with its reason. the default computation of one header ends the program exactly if the header is stuck (`Stuck`), with the text for what it lacks; the loop over the stack runs from the last header, so the last stuck one decides unless an assertion fails behind it. Whole lines as in C119.
* **C121** (partial) An interface that cannot be opened is named. the calls of `raw_socket` are followed step by step; each branch with a text contains exactly one failing call. Refuted by a system without sockets and the interface eth7. Refuted: the line about the failed call does not contain the name of the interface (and a refused PACKET_AUXDATA is silent).
* **C122** (partial) Running out of memory is noticed. the answers of the allocator are a list; each copy takes its answers from the front, so the answer for a buffer is found by counting the buffers before it. The pairing of names is compared with the one of C53 command by command. Refuted: if the copy of the bytes of a named frame is not granted, an rx command forgets that it waits for the frame and the run succeeds.
* **C123** (partial) Frames of any size are sent as they are. `Model/Large.lean` counts with the types of the program. For small frames every conversion is the identity, field by field (`Lemmas/Large.lean`). For a payload the width and the size are computed modulo 2^32 and the cases are separated by `omega`; the list of 2^29 bytes is never evaluated. Refuted: the width of a field is an int, so of a payload of 2^29 bytes only zeros are sent.
* **C124** (partial) Captures do not disturb the commands. `Model/Interrupts.lean` has histories in which children end; the tool sees a failing `select`. The answers used with captures are the first ones of those used without, so C106 applies. Refuted: SIGCHLD interrupts select, which ends the run; frames that arrive later are reported missing. Proved if no capture ends while the tool waits; otherwise the run is exactly the one up to that moment.
* **C125** (partial) Captures get the time they need. `sleep` is a relation between the time of the call and the time of the return; the times of a run are a structure (`Timeline`). The bounds follow by linear arithmetic. Refuted: SIGCHLD interrupts sleep, so that the end of one capture takes the time away from all others. Proved for each of the waits if no capture ends during it.
* **C126** (partial) Frames that arrive in time are looked at. `Spec/Arrivals.lean` describes sockets in which frames wait; a relation ties the answers of the operating system in the model to the frames on the wire. By induction over the answers the frames that are heard are the first ones on the wire; C56, C58 and C65 do the rest. Refuted: the clock is read after select; if it has passed the deadline by then, frames that wait in the sockets are not looked at. Proved if the last select returns 0; in any case the report is about the first frames that arrived, without a gap.
* **C127** (partial) The report can be read when captures end. `Model/Pieces.lean` has the single calls that print, and all ways to run the handler between them. The calls for a message make up its text of C77; texts of whole lines can be taken apart line by line, whatever is between them. Refuted: a line is printed with several calls, and the handler for SIGCHLD prints its own line between them. Proved: standard error can always be read, standard output if captures end only between messages.
* **C128** (proved) rx without a frame. nobody wants a frame without an expectation that has bytes, so the assignment of C56 is empty; the sum over the interfaces is that of C101. The words are parsed by C52, and C126 ties the frames to those on the wire. C128_silence under the condition of C126 that the last select returns 0.
* **C129** (partial) Success and what was transmitted. for the socket of an interface the operations of C60 are used once more: the TX events are those of the completing operations, whose places are strictly ascending because a completed command is not pending. A strictly ascending list of places of tx commands of full length has all of them. Refuted: transmissions do not count for the result. If an interface does not get ready in time, or send fails, the result is still 0; without rx commands it is always 0. Proved: the TX lines are those of the completed commands, and if every send succeeds and there is a line for each tx command, everything was transmitted.
* **C13** (proved) A field reads back as the value modulo its width. from C12.
* **C130** (proved) Wrong checksums are rare and off by one. the sum over the data is the sum of the other words plus the word that varies; a second carry needs a remainder close to 65536, and each remainder is reached by one value of the word. The list of these values is given explicitly. Data of at most 128 KiB. The two bytes of a wrong checksum are compared for the routine, not in the frame.
* **C131** (proved) A test that ignores fields compares everything else. as C90, with masks: parsing by C52, the count of C57, the assignment of C56; the compared bits are those of C20, and C85 shows that the transmitted frame is accepted. Expectations of which two different ones have a frame in common are excluded in one direction (C58); frames without padding. C131_relaxed under the conditions of C85.
* **C132** (partial) A name that could not be copied is noticed. the commands are compared with those of a line with enough memory, request by request (`Alike`, `keptNames`). A command without interface ends in a use of NULL when the resources are set up or opened (`mapCmds_lost`). Refuted: the result of strdup is not looked at. Without the name of an expected frame the tool expects nothing and reports success. Proved: which names are lost; a run that reports success has kept all interfaces and files, and a definition for each name referred to.
* **C133** (partial) A timeout or number of repetitions that is not a number is refused. `BeginsWith` describes the number at the beginning of a text without the loops of `atoi`; `asInt` is the conversion to `int`. Every text has a number, and `atoi` finds it (`atoi_reads`). Refuted: atoi has no errors, -t 1O0 is a timeout of 1 millisecond. Proved: how every text is read.
* **C134** (proved) Running out of memory for received frames never changes the result. `Asks` relates a computation to the one with answers of the allocator, with a lower bound on the number of requests; it is closed under sequencing, which gives the loops. What is proved is that no run ends with another result; the tool does not report the lack of memory but uses NULL.
* **C135** (partial) Without memory for a capture the option is refused and no file is lost. `refusedFirst` finds the first request that is refused in the list of requests of the option; the outcome is a table over that request. Refuted: the file of the capture is deleted before the last requests for memory, and two results of the allocator are used without a check. Proved: exactly what happens depending on the first request that is refused, and that a run ends as usual or fails before anything is sent or recorded.
* **C136** (partial) Without memory for a payload the payload is refused. `Careful` relates a parser to the one with answers of the allocator; the value for a failure is a parameter, so that it is closed under sequencing. Refuted: `hex`, `ascii` and `ascii0` use the result of the allocator without a check. Proved: a payload or value that is accepted is the one written, and a refused request leads to a refusal or a use of NULL.
* **C137** (partial) Without memory for a computed field no frame is sent. storing NULL in a field without a value changes nothing (`setVal_null`), so that each step is the usual one or none (`FillsOrNot`). Refuted: without memory for a computed value the field is silently left out, and the frame goes out with 0 in it. Proved: the Ethernet type and the computed fields of the IP headers are each computed as usual or left out, the latter only if a request was refused.
* **C138** (partial) Without memory no wrong UDP or TCP checksum is sent. a refused copy leaves a field of the pseudo header empty, which counts as 0 in the sum; the refutation is by computation. Refuted: without memory for the copy of an address, the protocol or the length of the pseudo header a wrong checksum is stored silently. Proved: the length is the usual one or left out, nothing but length and checksum changes, a given checksum stays, and with enough memory all is as usual.
* **C139** (proved) Without memory no wrong ICMP or IGMP checksum is sent. without a pseudo header only the final value can be refused, so that `fills_value` of C137 applies.
* **C14** (proved) Header layouts are gap-free, non-overlapping and inside the header. finite table, evaluated by the kernel and lifted to all fields.
* **C15** (proved) A frame is the concatenation of its headers padded to 60 bytes. rendering lemma: writing at an offset inside `pre ++ zeros ++ post` touches only the middle part.
* **C16** (partial) No header writes into its neighbours. rendering lemma for all headers except the witnesses; `C16_exactly`: every bit of every frame is that of the last field written there. The full statement is refuted: 'sv' with a last but no second TLV writes into the next header or aborts.
* **C17** (proved) User supplied and default values appear in the frame. last-writer lemma for the field loop.
* **C18** (proved) Overlapping (overlay) fields: the last declared one wins. last-writer lemma.
* **C19** (proved) The match mask has the same length as the frame. as C15 for the mask.
* **C20** (proved) The mask clears exactly the ignored bits. as C17 for the mask. `C20_exactly`: writing the mask only sets bits, so that the mask is the union of the compared fields; the only obstacle is the assertion of `hdr_write_field` for fields behind the end of the frame. C20_parsed is for all frames of the command line for which there is a mask; in all other cases an assertion fails.
* **C21** (partial) Ignoring a field ignores all of its bits. from C20 for fields without overlays. `C21_exactly`: from `C20_parsed`, flipping one bit for the other direction. The full statement is refuted for overlay fields: ifh-oc1 b0-masq ign still compares bits of the other overlays. Proved that the differences are ignored exactly if none of the bits belongs to a compared field or to the padding.
* **C22** (proved) 'ign' directly after a header name ignores the whole header except fields given later. induction over the words. Assignments of fields of fixed size; the mask flag for any continuation.
* **C23** (proved) Masked comparison means equality on unmasked bits. list induction on `bequal_mask`.
* **C24** (partial) Trailing padding is ignored when matching. list induction; reading behind the frame is `ub`. The full statement is refuted: with padding the comparison reads behind the expected frame. Proved for exactly which frames this happens; all others are compared correctly.
* **C25** (proved) An expected frame always matches itself. from C23 and C19.
* **C26** (proved) Buffer equality is an equivalence and clones are equal. list induction; structure of the copies.
* **C27** (proved) Explicit values always beat computed defaults. case analysis of all fill functions, then C17. On the wire: fields inside their header (see C16). coap-opt 'num' is the exception named in the property.
* **C28** (proved) The Ethernet type announces the next header. induction over the stack; fill runs from the last header to the first. The last theorem shows that the exception named in the property does occur.
* **C29** (proved) The IPv4 total length counts the header and everything after it. as C28.
* **C30** (proved) The IPv4 protocol field announces the next header. as C28.
* **C31** (partial) The IPv4 header checksum verifies. exact characterisation of one fold of the carry. Refuted in general (carries are added once only); proved that the header verifies exactly if one fold suffices.
* **C32** (partial) The internet checksum routine computes RFC 1071. exact characterisation of one fold of the carry. Refuted in general (carries are added once only); proved that the result is right exactly if one fold suffices.
* **C33** (proved) The UDP length counts the UDP header and everything after it. as C28.
* **C34** (partial) UDP and TCP checksums verify. pseudo header sums over the rendered bytes, for IPv4 and IPv6. Refuted in general; proved that the checksum verifies exactly if one fold suffices.
* **C35** (partial) ICMP checksums verify and ICMP over IPv6 is announced as 58. as C34. Refuted in general; proved that the checksum verifies exactly if one fold suffices.
* **C36** (partial) IGMP messages have the size of their version and a verifying checksum. layouts for every combination of given fields, then as C34. Sizes and positions proved; the checksum part is refuted in general, proved exactly if one fold suffices.
* **C37** (partial) MLD messages have the size of their version and a verifying checksum. layouts for every combination of given fields, then as C34. Refuted: without ipv6 addresses the program ends, with query and report fields it aborts, and carries are added once only.
* **C38** (partial) IPv6 payload length and next header. as C28. Length proved; the next header number is refuted for mld, proved for the others.
* **C39** (proved) PTP message and TLV lengths count the following bytes. as C28, for stacks of TLVs.
* **C40** (partial) CoAP options decode to what was specified. round trip against a decoder written from RFC 7252. Refuted: the option number is sent as delta without subtracting the number of the option before. Proved for single options.
* **C41** (partial) CoAP code and token. analysis of `coap_parse_code` and `coap_parse_token`, then C17. Refuted: malformed codes such as 0.0: are accepted. Proved for well-formed codes, other malformed codes, and tokens.
* **C42** (partial) OPC-UA 16-bit fields are little-endian. analysis of the OPC-UA parsers, then C17. Refuted for gversion, nm-num and seq-num, which are sent big-endian; proved for pub-id and wg-id.
* **C43** (partial) Supervision frames have the size implied by their TLVs. layouts of `sv`. Refuted: in the short form the terminating TLV stays at bytes 20 and 21, outside the header. Sizes and all other fields proved.
* **C44** (partial) Serialising a frame twice gives the same bytes. second run of all fill functions on completed headers. Refuted: IGMP, MLD, short supervision headers and CoAP options change again. Proved for frames without these.
* **C45** (proved) The header stack never overflows. induction over the words.
* **C46** (proved) Frame parsing consumes a prefix of the words and always terminates. induction over the words.
* **C47** (proved) Later assignments of the same field win. commuting updates of fields. Fields of fixed size.
* **C48** (proved) Field order does not matter. commuting updates of fields. Fields of fixed size.
* **C49** (partial) A value that cannot be parsed is not silently replaced. case analysis of the field parsers. Refuted: C49_dropped shows that such texts are dropped silently for all plain fields. Payload segments and padding do reject them.
* **C50** (partial) No command line crashes the tool. every `ub`/`abort`/`exit` of the model traced to words of the command line; the fill functions do not fail without them; masks by C20. Refuted by seven kinds of crashes. Proved for all command lines without the situations that lead to them; conditions on the words alone are enough, and the condition on masks is exact.
* **C51** (proved) A command line is executed completely or not at all. induction over the commands; whole tool in `Main`.
* **C52** (partial) Splitting the command line into commands is unambiguous. grammar of commands; a recogniser that is shown to agree with the code in both directions. Refuted: a frame ending with a payload takes a following hex command as its own, and rx IF takes a following name command. Proved otherwise; more than 100 words behind the beginning of a command are always rejected.
* **C53** (proved) Named frames resolve to the first definition. `Exec`: list induction.
* **C54** (proved) Unknown names are errors before anything happens. `Exec`: no event but messages before the check.
* **C55** (proved) Commands are grouped by interface in order. `Exec`: invariant of the grouping loop.
* **C56** (proved) Each expected frame is satisfied by at most one received frame and vice versa. `Exec`: invariant over all histories with a credit ledger. The operating system is an arbitrary history of answers.
* **C57** (proved) The error count is exact. from the ledger.
* **C58** (partial) Success means exactly the expected traffic was seen. from the ledger, with non-overlapping expectations. Refuted with overlapping masks, where the order of arrival matters; proved if no two expectations overlap.
* **C59** (proved) Arrival order does not matter for exact expectations. matching of equal frames as multisets.
* **C60** (partial) Frames are transmitted exactly as often as requested. invariant on the repeat counter. `C60_exactly` describes the calls for all results of `send`: the last call for a command is the first one that takes the whole frame with a number equal to the request modulo 2³². Refuted: a failing last transmission or a repeat count of 0 wraps the counter. Proved if all sends succeed and the count is at least 1. For all results of send, the number of calls is described exactly.
* **C61** (proved) Transmission order is command order. invariant over all histories.
* **C62** (partial) Received frames never cancel transmissions. two runs in lockstep. Refuted: a received frame that equals a pending tx frame cancels it. Proved if no such frame is received.
* **C63** (proved) Listening lasts for the whole timeout. loop analysis over all clock histories.
* **C64** (proved) Timeout arithmetic is exact. integer arithmetic of `timeradd`/`timersub`. Non-negative timeouts.
* **C65** (partial) VLAN tags removed by the kernel are restored. two runs, one with the tag removed by the kernel. Refuted: without the tag protocol id in the kernel headers every tag becomes 0x8100, and frames of 32 KiB or more are compared without tag. Proved otherwise.
* **C66** (partial) The exit status tells success from failure. `Main`; arithmetic of the exit status. Refuted: 256 errors give exit status 0. Proved that the status is 0 exactly if the number of problems is divisible by 256.
* **C67** (proved) Printed frames can be fed back. composition of C08, C10, C15 and the command parser. Frames shorter than 2^31 bytes.
* **C68** (proved) Capture options become the documented tcpdump command. string function against a separate grammar of the `-c` argument.
* **C69** (partial) Stopping captures signals exactly the running ones. `Capture`: histories of child exits. Refuted: a child that ends before its process id is stored is signalled. Proved otherwise, for distinct process ids.
* **C70** (proved) A value given for a field is what the frame contains. induction over the assignments, then C17.
* **C71** (proved) The payload consists of the bytes given. from C10 and C15.
* **C72** (proved) CoAP payload follows a marker. from C10 and C15.
* **C73** (proved) Options may stand anywhere on the command line. `getopt` with permutation against a declarative reading of the words. getopt as in glibc.
* **C74** (proved) Captures last as long as the timeout. arithmetic of the clock values. Non-negative timeouts, normalised clock values.
* **C75** (partial) Every field can be given a value. words for every first field of its name; invariant over all words for the others. Refuted: the second of two fields with the same name cannot be reached (ifh-la, oam-ccm, ptp-announce). Proved that exactly the first fields of their name can be given.
* **C76** (partial) The name of a header starts that header. run of the frame parser at a header boundary for all pairs of header kinds. Refuted: behind ten headers the next word is taken as a field of the same name, e.g. 'mrp_tst padding'. Proved for all other pairs; all ten clashes shown.
* **C77** (proved) The printed report tells what happened. the printed text is read back line by line by a reader that knows nothing of the model. Interface names without newline, colon and leading blank, frame names without newline; the text itself, character by character.
* **C78** (partial) Fields that are not given hold their preset value. tables of presets written from the documents, then C17. Refuted: t_length of mrp_topo is 12 instead of 10, tlv-type of ptp-tlv-path 0 instead of 8, flags1-flags2 of opc-ua 1 without the byte announced. Proved for every other field.
* **C79** (proved) Headers have the layout of their documents. tables of layouts written from the documents, then C17. Layout tables written from the documents. igmp and mld are dealt with by C36 and C37, sv by C43, number bytes of OPC-UA by C42.
* **C80** (proved) The help tells the truth. printed help read back by a reader that knows nothing of the model, then C70. The texts are generated from the sources. Positions for headers whose layout does not depend on the fields given (not igmp, mld, sv, coap-opt).
* **C81** (partial) A rejected command line is reported. what is printed is followed alongside the parser; induction over words and commands. The silent rejections are listed by the outcomes of the value parsers. Refuted: 'hex eth padding' is rejected without a word. Proved that only lines ending in an incomplete or unreadable payload or padding are rejected silently.
* **C82** (partial) A value that is not understood is reported. as C81; exact characterisation of the texts that lead to a message. Refuted: nothing is printed for 'hex eth dmac xyz'. Proved that exactly values that look like an address of the right size or are 0x/0b literals for more than 8 bytes are reported.
* **C83** (proved) Defaults announced in the help are what is sent. announced defaults read out of the printed help, then C17. 24 announced defaults in sp-oc1, lp-oc1, sp-jr2, lp-jr2 and profinet-rtc (with 40 data bytes, as in the help).
* **C84** (partial) The examples in the help work. examples read out of the printed help, evaluated by the kernel. Refuted: the example for ipv4 uses the fields sa and da, which do not exist. Proved for all other examples.
* **C85** (partial) Ignoring values does not reject the frame. both lines of words are parsed in step (relation between the frames), the relation is kept by all computations, then C15, C20 and C23. Refuted: 'eth ipv4 sip ign' does not accept 'eth ipv4 sip 1.2.3.4', as the checksum is still compared. Proved for headers of fixed size (not igmp, mld, sv, coap, coap-opt, coap-parms, profinet-rtc) if ignored fields do not overlap compared ones and nothing ignored goes into a compared checksum; the short form 'ign' only.
* **C86** (partial) Only MAC addresses are accepted as MAC addresses. invariant of the MAC automaton that describes the text read so far; converse by running the automaton over the grammar. Refuted as stated: '1:2:3' is accepted as 00:00:00:01:02:03 and a single colon at either end is ignored. Proved instead: the exact set of accepted texts and their values, for every text with a colon.
* **C87** (proved) Exactly the IPv6 addresses are accepted as IPv6 addresses. invariant of glibc's loop that describes the text read so far, also for the dotted quad at the end. Texts that begin with '0b' are excluded in the statement (see C06).
* **C88** (partial) Only texts for a value of the right size are accepted. case analysis of `parse_bytes` over the character classes, with C01-C06, C86, C87 for the branches. Refuted as stated: for fields of more than 8 bytes an even hexadecimal or binary number that is too long writes outside the buffer (C02, C03). Proved: acceptance and value are exactly as specified for every text and size, everything else is rejected. 'MAC address' is the set of texts of C86.
* **C89** (proved) What can be transmitted in time is transmitted. potential function (number of tx commands not done), which decreases whenever the socket is writable. Repeat counts are at least 1; a command to which a received frame is credited (C62) is excepted in the statement.
* **C90** (proved) A test over a connection succeeds exactly if the connection works. C52 for the words, C57 for the count, pairing of frames and expectations (C58) without masks, C89 for the transmissions. Frames without ignored values and padding, two different interfaces, at most 101 words (C52).
* **C91** (partial) padding only adds ignored bytes. a `padding` header at the end contributes no bytes to sizes, lengths and checksums, only its type 0 to the header before it; `C91_exactly` says it for all frames (`zeroLast`). Refuted: 'eth dmac ::1 padding 4' expects the Ethernet type 0 instead of 0xaaaa, as the padding header announces itself. C91_exactly says for all frames what happens: a last header eth, ctag, stag, rtag, htag, ipv4 or ipv6 without explicit type of the next header announces 0, and nothing else changes.
* **C92** (proved) rep N transmits N times. `atoi` on decimal numerals (C73), C52 for the words, C89 for the transmissions.
* **C93** (proved) Memory is not used after its release. the whole code a second time with blocks (`Model/Memory.lean`); separation style triples with the owned blocks (`Lemmas/Mem*.lean`), which also show that the values are those of the model without blocks. The receive buffer of ef-exec.c:187 (released in the same loop iteration), blocks of the C library and exhaustion of memory are not modelled.
* **C94** (partial) Memory is released at the end. the losses are recorded in the heap; which ones occur is followed through the program (`Lemmas/MemLoss.lean`). Refuted: eight default values of oam-lb, oam-lt and oam-raps are never released (ef-oam.c:304-312). Proved: an accepted command line leaves exactly these eight blocks, unless a value of token or meg_id is too long for the field (then it is lost, too). A rejected command line loses the commands and captures before the error.
* **C95** (partial) A socket is set up completely or closed. the calls of `raw_socket` with all answers of the system, case by case (`Props/Socket.lean`). Refuted: the answer to the request for VLAN tags is not looked at (ef-exec.c:60-65 tests the result of the call before). Proved for the other steps. The system hands out no descriptor that is open.
* **C96** (partial) Sockets are closed when the run ends. induction over the interfaces with the list of open descriptors. Refuted: if a later interface cannot be opened, the sockets of the earlier ones stay open (ef-exec.c:462-468). Proved: they are closed otherwise, and exactly these stay open in that case. The system hands out no descriptor that is open.
* **C97** (partial) Success means the frames are in the capture file. the events that write to files are those of the `pcap` commands (`Lemmas/Pcap.lean`), then induction over them with the invariant that the file is readable and will be opened again. The counterexample is a file that cannot be written. Refuted: the result of pcap_append is not looked at (ef-exec.c:430), so that a file that cannot be opened leaves exit status 0. Proved for files that libpcap opens; the others are not touched. Write errors and the texts of error messages are not modelled.
* **C98** (partial) No traffic crashes the tool. every function of the run ends normally for commands with complete frames and masks (`Lemmas/RunEnds.lean`); those are what the parser delivers. The counterexample is `rx a eth padding 4`. Refuted: when a frame with padding arrives at an interface where it is expected, the comparison reads behind the expected frame (see C24). Proved when no received frame has that size or a compared bit differs (exact for the first frames that arrive), and for the whole tool (with C50) for command lines without the word padding.
* **C99** (proved) A receiver finds the headers and the payload. a dissector written from the standards (`Spec/Dissect.lean`); induction over the stack with the piece of the frame that is left, using C28-C30, C33, C38, C78 and C79 for the numbers in it. Checksums are not part of it (C31, C34). Behind IPv4 and IPv6, arp and the PTP extensions are excluded, as their type numbers end with that of TCP.

## 4. Trusted base and what is not modelled

* Lean 4.33.0 kernel. Axioms `propext`, `Classical.choice`, `Quot.sound` at most (table in section 6; printed by `Verif/Axioms.lean` in
  every build). No added axioms, no `sorry`, no `native_decide`, no `bv_decide`. Finite facts are evaluated by the kernel (`decide +kernel`).
* That the model is the code: by inspection along the citations, by generating the tables from the sources, and by replaying the
  upstream test vectors.
* That `Model/Libc.lean` and the `getopt` of `Model/Main.lean` are glibc.
* That the specifications say what the English statements say; the tables of `Spec/Standard.lean` were written from the documents.

Not modelled:
* running out of memory outside of the copies of `Model/Exhausted.lean`, `Model/Strdup.lean`, the captures of `Model/CaptureMemory.lean`, the values and payloads of `Model/PayloadMemory.lean`, the computed fields of `Model/FillMemory.lean`, `Model/UdpMemory.lean` and `Model/IcmpMemory.lean`, and the receive buffer of `Model/RxMemory.lean`; the receive buffer of `rfds_wfds_process` and blocks of the C library in the model of the memory;
* what the calls of `raw_socket` do in the kernel; `select` beyond its answers (`Spec/Arrivals.lean` ties them to frames on a wire); real time outside of `Model/Interrupts.lean`;
* libpcap itself (its behaviour is assumed in `Model/Pcap.lean`; write errors are not modelled); reuse of process ids;
* output of `-v`, write errors on standard output;
* dead code: `ble_free`, `bl_reset`.

## 5. Tests against wrong programs

In a scratch copy the model is edited like a realistic bug, everything is rebuilt, declarations that no longer check are
replaced by `sorry` one after the other, and the theorems that then depend on `sorry` are listed. `seeded/LOG.jsonl` has one line for each edit
(definition, edit, claim it breaks, theorems that failed, theorems tightened, remarks). A claim that is false for the edited
program but still proved leads to a stronger theorem or a new property (C77 came from such an edit).

## 6. Axioms of each theorem

Printed by `Verif/Axioms.lean`; P = `propext`, Q = `Quot.sound`, C = `Classical.choice`.

* P: `C107_blank`, `C112_append`, `C121_false`, `C127_possible`, `C135_examples`, `C135_false`, `C135_false_null`, `C32_false`, `C68_capture_command`, `C95_unknown_interface`
* PQ: `C01_integer_literals`, `C02_false`, `C02_long_hex_partial`, `C02_too_long_writes_outside`, `C03_false`, `C03_too_long_writes_outside`, `C05_false`, `C06_false`, `C06_ipv6_partial`, `C08_hex_round_trip`, `C100_false`, `C101_false`, `C104_doubles`, `C104_false`, `C107_arguments_partial`, `C107_exactly`, `C107_false`, `C112_bprintf`, `C112_debug`, `C112_false`, `C113_dump`, `C114_execution`, `C117_false`, `C118_same_words`, `C121_told_partial`, `C122_crash`, `C122_false`, `C122_header`, `C124_commands_partial`, `C124_ends_the_run`, `C124_example`, `C124_false`, `C125_cut_short`, `C125_false`, `C125_no_time`, `C125_start_partial`, `C126_example`, `C126_false`, `C126_late`, `C127_example`, `C127_false`, `C129_false`, `C129_last_only`, `C129_refused`, `C12_write_field_outside_aborts`, `C130_example`, `C131_example`, `C132_enough`, `C132_examples`, `C132_false`, `C132_line_partial`, `C133_every`, `C133_examples`, `C134_example`, `C135_added_partial`, `C135_enough`, `C135_files_partial`, `C135_outcome_partial`, `C135_run_enough`, `C135_run_example`, `C135_run_partial`, `C136_examples`, `C136_false`, `C136_values`, `C137_enough`, `C137_ether_type_partial`, `C137_examples`, `C137_false`, `C137_ipv4_partial`, `C137_ipv6_partial`, `C137_left_out`, `C138_enough`, `C138_examples`, `C138_false`, `C138_only_partial`, `C139_examples`, `C139_icmp`, `C139_icmp_enough`, `C139_igmp`, `C139_igmp_enough`, `C14_table`, `C16_abort`, `C16_false`, `C19_mask_length`, `C28_ethertype_overwritten`, `C31_false`, `C34_false`, `C35_false`, `C36_false`, `C37_both_abort`, `C37_checksum_wrong`, `C37_false`, `C38_false`, `C40_false`, `C41_false`, `C42_false`, `C43_false`, `C44_false`, `C45_stack_bound`, `C46_consumed`, `C46_terminates`, `C49_false`, `C50_crashes`, `C50_false`, `C52_false`, `C52_too_long`, `C58_false`, `C60_false`, `C60_rep_zero`, `C62_false`, `C65_false`, `C65_large`, `C65_same_run_partial`, `C66_false`, `C68_every_text`, `C69_false`, `C73_bad_option`, `C73_options_anywhere`, `C73_options_first`, `C73_version_help`, `C75_hidden_fields`, `C76_clashes`, `C76_false`, `C80_field_list`, `C80_one_field`, `C81_false`, `C82_false`, `C84_examples_partial`, `C85_false`, `C91_false`, `C95_false`, `C96_false`, `C97_packets_unique`, `C98_false`
* PQC: `C03_long_binary_partial`, `C04_dotted_quad`, `C05_mac_partial`, `C07_size_exact`, `C09_hex_strings`, `C100_numbers_partial`, `C100_spelled_out_partial`, `C101_errors_partial`, `C101_separate_partial`, `C101_sum`, `C102_false`, `C102_message_partial`, `C102_received_partial`, `C102_right_partial`, `C103_exists`, `C103_false`, `C103_names_partial`, `C104_inherited`, `C104_once_partial`, `C104_processes`, `C105_one_more`, `C106_longer`, `C106_timeout`, `C108_no_influence`, `C109_numbers`, `C109_success`, `C109_values`, `C10_payload_concatenates`, `C110_carried`, `C110_tag`, `C111_order`, `C111_swap`, `C111_words`, `C112_printed_partial`, `C114_words`, `C115_asked`, `C115_whole_tool`, `C116_meg_id`, `C117_lowest`, `C117_own_sockets_partial`, `C118_same_frame`, `C119_frames`, `C119_lines`, `C11_payload_segments`, `C120_lines`, `C120_needs`, `C120_reason`, `C122_enough`, `C122_named_partial`, `C123_agrees`, `C123_exactly`, `C123_false`, `C123_payload_partial`, `C124_beginning`, `C125_stop_partial`, `C125_timeout_partial`, `C126_all_partial`, `C126_connection_partial`, `C126_first`, `C126_success_partial`, `C127_errors_partial`, `C127_messages_partial`, `C128_not_asked`, `C128_nothing_expected`, `C128_silence`, `C128_words`, `C129_all_lines_partial`, `C129_always_zero`, `C129_lines_partial`, `C12_write_field_exact`, `C130_ipv4`, `C130_off_by_one`, `C130_rare`, `C130_usual`, `C131_fields`, `C131_masked`, `C131_one`, `C131_relaxed`, `C132_success_partial`, `C133_false`, `C133_repeat_partial`, `C133_timeout_partial`, `C133_unique`, `C134_enough`, `C134_noticed`, `C136_payload_partial`, `C136_requests_partial`, `C13_read_back`, `C14_layouts`, `C15_frame_bytes`, `C16_exactly`, `C16_own_bytes_partial`, `C17_values_appear`, `C18_last_overlay_wins`, `C20_exactly`, `C20_mask_bits`, `C20_parsed`, `C21_exactly`, `C21_false`, `C21_ignored_field_partial`, `C22_marks`, `C22_mask_needed`, `C23_masked_comparison`, `C24_exactly`, `C24_false`, `C24_padding_partial`, `C24_padding_reads_outside`, `C25_self_match`, `C26_equal_and_copies`, `C27_explicit_values_win`, `C28_ethertype`, `C28_ethertype_last`, `C29_ipv4_length`, `C30_ipv4_protocol`, `C31_ipv4_checksum_partial`, `C32_checksum_partial`, `C33_udp_length`, `C34_over_ipv4_partial`, `C34_over_ipv6_partial`, `C35_icmp_checksum_partial`, `C36_igmp_checksum_partial`, `C36_igmp_layout`, `C37_mld_checksum_partial`, `C37_mld_layout_partial`, `C38_ipv6_length`, `C38_ipv6_next_partial`, `C39_ptp_length`, `C39_tlv_length`, `C40_option_partial`, `C40_option_words_partial`, `C41_code_on_the_wire`, `C41_code_partial`, `C41_token_on_the_wire`, `C41_token_text`, `C42_little_endian_partial`, `C42_others_big_endian`, `C43_size_partial`, `C44_twice_partial`, `C46_prefix`, `C47_last_assignment_wins`, `C48_field_order`, `C49_dropped`, `C49_rejected_partial`, `C50_mask`, `C50_no_crash_partial`, `C50_sane`, `C51_all_or_nothing`, `C51_whole_tool`, `C52_commands_partial`, `C53_first_definition`, `C54_unknown_names`, `C55_grouped`, `C55_sockets`, `C56_credit`, `C57_error_count`, `C58_success_partial`, `C59_arrival_order`, `C60_count_partial`, `C60_exactly`, `C60_last_one_counts`, `C61_order`, `C62_independent_partial`, `C63_duration`, `C64_timeouts`, `C66_exit_status_partial`, `C67_fed_back`, `C69_signals_partial`, `C69_stop`, `C70_assigned_values`, `C70_numbers_on_the_wire`, `C71_payload_on_the_wire`, `C72_coap_payload`, `C73_timeout`, `C74_sleep`, `C75_false`, `C75_settable_partial`, `C76_next_header_partial`, `C77_report`, `C78_exceptions`, `C78_false`, `C78_presets_partial`, `C79_bytes`, `C79_every_size`, `C79_ipv4_address`, `C79_ipv6_address`, `C79_mac_address`, `C79_numbers`, `C79_size`, `C80_header_list`, `C80_positions`, `C81_parse_error`, `C81_rejected_reported_partial`, `C81_silent`, `C81_silent_lines`, `C82_dropped_reported_partial`, `C82_value_messages`, `C83_announced_defaults`, `C84_false`, `C85_ignored_values_partial`, `C86_false`, `C86_mac_texts_partial`, `C87_ipv6_texts`, `C88_all_texts_partial`, `C88_false`, `C89_sent_in_time`, `C90_connection`, `C91_exactly`, `C91_padding_partial`, `C92_repetitions`, `C93_memory_safety`, `C94_false`, `C94_never_all`, `C94_released_partial`, `C95_socket_set_up_partial`, `C96_sockets_closed_partial`, `C97_false`, `C97_other_files`, `C97_pcap_files_partial`, `C97_pcap_line`, `C98_no_crash_partial`, `C98_reads_outside`, `C98_tool`, `C99_payload`, `C99_receiver`
* none: `C78_lengths`
