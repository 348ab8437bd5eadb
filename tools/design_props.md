C01: `ParseBytes`, `Libc`; induction on the digit string against a positional value.
C02: `parse_bytes_hex` with the output pointer as an index; loop invariant.
C03: `parse_bytes_binary`; loop invariant.
C04: `inet_pton` as in glibc; induction over the parse loop.
C05: automaton of the MAC parser; induction over the elements.
C06: `inet_pton(AF_INET6)` as in glibc; induction over the groups.
C07: case analysis of every path of `parse_bytes`.
C08: loop invariant of `parse_var_bytes_hex` on the printer's output.
C09: loop invariant against a grammar.
C10: induction over segments.
C11: induction over segments; count parser.
C12: `hdr_write_field`; loop invariant on the bit view of a buffer.
C13: from C12.
C14: finite table, evaluated by the kernel and lifted to all fields.
C15: rendering lemma: writing at an offset inside `pre ++ zeros ++ post` touches only the middle part.
C16: rendering lemma for all headers except the witnesses; `C16_exactly`: every bit of every frame is that of the last field written there.
C17: last-writer lemma for the field loop.
C18: last-writer lemma.
C19: as C15 for the mask.
C20: as C17 for the mask. `C20_exactly`: writing the mask only sets bits, so that the mask is the union of the compared fields; the only obstacle is the assertion of `hdr_write_field` for fields behind the end of the frame.
C21: from C20 for fields without overlays. `C21_exactly`: from `C20_parsed`, flipping one bit for the other direction.
C22: induction over the words.
C23: list induction on `bequal_mask`.
C24: list induction; reading behind the frame is `ub`.
C25: from C23 and C19.
C26: list induction; structure of the copies.
C27: case analysis of all fill functions, then C17.
C28: induction over the stack; fill runs from the last header to the first.
C29: as C28.
C30: as C28.
C31: exact characterisation of one fold of the carry.
C32: exact characterisation of one fold of the carry.
C33: as C28.
C34: pseudo header sums over the rendered bytes, for IPv4 and IPv6.
C35: as C34.
C36: layouts for every combination of given fields, then as C34.
C37: layouts for every combination of given fields, then as C34.
C38: as C28.
C39: as C28, for stacks of TLVs.
C40: round trip against a decoder written from RFC 7252.
C41: analysis of `coap_parse_code` and `coap_parse_token`, then C17.
C42: analysis of the OPC-UA parsers, then C17.
C43: layouts of `sv`.
C44: second run of all fill functions on completed headers.
C45: induction over the words.
C46: induction over the words.
C47: commuting updates of fields.
C48: commuting updates of fields.
C49: case analysis of the field parsers.
C50: every `ub`/`abort`/`exit` of the model traced to words of the command line; the fill functions do not fail without them; masks by C20.
C51: induction over the commands; whole tool in `Main`.
C52: grammar of commands; a recogniser that is shown to agree with the code in both directions.
C53: `Exec`: list induction.
C54: `Exec`: no event but messages before the check.
C55: `Exec`: invariant of the grouping loop.
C56: `Exec`: invariant over all histories with a credit ledger.
C57: from the ledger.
C58: from the ledger, with non-overlapping expectations.
C59: matching of equal frames as multisets.
C60: invariant on the repeat counter. `C60_exactly` describes the calls for all results of `send`: the last call for a command is the first one that takes the whole frame with a number equal to the request modulo 2³².
C61: invariant over all histories.
C62: two runs in lockstep.
C63: loop analysis over all clock histories.
C64: integer arithmetic of `timeradd`/`timersub`.
C65: two runs, one with the tag removed by the kernel.
C66: `Main`; arithmetic of the exit status.
C67: composition of C08, C10, C15 and the command parser.
C68: string function against a separate grammar of the `-c` argument.
C69: `Capture`: histories of child exits.
C70: induction over the assignments, then C17.
C71: from C10 and C15.
C72: from C10 and C15.
C73: `getopt` with permutation against a declarative reading of the words.
C74: arithmetic of the clock values.
C75: words for every first field of its name; invariant over all words for the others.
C76: run of the frame parser at a header boundary for all pairs of header kinds.
C77: the printed text is read back line by line by a reader that knows nothing of the model.
C78: tables of presets written from the documents, then C17.
C79: tables of layouts written from the documents, then C17.
C80: printed help read back by a reader that knows nothing of the model, then C70.
C81: what is printed is followed alongside the parser; induction over words and commands. The silent rejections are listed by the outcomes of the value parsers.
C82: as C81; exact characterisation of the texts that lead to a message.
C83: announced defaults read out of the printed help, then C17.
C84: examples read out of the printed help, evaluated by the kernel.
C85: both lines of words are parsed in step (relation between the frames), the relation is kept by all computations, then C15, C20 and C23.
C86: invariant of the MAC automaton that describes the text read so far; converse by running the automaton over the grammar.
C87: invariant of glibc's loop that describes the text read so far, also for the dotted quad at the end.
C88: case analysis of `parse_bytes` over the character classes, with C01-C06, C86, C87 for the branches.
C89: potential function (number of tx commands not done), which decreases whenever the socket is writable.
C90: C52 for the words, C57 for the count, pairing of frames and expectations (C58) without masks, C89 for the transmissions.
C91: a `padding` header at the end contributes no bytes to sizes, lengths and checksums, only its type 0 to the header before it; `C91_exactly` says it for all frames (`zeroLast`).
C92: `atoi` on decimal numerals (C73), C52 for the words, C89 for the transmissions.
C93: the whole code a second time with blocks (`Model/Memory.lean`); separation style triples with the owned blocks (`Lemmas/Mem*.lean`), which also show that the values are those of the model without blocks.
C94: the losses are recorded in the heap; which ones occur is followed through the program (`Lemmas/MemLoss.lean`).
C95: the calls of `raw_socket` with all answers of the system, case by case (`Props/Socket.lean`).
C96: induction over the interfaces with the list of open descriptors.
C97: the events that write to files are those of the `pcap` commands (`Lemmas/Pcap.lean`), then induction over them with the invariant that the file is readable and will be opened again. The counterexample is a file that cannot be written.
C98: every function of the run ends normally for commands with complete frames and masks (`Lemmas/RunEnds.lean`); those are what the parser delivers. The counterexample is `rx a eth padding 4`.
C99: a dissector written from the standards (`Spec/Dissect.lean`); induction over the stack with the piece of the frame that is left, using C28-C30, C33, C38, C78 and C79 for the numbers in it.
C100: the given and the written-out header differ in one value (`Lemmas/Spelled.lean`); every `fill_defaults` function of a header, of the headers before (which see sizes, types and bytes) and behind (which see addresses) gives the same bytes for both, function by function. The text level follows `argc_frame` (`Lemmas/SpelledText.lean`). The counterexample is `eth ipv6 icmp chksum 65469`.
C101: an assignment of frames to commands (`Credited`, C56) is determined by the frames and the commands if no frame is wanted by a tx command (`credited_unique`), so two runs with the same frames and commands on an interface report the same. Counterexample: the same frame before and after its transmission.
C102: the bytes of each option (C40) follow each other (`options_bytes`); decoding them one after the other adds up the numbers (`decode_options`). Token, code and payload as in C41 and C72, the way through UDP from C99.
C103: every function of the execution commutes with taking away the names (`Lemmas/Unname.lean`), definitions are not executed, and the commands of the line written out are those of the line after resolving its names (`written_out`, with C52 for the uniqueness of parsing and C53 for the first definition).
C104: `Model/Forks.lean`: a process is the list of the sides it took in its forks; induction over the captures.
C105: both runs in step (`Lemmas/AddRx.lean`); the states differ by the command at the end of its list and by the number of errors.
C106: the answers of the operating system that are used are a prefix; induction over them, the open expectations only become fewer (`mainLoop_missing`).
C107: C68 gives the text; splitting it at blanks (`Spec/Shell.lean`) finds the words again exactly if they are not empty and without blanks (`shellWords_join`).
C108: every function of the execution skips these commands, and what they do comes before the sockets are opened.
C109: the mask of an assigned field is set (C20, exactly), its value is on the wire (C05, C06), and C57 gives the frame that is accepted.
C110: the words behind the name of a header are read independently of the headers before (`afl_any`), completing a header looks back only at IP headers (`SameIp`), and C15; for tags the type field is the last field (`et_bytes`).
C111: every step of the execution looks only at one kind of commands, and the resources are the groups of `Lemmas/ExecGroup.lean`.
C112: invariant of the list without elements: it is full (`blPrintf_full`) or the next call fails (`blPrintf_free`).
C113: induction over the rows; the reader (`readDump`) knows only digits, blanks and lines.
C114: every function of the execution commutes with the renaming (`Lemmas/Rename.lean`); the words give the renamed commands because parsing is unique (C52).
C115: where the data in every event comes from is followed through the execution (`Lemmas/Origin.lean`); the commands are those of C51.
C116: C09 for the text, C70 for the place in the frame, and the default 0 as in C83.
C117: `Model/Descriptors.lean` has the descriptors and the sets of `select`; each function agrees with the one of `Model/Exec.lean` (`Lemmas/Descriptors.lean`), so that all theorems about runs apply.
C118: the command that is built is the same up to its kind (`Agrees` as in C117), and every effect comes from it (C115); a frame is only accepted without padding (C24), so C23 tells that it matches.
C119: values and fields have room (`Roomy`) in every completed header, so each write succeeds or fails its assertion; the same for the buffers the checksums are computed over. Then as C50 with the weaker conditions.
C120: the default computation of one header ends the program exactly if the header is stuck (`Stuck`), with the text for what it lacks; the loop over the stack runs from the last header, so the last stuck one decides unless an assertion fails behind it. Whole lines as in C119.
C121: the calls of `raw_socket` are followed step by step; each branch with a text contains exactly one failing call. Refuted by a system without sockets and the interface eth7.
C122: the answers of the allocator are a list; each copy takes its answers from the front, so the answer for a buffer is found by counting the buffers before it. The pairing of names is compared with the one of C53 command by command.
C123: `Model/Large.lean` counts with the types of the program. For small frames every conversion is the identity, field by field (`Lemmas/Large.lean`). For a payload the width and the size are computed modulo 2^32 and the cases are separated by `omega`; the list of 2^29 bytes is never evaluated.
C124: `Model/Interrupts.lean` has histories in which children end; the tool sees a failing `select`. The answers used with captures are the first ones of those used without, so C106 applies.
C125: `sleep` is a relation between the time of the call and the time of the return; the times of a run are a structure (`Timeline`). The bounds follow by linear arithmetic.
C126: `Spec/Arrivals.lean` describes sockets in which frames wait; a relation ties the answers of the operating system in the model to the frames on the wire. By induction over the answers the frames that are heard are the first ones on the wire; C56, C58 and C65 do the rest.
C127: `Model/Pieces.lean` has the single calls that print, and all ways to run the handler between them. The calls for a message make up its text of C77; texts of whole lines can be taken apart line by line, whatever is between them.
C128: nobody wants a frame without an expectation that has bytes, so the assignment of C56 is empty; the sum over the interfaces is that of C101. The words are parsed by C52, and C126 ties the frames to those on the wire.
C129: for the socket of an interface the operations of C60 are used once more: the TX events are those of the completing operations, whose places are strictly ascending because a completed command is not pending. A strictly ascending list of places of tx commands of full length has all of them.
C130: the sum over the data is the sum of the other words plus the word that varies; a second carry needs a remainder close to 65536, and each remainder is reached by one value of the word. The list of these values is given explicitly.
C131: as C90, with masks: parsing by C52, the count of C57, the assignment of C56; the compared bits are those of C20, and C85 shows that the transmitted frame is accepted.
C132: the commands are compared with those of a line with enough memory, request by request (`Alike`, `keptNames`). A command without interface ends in a use of NULL when the resources are set up or opened (`mapCmds_lost`).
C133: `BeginsWith` describes the number at the beginning of a text without the loops of `atoi`; `asInt` is the conversion to `int`. Every text has a number, and `atoi` finds it (`atoi_reads`).
C134: `Asks` relates a computation to the one with answers of the allocator, with a lower bound on the number of requests; it is closed under sequencing, which gives the loops.
C135: `refusedFirst` finds the first request that is refused in the list of requests of the option; the outcome is a table over that request.
C136: `Careful` relates a parser to the one with answers of the allocator; the value for a failure is a parameter, so that it is closed under sequencing.
C137: storing NULL in a field without a value changes nothing (`setVal_null`), so that each step is the usual one or none (`FillsOrNot`).
C138: a refused copy leaves a field of the pseudo header empty, which counts as 0 in the sum; the refutation is by computation.
C139: without a pseudo header only the final value can be refused, so that `fills_value` of C137 applies.
