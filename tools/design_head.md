# Formal model of easyframes (`ef`): design

Target: `microchip-ung/easyframes`, C sources in `/repo/src` (read as text, never built or run).
Everything is in Lean 4 (4.33.0), Lake project `/verif/lean`, modules under `Verif/`. `lake build` checks everything.

## 1. Layers

| layer | modules | content |
|---|---|---|
| model | `Verif/Model/*.lean` | the C code, function by function; each definition cites file:lines |
| tables | `Verif/Model/Tables.lean`, `HelpTables.lean` | header tables and help texts, generated by `tools/gen_tables.py` from `/repo/src`, each citing file:lines |
| spec | `Verif/Spec/*.lean` | small specifications that do not use the functions of the model (value of a digit string, bits of a buffer, ones' complement sum, RFC 7252 option decoder, grammar of commands, credit ledger of a run, layout tables of protocol documents, reader of the printed report, ...) |
| lemmas | `Verif/Lemmas/*.lean` | helper lemmas |
| properties | `Verif/Props/*.lean` | the theorems `Cnn_*`, with concrete non-vacuity `example`s beside them |
| tests | `Verif/Tests/Vectors.lean` | upstream test vectors (`/repo/test`) replayed on the model. These are tests, not proofs: they support that the model is the code |
| seeded bugs | `seeded/LOG.jsonl` | wrong programs the theorems were tried against (section 5) |

A property that does not hold for the code is kept as a definition `Cnn_statement`, refuted by `Cnn_false` with a concrete
command line or history, and followed by a theorem `Cnn_..._partial` for the part that does hold; the doc comment says what is missing.
Its status in `MANIFEST.json` is `partial`.

## 2. Modelling conventions

* A byte is `BitVec 8`; a `buf_t` is the list of its bytes; a C string is the list of its characters without the
  terminating NUL (words of argv cannot contain NUL). `c!"eth"` is notation for such a list.
* `NULL` results are `Option.none`.
* Undefined behaviour, a failed `assert`, and `exit()` are distinct results of the type `Out` (`ub`, `abort`, `exit`), so
  "no crash" is a statement about results. `ub` is produced where the C text would read or write outside an object, use an
  uninitialised variable or dereference NULL. A model function never continues after `ub`.
* Loops over argv are structural recursions on the remaining words, or on fuel that is at least the number of remaining words,
  together with a lemma that the fuel never runs out (C46).
* Mutable C objects are values; a function that modifies an object returns the new value. `Model/Memory.lean` models the same code a
  second time with pointers, allocation and release, and C93 shows that both models have the same outcomes.
* `balloc`/`malloc` never fail. Widths, offsets and sizes of type `int` are natural numbers, which is the code for frames of less
  than 2^28 bytes (`C123_agrees`); `Model/Large.lean` counts with the types of the program, and C123 says what becomes of larger
  payloads. Where a theorem has the hypothesis `ShortWords`, words are shorter than 4 GiB. `uint32_t`/`uint16_t` arithmetic that can wrap in practice (checksum accumulator, header
  size subtraction, repeat counter, CoAP lengths, exit status) is modelled with wrap-around.
* The host is little-endian (x86-64, arm), `char` is signed with 8 bits.
* `strtoull`, `inet_pton`, `atoi`, `snprintf`, `getopt` are written down from the C/POSIX standards and glibc (`Model/Libc.lean`, `Model/Main.lean`).
* Sockets, `select`, the clock, `fork`, signals and the reaping of children are an arbitrary history of answers; every theorem
  quantifies over all histories (and says which ones it excludes).

### What each model file covers

| module | C code | simplifications |
|---|---|---|
| `Libc` | `strtoull`, `inet_pton`, `atoi`, number printing | only results, no `errno` except where the code reads it |
| `ParseBytes` | ef-parse-bytes.c | output pointers are indices; writing outside is `ub` |
| `Frame` | ef.c: templates, `hdr_write_field`, `hdr_copy_to_buf(_mask)`, `frame_to_buf`, `frame_mask_to_buf`, `inet_chksum` | |
| `Fill` | all `frame_fill_defaults` functions | get the headers before and after instead of a stack index |
| `Buf` | ef-buf.c comparisons; `hdr_clone`, `frame_clone` | cloning is the identity on values (C26 is about this) |
| `BufList` | `ble_*`, `bl_*`, `bprintf` of ef-buf.c, `hexdump` | formatted output is given by its text; an element belongs to one chain |
| `Args` | `hdr_parse_fields`, field and header parsers, `argc_frame`, `argc_cmd`, parsing half of `argc_cmds` | a frame may take at most 100 words, as in the code |
| `Exec` | ef-exec.c | a resource index stands for the file descriptor (C117 relates this to `Descriptors`); one event list for everything observable |
| `Output` | the text printed by ef-exec.c | write errors left out |
| `Capture` | ef-capture.c | the command line handed to the shell is a string; children are process ids with a history of exits |
| `Forks` | `capture_all_start` with failing `execl` | children that end meanwhile left out (they are in `Capture`) |
| `Main` | `main_`, `argc_cmds`, main.c, `getopt` | libpcap output is an event (the files are in `Pcap`) |
| `Pcap` | `pcap_append` | libpcap decides which files it opens, the format is that of a little-endian machine; no write errors, `stat` fails only for files that do not exist |
| `Socket` | `raw_socket`, opening and closing in `exec_cmds` | the operating system is an arbitrary function of the history of calls; `name` is not NULL |
| `Descriptors` | ef-exec.c with descriptors, `FD_SET`, `FD_ISSET`, the arguments of `select` | `select` clears everything at and above its first argument; what `recvmsg` returns depends on the descriptor |
| `Memory` | all of the above with `malloc`, `free` and pointers; `init`, `uninit` | block numbers are not used again; the bytes of a buffer are kept with its only pointer |
| `Messages` | everything printed while parsing | runs without undefined behaviour |
| `MldMsgs` | the texts of `mld_fill_defaults` before `exit(-1)` | what `%p` prints for a null pointer is a parameter |
| `SocketMsgs` | the texts of `raw_socket` | `__FILE__` and `%m` are parameters |
| `Pieces` | the single calls that print in ef-exec.c, the handler of ef-capture.c between them | each call is complete; the handler itself is not interrupted |
| `Exhausted` | copies (`bclone`, `hdr_clone`, `frame_clone`, `copy_cmd_by_name`) with answers of the allocator | other requests are granted |
| `Strdup` | the copies of names in ef-args.c with answers of the allocator | other requests are granted |
| `RxMemory` | reception and main loop of ef-exec.c with answers of the allocator for the receive buffer | other requests are granted |
| `CaptureMemory` | `capture_add` and the option loop of `main_` with answers of the allocator | other requests are granted |
| `PayloadMemory` | `parse_bytes` and `parse_var_bytes` with answers of the allocator | of the callers only those of `FillMemory`, `UdpMemory` and `IcmpMemory` are modelled with answers |
| `FillMemory` | the computed fields of Ethernet and IP headers with answers of the allocator | other headers are in `UdpMemory` and `IcmpMemory` |
| `UdpMemory` | the length and the checksum of UDP and TCP with answers of the allocator | as in `Fill` |
| `IcmpMemory` | the checksums of ICMP and IGMP with answers of the allocator | MLD, PTP, SV, CoAP, OAM and MRP are left out |
| `Tables`, `HelpTables` | static tables and `*_init` functions | generated |

### Vocabulary of the statements

* `Sent argv f f' b`: the words `argv` are accepted as frame `f`, completing it gives `f'` and the bytes `b`.
  `Built` adds that every header keeps inside its own bytes (`Tame`, see C16).
* `At f f' pre x post pre' x' post'`: a header `x` of the frame with what is before and after it, and the same in the completed frame.
* `Assigned argv pre f0 t lead as rest`: header `t` stands behind the words `pre` and is followed by the assignments `as`.
* `numAt b i w`: the number in the `w` bits from bit `i` of `b`.
* `Command hp ws c`, `Separated`: grammar of one command and of a sequence of commands.

## 3. Properties: what is modelled and how it is proved

