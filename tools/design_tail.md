
## 4. Trusted base and what is not modelled

* Lean 4.33.0 kernel. Axioms `propext`, `Classical.choice`, `Quot.sound` at most (table in section 6; printed by `Verif/Axioms.lean` in
  every build). No added axioms, no `sorry`, no `native_decide`, no `bv_decide`. Finite facts are evaluated by the kernel (`decide +kernel`).
* That the model is the code: by inspection along the citations, by generating the tables from the sources, and by replaying the
  upstream test vectors.
* That `Model/Libc.lean` and the `getopt` of `Model/Main.lean` are glibc.
* That the specifications say what the English statements say; the tables of `Spec/Standard.lean` were written from the documents.

Not modelled:
* running out of memory outside of the copies of `Model/Exhausted.lean`, `Model/Strdup.lean`, the captures of `Model/CaptureMemory.lean`, the values and payloads of `Model/PayloadMemory.lean`, the computed fields of `Model/FillMemory.lean`, `Model/UdpMemory.lean` and `Model/IcmpMemory.lean`, and the receive buffer of `Model/RxMemory.lean`; the receive buffer of `rfds_wfds_process` and blocks of the C library in the model of the memory;
* what the calls of `raw_socket` do in the kernel; `select` beyond its answers (`Spec/Arrivals.lean` ties them to frames on a wire); real time outside of `Model/Interrupts.lean`;
* libpcap itself (its behaviour is assumed in `Model/Pcap.lean`; write errors are not modelled); reuse of process ids;
* output of `-v`, write errors on standard output;
* dead code: `ble_free`, `bl_reset`.

## 5. Tests against wrong programs

In a scratch copy the model is edited like a realistic bug, everything is rebuilt, declarations that no longer check are
replaced by `sorry` one after the other, and the theorems that then depend on `sorry` are listed. `seeded/LOG.jsonl` has one line for each edit
(definition, edit, claim it breaks, theorems that failed, theorems tightened, remarks). A claim that is false for the edited
program but still proved leads to a stronger theorem or a new property (C77 came from such an edit).

## 6. Axioms of each theorem

Printed by `Verif/Axioms.lean`; P = `propext`, Q = `Quot.sound`, C = `Classical.choice`.

