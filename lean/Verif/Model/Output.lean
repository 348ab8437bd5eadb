import Verif.Model.Exec

/-!
# Text printed by `exec_cmds`

`po` prints to standard output, `pe` to standard error (ef-buf.c:177-193). Both use `vdprintf`, so nothing is
buffered and the order of the calls is the order of the text. Write errors are not modelled.
-/

namespace Ef

/-- `%16s`: at least 16 characters, filled with blanks on the left. -/
def pad16 (s : CStr) : CStr := List.replicate (16 - s.length) ch!" " ++ s

/-- A newline. -/
def nl : CStr := [10#8]

/-- What an event prints to standard output and to standard error. -/
def eventText : Event → CStr × CStr
  -- ef-exec.c:392-401
  | .named n b none => (c!"NAME:  " ++ pad16 n ++ c!": " ++ printHexStr b ++ nl, [])
  | .named n b (some m) =>
    (c!"NAME:  " ++ pad16 n ++ c!": " ++ printHexStr b ++ nl ++ c!"NAME MASK:               " ++ printHexStr m ++ nl, [])
  -- ef-exec.c:417
  | .noSuchName n => ([], c!"No frame in inventory called " ++ n ++ nl)
  -- ef-exec.c:439-449
  | .hex b none => (printHexStr b ++ nl, [])
  | .hex b (some m) => (c!"DATA: " ++ printHexStr b ++ nl ++ c!"MASK: " ++ printHexStr m ++ nl, [])
  -- ef-exec.c:251-264
  | .rxOk a _ (some n) _ => (c!"RX-OK  " ++ pad16 a ++ c!": name " ++ n ++ nl, [])
  | .rxOk a b none none => (c!"RX-OK  " ++ pad16 a ++ c!": " ++ printHexStr b ++ nl, [])
  | .rxOk a b none (some m) =>
    (c!"RX-OK  " ++ pad16 a ++ c!": " ++ printHexStr b ++ nl ++ c!"RX-OK MASK:              " ++ printHexStr m ++ nl ++ nl, [])
  -- ef-exec.c:266-269
  | .rxErr a b => ([], c!"RX-ERR " ++ pad16 a ++ c!": " ++ printHexStr b ++ nl)
  -- ef-exec.c:300-306
  | .txDone a _ (some n) => (c!"TX     " ++ pad16 a ++ c!": name " ++ n ++ nl, [])
  | .txDone a b none => (c!"TX     " ++ pad16 a ++ c!": " ++ printHexStr b ++ nl, [])
  -- ef-exec.c:524-539
  | .noRx a _ (some n) _ => ([], c!"NO-RX  " ++ pad16 a ++ c!": name " ++ n ++ nl)
  | .noRx a b none none => ([], c!"NO-RX  " ++ pad16 a ++ c!": " ++ printHexStr b ++ nl ++ nl)
  | .noRx a b none (some m) =>
    ([], c!"NO-RX  " ++ pad16 a ++ c!": " ++ printHexStr b ++ nl ++ c!"NO-RX MASK:              " ++ printHexStr m ++ nl ++ nl)
  -- no output
  | .pcap _ _ => ([], [])
  | .opened _ => ([], [])
  | .wait _ => ([], [])
  | .send _ _ _ => ([], [])

/-- Everything printed to standard output. -/
def stdoutOf (es : List Event) : CStr := es.flatMap (fun e => (eventText e).1)

/-- Everything printed to standard error. -/
def stderrOf (es : List Event) : CStr := es.flatMap (fun e => (eventText e).2)

end Ef
