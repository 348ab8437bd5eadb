import Verif.Model.Output
import Verif.Model.Capture

/-!
# The calls that print the report

A line of the report is printed with several calls of `po`, `pe` and `dprintf`, each of which writes at once
(ef-buf.c:177-193, ef.c:22-29). The handler for SIGCHLD (ef-capture.c:140-165) prints as well; it may run between any two
of these calls. That it may also run within one of them, where the C library gives no guarantees, is not modelled.
-/

namespace Ef

/-- What is written to standard output and to standard error by one call. -/
abbrev Piece := CStr × CStr

/-- `po`. -/
def po (s : CStr) : Piece := (s, [])

/-- `pe`. -/
def pe (s : CStr) : Piece := ([], s)

/-- `print_hex_str` to standard output or standard error: one call for each byte (ef.c:22-29). -/
def hexPieces (p : CStr → Piece) (b : Buf) : List Piece := b.map (fun x => p [hexChar (x.toNat / 16), hexChar (x.toNat % 16)])

/-- The calls for an event. -/
def eventPieces : Event → List Piece
  -- ef-exec.c:392-401
  | .named n b none => [po (c!"NAME:  " ++ pad16 n ++ c!": ")] ++ hexPieces po b ++ [po nl]
  | .named n b (some m) =>
    [po (c!"NAME:  " ++ pad16 n ++ c!": ")] ++ hexPieces po b ++ [po nl] ++ [po c!"NAME MASK:               "] ++
      hexPieces po m ++ [po nl]
  -- ef-exec.c:417
  | .noSuchName n => [pe (c!"No frame in inventory called " ++ n ++ nl)]
  -- ef-exec.c:439-449
  | .hex b none => hexPieces po b ++ [po nl]
  | .hex b (some m) => [po c!"DATA: "] ++ hexPieces po b ++ [po (nl ++ c!"MASK: ")] ++ hexPieces po m ++ [po nl]
  -- ef-exec.c:251-264
  | .rxOk a _ (some n) _ => [po (c!"RX-OK  " ++ pad16 a ++ c!": "), po (c!"name " ++ n), po nl]
  | .rxOk a b none none => [po (c!"RX-OK  " ++ pad16 a ++ c!": ")] ++ hexPieces po b ++ [po nl]
  | .rxOk a b none (some m) =>
    [po (c!"RX-OK  " ++ pad16 a ++ c!": ")] ++ hexPieces po b ++ [po (nl ++ c!"RX-OK MASK:              ")] ++
      hexPieces po m ++ [po nl, po nl]
  -- ef-exec.c:266-269
  | .rxErr a b => [pe (c!"RX-ERR " ++ pad16 a ++ c!": ")] ++ hexPieces pe b ++ [pe nl]
  -- ef-exec.c:300-306
  | .txDone a _ (some n) => [po (c!"TX     " ++ pad16 a ++ c!": "), po (c!"name " ++ n), po nl]
  | .txDone a b none => [po (c!"TX     " ++ pad16 a ++ c!": ")] ++ hexPieces po b ++ [po nl]
  -- ef-exec.c:524-539
  | .noRx a _ (some n) _ => [pe (c!"NO-RX  " ++ pad16 a ++ c!": "), pe (c!"name " ++ n), pe nl]
  | .noRx a b none none => [pe (c!"NO-RX  " ++ pad16 a ++ c!": ")] ++ hexPieces pe b ++ [pe nl, pe nl]
  | .noRx a b none (some m) =>
    [pe (c!"NO-RX  " ++ pad16 a ++ c!": ")] ++ hexPieces pe b ++ [pe nl] ++ [pe c!"NO-RX MASK:              "] ++
      hexPieces pe m ++ [pe nl, pe nl]
  -- no output
  | .pcap _ _ => []
  | .opened _ => []
  | .wait _ => []
  | .send _ _ _ => []

/-- How a child ends. -/
inductive ChildEnd where
  | exited (pid code : Nat)
  | killed (pid sig : Nat)

/-- The message of the handler (ef-capture.c:152-161). -/
def childPiece : ChildEnd → Piece
  | .exited p c => po (c!"PID " ++ decStr p ++ c!" exited with code " ++ decStr c ++ nl)
  | .killed p s => po (c!"PID " ++ decStr p ++ c!" exited with signal " ++ decStr s ++ nl)

/-- `out` and `err` may be in the two outputs if the tool prints `ps` and children end in the ways `ends` in the
meantime. -/
inductive Printed : List Piece → List ChildEnd → CStr → CStr → Prop
  | done : Printed [] [] [] []
  | tool (p : Piece) {ps ends out err} : Printed ps ends out err → Printed (p :: ps) ends (p.1 ++ out) (p.2 ++ err)
  | handler (x : ChildEnd) {ps ends out err} : Printed ps ends out err →
      Printed ps (x :: ends) ((childPiece x).1 ++ out) ((childPiece x).2 ++ err)

end Ef
