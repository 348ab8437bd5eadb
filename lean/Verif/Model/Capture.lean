import Verif.Model.Exec

/-!
# Model of `src/ef-capture.c`
-/

namespace Ef

/-- The part of a string before the first comma, and what follows it (`strchr(s, ',')`). -/
def splitComma : CStr → CStr × Option CStr
  | [] => ([], none)
  | c :: cs =>
    if c = ch!"," then ([], some cs)
    else
      let (a, r) := splitComma cs
      (c :: a, r)

/-- Splitting loop of `capture_add` (ef-capture.c:59-68): at most `n` elements; what follows the last one
is dropped. -/
def captureElems : Nat → CStr → List CStr
  | 0, _ => []
  | n + 1, s =>
    let (a, r) := splitComma s
    match r with
    | none => [a]
    | some s' => a :: captureElems n s'

/-- Element `i`, if present and not empty (`s_elements[i] && *s_elements[i]`). -/
def elemGiven (es : List CStr) (i : Nat) : Option CStr :=
  match es[i]? with
  | some e => if e = [] then none else some e
  | none => none

/-- `" -x value"` if given. -/
def optText (opt : CStr) : Option CStr → CStr
  | some v => opt ++ v
  | none => []

/-- The command line for tcpdump (ef-capture.c:70-122). -/
def captureCmd (s : CStr) : CStr :=
  let es := captureElems 5 s
  let ifc := (es[0]?).getD []
  let file := match elemGiven es 3 with
    | some f => f
    | none => ifc ++ c!".pcap"
  c!"tcpdump -i " ++ ifc ++ optText c!" -s " (elemGiven es 1) ++ optText c!" -j " (elemGiven es 2) ++
    c!" -w " ++ file ++ optText c!" -c " (elemGiven es 4)

/-- The file that is deleted and then written by tcpdump (ef-capture.c:96-103). -/
def captureFile (s : CStr) : CStr :=
  let es := captureElems 5 s
  match elemGiven es 3 with
  | some f => f
  | none => (es[0]?).getD [] ++ c!".pcap"

/-- `capture_t` (ef.h:304-312). `res` is never assigned, `success` never read; both are left out. -/
structure Capture where
  cmd : CStr
  pid : Int := 0
  running : Bool := false
  deriving DecidableEq, Repr

/-- How a child changed state (`waitpid` status). -/
inductive ChildStatus where
  | exited (code : Nat)
  | signaled (sig : Nat)
  deriving DecidableEq, Repr

/-- `capture_by_pid` plus clearing of `running` (ef-capture.c:37-48, 157-170): the first capture with that
pid. -/
def reapOne (pid : Int) : List Capture → List Capture
  | [] => []
  | c :: cs => if c.pid = pid then { c with running := false } :: cs else c :: reapOne pid cs

/-- `signal_child` (ef-capture.c:147-172) with the children `waitpid` reports. Both exit and death by signal
clear `running`. -/
def reap (cs : List Capture) : List (Int × ChildStatus) → List Capture
  | [] => cs
  | (p, _) :: ps => reap (reapOne p cs) ps

/-- `capture_start` (ef-capture.c:181-198) in the parent; `pid` is the result of `fork`. The child calls `execl`;
that this fails (there is no `/bin/bash`) is in `Model/Forks.lean`. -/
def captureStart (c : Capture) (pid : Int) : Capture :=
  if pid > 0 then { c with pid := pid, running := true } else c

/-- `capture_all_start` (ef-capture.c:200-215) from capture number `k` on. For each capture: the result of `fork`,
the children `signal_child` reports after `fork` and before the process id is stored (the signal handler may run at
any point), and those it reports later, before the next `fork`. A history that is too short stands for a failing
`fork` and no reports. -/
def captureAllStart : List Capture → Nat → List (Int × List (Int × ChildStatus) × List (Int × ChildStatus)) →
    Nat → List Capture
  | cs, _, _, 0 => cs
  | cs, _, [], _ + 1 => cs
  | cs, k, (pid, early, late) :: hist, n + 1 =>
    captureAllStart (reap ((reap cs early).modify k (captureStart · pid)) late) (k + 1) hist n

/-- The signals sent by `capture_all_stop`. -/
inductive Kill where
  | int (pid : Int)
  | term (pid : Int)
  deriving DecidableEq, Repr

/-- The "signal all running" loops (ef-capture.c:257-262, 266-272). -/
def killAll (k : Int → Kill) (cs : List Capture) : List Kill :=
  (cs.filter (·.running)).map (fun c => k c.pid)

/-- `wait_poll(times)` (ef-capture.c:217-236): the children reported at each poll; polling ends when nothing
is running. A history that is too short stands for polls that report no child. -/
def waitPoll : Nat → List (List (Int × ChildStatus)) → List Capture → List Capture
  | 0, _, cs => cs
  | n + 1, hist, cs =>
    let cs' := reap cs (hist.headD [])
    if cs'.any (·.running) then waitPoll n hist.tail cs' else cs'

/-- `capture_all_stop` (ef-capture.c:238-285): the signals sent and the captures at the end.
`before` are the children reported by `signal_child` during the initial `sleep` and until the handler is
replaced; `h1`, `h2` those reported in the two polling phases. -/
def captureAllStop (before : List (Int × ChildStatus)) (h1 h2 : List (List (Int × ChildStatus)))
    (cs : List Capture) : List Kill × List Capture :=
  let cs0 := reap cs before
  let cs1 := waitPoll 10000 h1 cs0
  let cs2 := waitPoll 10000 h2 cs1
  (killAll .int cs0 ++ killAll .term cs1, cs2)

end Ef
