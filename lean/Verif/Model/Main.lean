import Verif.Model.Capture
import Verif.Model.Output

/-!
# Model of `argc_cmds`, `main_` (src/ef-args.c) and `main` (src/main.c)
-/

namespace Ef

/-! ## Options -/

/-- What `getopt` reports (ef-args.c:333). -/
inductive Opt where
  /-- `-v` -/
  | version
  /-- `-h` -/
  | help
  /-- `-t ARG` -/
  | timeout (arg : CStr)
  /-- `-c ARG` -/
  | capture (arg : CStr)
  /-- an unknown option, or a missing argument (`?`) -/
  | bad
  deriving DecidableEq, Repr

/-- The options in the characters of one word, without the leading `-`, for the option string `vht:c:`. If the word
ends with an option that needs an argument, the argument is the next word: the second component makes the option
from it. -/
def optCluster : CStr → List Opt × Option (CStr → Opt)
  | [] => ([], none)
  | c :: cs =>
    if c = ch!"t" then if cs = [] then ([], some .timeout) else ([.timeout cs], none)
    else if c = ch!"c" then if cs = [] then ([], some .capture) else ([.capture cs], none)
    else
      let o := if c = ch!"v" then .version else if c = ch!"h" then .help else .bad
      let (os, need) := optCluster cs
      (o :: os, need)

/-- `getopt(argc, argv, "vht:c:")` (glibc) on the words after the program name, called until it returns -1: all
options in order, and the words from `optind` on. Words that are no options are moved behind the options (they keep
their order) unless `posix` (`POSIXLY_CORRECT` is set in the environment), where the first of them ends the options.
`--` ends the options. -/
def getopt (posix : Bool) : List CStr → List Opt × List CStr
  | [] => ([], [])
  | w :: ws =>
    if w = c!"--" then ([], ws)
    else
      match w with
      | d :: c :: cs =>
        if d = ch!"-" then
          match optCluster (c :: cs) with
          | (os, none) =>
            let (os', r) := getopt posix ws
            (os ++ os', r)
          | (os, some k) =>
            match ws with
            | [] => (os ++ [.bad], [])
            | a :: ws' =>
              let (os', r) := getopt posix ws'
              (os ++ k a :: os', r)
        else if posix then ([], w :: ws)
        else
          let (os, r) := getopt posix ws
          (os, w :: r)
      | _ =>
        if posix then ([], w :: ws)
        else
          let (os, r) := getopt posix ws
          (os, w :: r)

/-! ## Whole runs -/

/-- Everything the tool gets from outside. -/
structure World where
  /-- what `exec_cmds` gets from outside (`timeoutMs` is replaced by the value given on the command line) -/
  env : Env
  /-- `POSIXLY_CORRECT` is set -/
  posix : Bool
  /-- clock after the captures have been started (ef-args.c:304) -/
  before : TimeVal
  /-- clock after the commands have been executed (ef-args.c:312) -/
  after : TimeVal

/-- Result of a whole run of the tool. -/
structure RunRes where
  /-- return value of `main`; `none` if the run has not ended -/
  ret : Option Int
  /-- the version is printed -/
  version : Bool := false
  /-- the help text is printed -/
  help : Bool := false
  /-- files that are deleted -/
  deleted : List CStr := []
  /-- the shell commands that are started for capturing, before anything in `events` -/
  started : List CStr := []
  /-- events of `exec_cmds` -/
  events : List Event := []
  /-- time slept before the captures are stopped, if any -/
  slept : Option TimeVal := none
  deriving DecidableEq, Repr

/-- `argc_cmds` (ef-args.c:272-326) with the capture options `caps` and the timeout `ms`. The message of a parse
error (ef-args.c:296) is left out. Stopping the captures is modelled separately (`captureAllStop`), it has no
influence on the result. -/
def argcCmds (w : World) (ms : Int) (caps : List CStr) (argv : List CStr) : Out RunRes := do
  match ← parseCmds w.env.cfg.hasPcap argv with
  | none => .ok { ret := some (-1) }
  | some cmds => do
    let r ← execCmds { w.env with timeoutMs := ms } cmds
    let tend := timerAdd w.before (timeoutVal ms)
    let slept := if r.status = .finished ∧ caps ≠ [] ∧ timerLt w.after tend then some (timerSub tend w.after) else none
    .ok { ret := r.ret, started := caps.map captureCmd, events := r.events, slept := slept }

/-- The option loop of `main_` (ef-args.c:333-358) and the call of `argc_cmds`. `ms` is `TIME_OUT_MS`, `caps` are the
captures added so far. `capture_add` can only fail when memory is exhausted (`Model/CaptureMemory.lean`). -/
def mainLoopOpts (w : World) (argv : List CStr) : List Opt → Int → List CStr → Out RunRes
  | [], ms, caps => do
    let r ← argcCmds w ms caps argv
    .ok { r with deleted := caps.map captureFile }
  | .version :: _, _, caps => .ok { ret := some 0, version := true, deleted := caps.map captureFile }
  | .help :: _, _, caps => .ok { ret := some (-1), help := true, deleted := caps.map captureFile }
  | .bad :: _, _, caps => .ok { ret := some (-1), help := true, deleted := caps.map captureFile }
  | .timeout a :: os, _, caps => mainLoopOpts w argv os (atoi a) caps
  | .capture a :: os, ms, caps => mainLoopOpts w argv os ms (caps ++ [a])

/-- `main_` (ef-args.c:328-361) with the words after the program name. The default of `TIME_OUT_MS` is 100. -/
def main_ (w : World) (argv : List CStr) : Out RunRes :=
  let (os, words) := getopt w.posix argv
  mainLoopOpts w words os 100 []

/-- Exit status of the process for a return value of `main` (main.c:3-5): the low 8 bits. -/
def exitStatus (ret : Int) : Nat := (ret % 256).toNat

end Ef
