import Verif.Model.Capture

/-!
# Model of `capture_all_start` with children in which `execl` fails (src/ef-capture.c)

`capture_start` returns in the child if `execl` fails (ef-capture.c:174-189). The child is then a second process in the
middle of `capture_all_start`, with a copy of the memory. It starts the captures behind and goes on like its parent.
Left out here: children that end meanwhile (see `captureAllStart`).
-/

namespace Ef

/-- A process: for each `fork` behind it, whether it was the child; its captures. -/
structure Proc where
  path : List Bool
  captures : List Capture
  deriving DecidableEq, Repr

/-- `capture_all_start` (ef-capture.c:181-215): all processes that return from it. `ask` gives the result of `fork` in
the process with this path, and whether the `execl` of the child succeeds. -/
def startAll (ask : List Bool → Int × Bool) : List Bool → List Capture → List Capture → List Proc
  | path, started, [] => [⟨path, started⟩]
  | path, started, c :: rest =>
    (if 0 < (ask path).1 ∧ (ask path).2 = false then startAll ask (path ++ [true]) (started ++ [c]) rest else []) ++
      startAll ask (path ++ [false]) (started ++ [captureStart c (ask path).1]) rest

/-- `argc_cmds` from `capture_all_start` up to `exec_cmds` (ef-args.c:300-307): each of the processes executes the
commands, on its own sockets. -/
def forkedRuns (ask : List Bool → Int × Bool) (env : List Bool → Env) (caps : List CStr) (cmds : List Cmd) :
    List (Out ExecRes) :=
  (startAll ask [] [] (caps.map (fun s => { cmd := captureCmd s }))).map (fun p => execCmds (env p.path) cmds)

end Ef
