import Verif.Model.Main
import Verif.Model.Capture

/-!
# Ends of captures while the tool waits

`capture_start` installs a handler for SIGCHLD (ef-capture.c:183). When a `tcpdump` ends, the handler runs, and
the system call the tool waits in returns: `select` fails with `EINTR`, which also `SA_RESTART` does not prevent
(signal(7)), and `sleep` and `usleep` return early. `recvmsg` and `send` are started again and not affected.
-/

namespace Ef

/-! ## During `select` (ef-exec.c:486-497) -/

/-- What happens while the tool waits in `select`. -/
inductive Happening where
  /-- an answer that has nothing to do with the captures -/
  | answer (s : Step)
  /-- a child ends at this time -/
  | childEnds (now : TimeVal)

/-- The answer of an interrupted `select`. -/
def interrupted (now : TimeVal) : Step :=
  { res := -1, now := now, readable := fun _ => false, writable := fun _ => false, recv := fun _ => none, send := fun _ => -1 }

/-- What the tool sees of it. Without captures there are no children, and it goes on waiting. -/
def seenBy (captures : Bool) : List Happening → List Step
  | [] => []
  | .answer s :: hs => s :: seenBy captures hs
  | .childEnds t :: hs => if captures then interrupted t :: seenBy captures hs else seenBy captures hs

/-- `exec_cmds` with or without captures. -/
def execWith (captures : Bool) (env : Env) (hs : List Happening) (cmds : List Cmd) : Out ExecRes :=
  execCmds { env with hist := seenBy captures hs } cmds

/-! ## During `sleep` and `usleep` -/

/-- `sleep` or `usleep`, called at time `t` for the time `d` (in microseconds), may return at time `e` if
children end at the times `ends`. -/
inductive Wakes (ends : List Nat) (t d e : Nat) : Prop
  | full : t + d ≤ e → Wakes ends t d e
  | cut (s : Nat) : s ∈ ends → t ≤ s → s ≤ e → Wakes ends t d e

/-- The times of a run with captures: `forked` after the last `fork`, `ready` after the `sleep(3)` of
`capture_all_start` (ef-capture.c:208-212), `begin` the first `gettimeofday` of `argc_cmds` (ef-args.c:304), `done`
the second one (ef-args.c:312), behind `exec_cmds`; `slept` behind the two calls for what is left of the timeout
(ef-args.c:313-317); `stop` behind the `sleep(3)` of `capture_all_stop` (ef-capture.c:249-253), when SIGINT is sent
(ef-capture.c:258-262). All in microseconds. -/
structure Times where
  forked : Nat
  ready : Nat
  begin : Nat
  done : Nat
  slept : Nat
  stop : Nat

/-- The times are possible if children end at the times `ends` and the timeout is `timeout` microseconds;
`running`: a capture is still running behind the timeout. The time passes also between the calls. -/
structure Timeline (ends : List Nat) (timeout : Nat) (running : Bool) (T : Times) : Prop where
  wait : Wakes ends T.forked 3000000 T.ready
  order1 : T.ready ≤ T.begin
  order2 : T.begin ≤ T.done
  sleeps : T.done < T.begin + timeout → ∃ m n, T.done ≤ m ∧
    Wakes ends m ((T.begin + timeout - T.done) / 1000000 * 1000000) n ∧
    Wakes ends n ((T.begin + timeout - T.done) % 1000000) T.slept
  over : ¬ T.done < T.begin + timeout → T.done ≤ T.slept
  stops : if running then Wakes ends T.slept 3000000 T.stop else T.slept ≤ T.stop

end Ef
