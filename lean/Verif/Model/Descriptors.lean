import Verif.Model.Exec
import Verif.Model.Socket

/-!
# The run of the commands with file descriptors (ef-exec.c:122-317, 378-546)

In `Exec.lean` the position of a resource stands for its socket. Here the descriptors that the system handed out are
kept, and put into and looked up in the sets which `select` gets. Everything else is taken over from `Exec.lean`.

Simplifications: a set of descriptors is the list of its members. `select` may only clear descriptors below its first
argument that were in a set; the others are cleared in the model (Linux leaves them alone, but none are set). What
`recvmsg` returns depends on the descriptor only; the results of `send` are numbered in the order of the calls.
-/

namespace Ef

/-- `FD_SETSIZE` of glibc. -/
def fdSetSize : Int := 1024

/-- `fd_set`: its members. -/
abbrev FdSet := List Int

/-- `FD_SET`: it is not defined for descriptors outside the set. -/
def fdAdd (fd : Int) (s : FdSet) : Out FdSet :=
  if 0 ≤ fd ∧ fd < fdSetSize then .ok (fd :: s) else .ub .oobWrite

/-- `FD_ISSET` -/
def fdIsSet (fd : Int) (s : FdSet) : Out Bool :=
  if 0 ≤ fd ∧ fd < fdSetSize then .ok (s.contains fd) else .ub .oobRead

/-- `cmd_socket_t` (ef.h:285-291) with its descriptor. -/
structure Sock where
  fd : Int
  res : Resource
  deriving DecidableEq, Repr

/-- The loop of `rfds_wfds_fill` (ef-exec.c:133-163): read set, write set, `fd_max` and `fd_set_cnt`. -/
def fillSets : List Sock → FdSet → FdSet → Int → Nat → Out (FdSet × FdSet × Int × Nat)
  | [], r, w, m, c => .ok (r, w, m, c)
  | k :: ks, r, w, m, c => do
    let (r, m, c) ← (if hasRx k.res then do
        let r ← fdAdd k.fd r
        .ok (r, max k.fd m, c + 1)
      else .ok (r, m, c))
    let (w, m, c) ← (if hasTx k.res then do
        let w ← fdAdd k.fd w
        .ok (w, max k.fd m, c + 1)
      else .ok (w, m, c))
    fillSets ks r w m c

/-- `rfds_wfds_fill` (ef-exec.c:122-168): the sets and the result. -/
def selectSets (ks : List Sock) : Out (FdSet × FdSet × Int) := do
  let (r, w, m, c) ← fillSets ks [] [] 0 0
  .ok (r, w, if c ≠ 0 then m else -1)

/-- One answer of the operating system, as in `Step`, by descriptor. -/
structure FdStep where
  res : Int
  now : TimeVal
  readable : Int → Bool
  writable : Int → Bool
  recv : Int → Option RxMsg
  send : Nat → Int

/-- What `select` leaves of a set. -/
def selected (nfds : Int) (ready : Int → Bool) (s : FdSet) : FdSet := s.filter fun fd => decide (fd < nfds) && ready fd

/-- What happens in the main loop: a call of `select` with its first argument, and what is done with a socket. -/
inductive FdEvent where
  | select (nfds : Int) (left : TimeVal)
  | on (fd : Int) (e : Event)
  deriving DecidableEq, Repr

/-- First loop of `rfds_wfds_process` (ef-exec.c:179-275). -/
def rxSocks (cfg : Config) (s : FdStep) (rfds : FdSet) : List Sock → Out (List Sock × List FdEvent)
  | [] => .ok ([], [])
  | k :: ks => do
    let set ← fdIsSet k.fd rfds
    let (k', e) ← (if set then
        match s.recv k.fd with
        | none => .ok (k, [])
        | some m => do
          let (r, e) ← rxFrame cfg k.res m
          .ok ({ k with res := r }, e.map (.on k.fd))
      else .ok (k, []))
    let (ks', es) ← rxSocks cfg s rfds ks
    .ok (k' :: ks', e ++ es)

/-- One round over all resources (ef-exec.c:279-311); `n` counts the `send` calls. -/
def txSocks (wfds : FdSet) (send : Nat → Int) : Nat → List Sock → Out (List Sock × Nat × List FdEvent × Bool)
  | n, [] => .ok ([], n, [], false)
  | n, k :: ks => do
    let set ← fdIsSet k.fd wfds
    if set then
      match ← txFirst (send n) k.res.cmds with
      | none => do
        let (ks', n', es, more) ← txSocks wfds send n ks
        .ok (k :: ks', n', es, more)
      | some (cs, e, m) => do
        let (ks', n', es, more) ← txSocks wfds send (n + 1) ks
        .ok ({ k with res := { k.res with cmds := cs } } :: ks', n', e.map (.on k.fd) ++ es, m || more)
    else
      let (ks', n', es, more) ← txSocks wfds send n ks
      .ok (k :: ks', n', es, more)

/-- The `while (1)` loop (ef-exec.c:277-314), at most `fuel` rounds. -/
def txSocksLoop (wfds : FdSet) (send : Nat → Int) : Nat → Nat → List Sock → Out (Bool × List Sock × List FdEvent)
  | 0, _, ks => .ok (false, ks, [])
  | fuel + 1, n, ks => do
    let (ks', n', e, more) ← txSocks wfds send n ks
    if more then
      let (fin, ks'', es) ← txSocksLoop wfds send fuel n' ks'
      .ok (fin, ks'', e ++ es)
    else .ok (true, ks', e)

/-- `rfds_wfds_process` (ef-exec.c:170-317). -/
def processSocks (cfg : Config) (fuel : Nat) (s : FdStep) (rfds wfds : FdSet) (ks : List Sock) :
    Out (Bool × List Sock × List FdEvent) := do
  let (ks1, e1) ← rxSocks cfg s rfds ks
  let (fin, ks2, e2) ← txSocksLoop wfds s.send fuel 0 ks1
  .ok (fin, ks2, e1 ++ e2)

/-- The main loop of `exec_cmds` (ef-exec.c:480-500). -/
def sockLoop (cfg : Config) (fuel : Nat) (tend : TimeVal) :
    List FdStep → TimeVal → List Sock → Out (LoopEnd × List Sock × List FdEvent)
  | [], left, ks => do
    let (_, _, m) ← selectSets ks
    if m < 0 then .ok (.finished, ks, []) else .ok (.waiting, ks, [.select (m + 1) left])
  | s :: hist, left, ks => do
    let (r, w, m) ← selectSets ks
    if m < 0 then .ok (.finished, ks, [])
    else if timerGt s.now tend then .ok (.finished, ks, [.select (m + 1) left])
    else if s.res ≤ 0 then .ok (.finished, ks, [.select (m + 1) left])
    else
      let (fin, ks', e) ← processSocks cfg fuel s (selected (m + 1) s.readable r) (selected (m + 1) s.writable w) ks
      if fin then
        let (st, ks'', es) ← sockLoop cfg fuel tend hist (timerSub tend s.now) ks'
        .ok (st, ks'', .select (m + 1) left :: (e ++ es))
      else .ok (.sending, ks', .select (m + 1) left :: e)

/-- Everything `exec_cmds` gets from outside, with the system behind the sockets and the calls made before. -/
structure FdEnv where
  cfg : Config
  os : OS
  calls : List Call
  begin : TimeVal
  timeoutMs : Int
  hist : List FdStep
  fuel : Nat

/-- The names of the interfaces of the resources. -/
def resNames : List Resource → Out (List CStr)
  | [] => .ok []
  | r :: rs => do
    let a ← resArg0 r
    let as ← resNames rs
    .ok (a :: as)

/-- Result of `exec_cmds`: what is returned, the resources, what happened before the sockets were opened, in the main
loop and after it, and the calls for the sockets. -/
structure FdRes where
  ret : Option Int
  status : LoopEnd
  resources : List Resource
  before : List Event
  loop : List FdEvent
  after : List Event
  calls : List Call

/-- `exec_cmds` after the names have been resolved (ef-exec.c:425-546), with descriptors. Each interface is opened by
`raw_socket`, and the sockets are closed after the main loop. -/
def execSocks (env : FdEnv) (cmds : List Cmd) : Out FdRes := do
  let ep ← pcapAll env.cfg cmds
  let eh ← hexEvents cmds
  let rs ← mapCmds cmds []
  let names ← resNames rs
  match openSockets env.os env.calls names with
  | (none, h) => .ok ⟨some (-1), .finished, rs, ep ++ eh, [], [], h⟩
  | (some fds, h) => do
    let tend := timerAdd env.begin (timeoutVal env.timeoutMs)
    let (st, ks, el) ← sockLoop env.cfg env.fuel tend env.hist (timeoutVal env.timeoutMs) (List.zipWith Sock.mk fds rs)
    match st with
    | .finished =>
      let (n, en) := checkResults (ks.map (·.res))
      .ok ⟨some n, .finished, ks.map (·.res), ep ++ eh, el, en, closeSockets env.os h fds⟩
    | st => .ok ⟨none, st, ks.map (·.res), ep ++ eh, el, [], h⟩

/-- `exec_cmds` (ef-exec.c:378-546) with descriptors. -/
def execCmdsFd (env : FdEnv) (cmds : List Cmd) : Out FdRes :=
  let (cmds', en) := pairNames cmds cmds
  if en ≠ [] then .ok ⟨some en.length, .finished, [], inventory cmds ++ en, [], [], env.calls⟩
  else do
    let r ← execSocks env cmds'
    .ok { r with before := inventory cmds ++ r.before }

end Ef
