import Verif.Model.Exhausted

/-!
# Reception when memory runs out (ef-exec.c:170-317, 378-546)

The buffer for a received frame is allocated for each interface that is ready (ef-exec.c:187), and used without a check
(ef-exec.c:189). The answers of the allocator are a list as in `Exhausted`. Simplification: all other requests are granted.
-/

namespace Ef

/-- `recvmsg` and what is done with its result (ef-exec.c:196-275). -/
def rxRead (cfg : Config) (s : Step) (i : Nat) (r : Resource) : Out (Resource × List Event) :=
  match s.recv i with
  | none => .ok (r, [])
  | some m => rxFrame cfg r m

/-- Reception on resource `i` (ef-exec.c:179-275). -/
def rxResourceA (cfg : Config) (s : Step) (i : Nat) (r : Resource) (as : List Bool) : Out ((Resource × List Event) × List Bool) :=
  if hasRx r && s.readable i then
    if (grant as).1 then do
      let x ← rxRead cfg s i r
      .ok (x, (grant as).2)
    else .ub .nullDeref
  else .ok ((r, []), as)

/-- First loop of `rfds_wfds_process` (ef-exec.c:179-275), from resource `i` on. -/
def rxAllA (cfg : Config) (s : Step) : Nat → List Resource → List Bool → Out ((List Resource × List Event) × List Bool)
  | _, [], as => .ok (([], []), as)
  | i, r :: rs, as => do
    let x ← rxResourceA cfg s i r as
    let y ← rxAllA cfg s (i + 1) rs x.2
    .ok ((x.1.1 :: y.1.1, x.1.2 ++ y.1.2), y.2)

/-- `rfds_wfds_process` (ef-exec.c:170-317). -/
def processA (cfg : Config) (fuel : Nat) (s : Step) (rs : List Resource) (as : List Bool) :
    Out ((Bool × List Resource × List Event) × List Bool) := do
  let x ← rxAllA cfg s 0 rs as
  let y ← txLoop (writeSet s rs) s.send fuel 0 x.1.1
  .ok ((y.1, y.2.1, x.1.2 ++ y.2.2), x.2)

/-- The main loop of `exec_cmds` (ef-exec.c:480-500). -/
def mainLoopA (cfg : Config) (fuel : Nat) (tend : TimeVal) :
    List Step → TimeVal → List Resource → List Bool → Out ((LoopEnd × List Resource × List Event) × List Bool)
  | hist, left, rs, as =>
    if ¬ wantsIo rs then .ok ((.finished, rs, []), as)
    else
      match hist with
      | [] => .ok ((.waiting, rs, [.wait left]), as)
      | s :: hist' =>
        if timerGt s.now tend then .ok ((.finished, rs, [.wait left]), as)
        else if s.res ≤ 0 then .ok ((.finished, rs, [.wait left]), as)
        else do
          let x ← processA cfg fuel s rs as
          if x.1.1 then
            let y ← mainLoopA cfg fuel tend hist' (timerSub tend s.now) x.1.2.1 x.2
            .ok ((y.1.1, y.1.2.1, .wait left :: (x.1.2.2 ++ y.1.2.2)), y.2)
          else .ok ((.sending, x.1.2.1, .wait left :: x.1.2.2), x.2)

/-- `exec_cmds` after the names have been resolved (ef-exec.c:425-546). -/
def execResolvedA (env : Env) (cmds : List Cmd) (as : List Bool) : Out ExecRes := do
  let ep ← pcapAll env.cfg cmds
  let eh ← hexEvents cmds
  let rs ← mapCmds cmds []
  let (eo, ok) ← openAll env.canOpen rs
  if ¬ ok then .ok ⟨some (-1), .finished, rs, ep ++ eh ++ eo⟩
  else
    let tend := timerAdd env.begin (timeoutVal env.timeoutMs)
    let x ← mainLoopA env.cfg env.fuel tend env.hist (timeoutVal env.timeoutMs) rs as
    match x.1.1 with
    | .finished =>
      let (n, en) := checkResults x.1.2.1
      .ok ⟨some n, .finished, x.1.2.1, ep ++ eh ++ eo ++ x.1.2.2 ++ en⟩
    | st => .ok ⟨none, st, x.1.2.1, ep ++ eh ++ eo ++ x.1.2.2⟩

/-- `exec_cmds` (ef-exec.c:378-546) with the answers of the allocator to the requests for received frames. -/
def execCmdsRx (env : Env) (cmds : List Cmd) (as : List Bool) : Out ExecRes :=
  let (cmds', en) := pairNames cmds cmds
  if en ≠ [] then .ok ⟨some en.length, .finished, [], inventory cmds ++ en⟩
  else do
    let r ← execResolvedA env cmds' as
    .ok { r with events := inventory cmds ++ r.events }

end Ef
