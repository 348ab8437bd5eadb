import Verif.Model.Exhausted
import Verif.Model.Main

/-!
# Names when memory runs out (ef-args.c:169-326)

`argc_cmd` copies the names of interfaces, files and frames with `strdup` (ef-args.c:203, 215, 234) and does not look at the result.
The answers of the allocator are a list as in `Exhausted`. Simplification: all other requests for memory are granted.
-/

namespace Ef

/-- `strdup`: NULL if the memory is not granted. -/
def strdupA (s : CStr) (as : List Bool) : Option CStr × List Bool := (if (grant as).1 then some s else none, (grant as).2)

/-- ef-args.c:231-243: a reference by name, or a frame. -/
def argcCmdRestA (c : Cmd) (i : Nat) (argv : List CStr) (as : List Bool) : Out (CmdRes × List Bool) :=
  match argv with
  | w :: n :: _ =>
    if w = c!"name" ∧ c.type ≠ .name then
      let (n', as) := strdupA n as
      .ok (.cmd { c with name := n' } (i + 2), as)
    else do
      let r ← argcCmdFrame c i argv
      .ok (r, as)
  | _ => do
    let r ← argcCmdFrame c i argv
    .ok (r, as)

/-- `argc_cmd` (ef-args.c:169-270) with the answers of the allocator. -/
def argcCmdA (hasPcap : Bool) (argv : List CStr) (as : List Bool) : Out (CmdRes × List Bool) :=
  match argv with
  | [] => .ok (.stop, as)
  | w :: rest =>
    match cmdWord hasPcap w with
    | .help => .ok (.err, as)
    | .other => .ok (.stop, as)
    | .cmd t =>
      match rest with
      | [] => .ok (.stop, as)
      | a :: rest' =>
        match t with
        | .hex => argcCmdRestA { type := .hex } 1 rest as
        | .name =>
          let (a, as) := strdupA a as
          argcCmdRestA { type := .name, name := a } 2 rest' as
        | .pcap =>
          let (a, as) := strdupA a as
          argcCmdRestA { type := .pcap, arg0 := a } 2 rest' as
        | .rx =>
          let (a, as) := strdupA a as
          argcCmdRestA { type := .rx, arg0 := a } 2 rest' as
        | .tx =>
          let (a, as) := strdupA a as
          match rest' with
          | [] => .ub .nullDeref
          | r :: rest'' =>
            if r = c!"rep" ∨ r = c!"repeat" then
              match rest'' with
              | [] => .ub .nullDeref
              | n :: rest3 => argcCmdRestA { type := .tx, arg0 := a, rep := (atoi n % 2 ^ 32).toNat } 4 rest3 as
            else argcCmdRestA { type := .tx, arg0 := a, rep := 1 } 2 rest' as

/-- Loop of `argc_cmds` (ef-args.c:278-293). -/
def argcCmdsLoopA (hasPcap : Bool) : Nat → List CStr → List Bool → Out (Option (List Cmd × List CStr))
  | 0, argv, _ => .ok (some ([], argv))
  | slots + 1, argv, as =>
    if argv = [] then .ok (some ([], argv))
    else do
      match ← argcCmdA hasPcap argv as with
      | (.err, _) => .ok none
      | (.stop, _) => .ok (some ([], argv))
      | (.cmd c used, as) => do
        match ← argcCmdsLoopA hasPcap slots (argv.drop used) as with
        | none => .ok none
        | some (cs, rest) => .ok (some (c :: cs, rest))

/-- The parsing part of `argc_cmds` (ef-args.c:272-298). -/
def parseCmdsA (hasPcap : Bool) (argv : List CStr) (as : List Bool) : Out (Option (List Cmd)) := do
  match ← argcCmdsLoopA hasPcap 100 argv as with
  | none => .ok none
  | some (cs, rest) => if rest = [] then .ok (some cs) else .ok none

/-- `argc_cmds` (ef-args.c:272-326) with the answers of the allocator. -/
def argcCmdsA (w : World) (ms : Int) (caps : List CStr) (argv : List CStr) (as : List Bool) : Out RunRes := do
  match ← parseCmdsA w.env.cfg.hasPcap argv as with
  | none => .ok { ret := some (-1) }
  | some cmds => do
    let r ← execCmds { w.env with timeoutMs := ms } cmds
    let tend := timerAdd w.before (timeoutVal ms)
    let slept := if r.status = .finished ∧ caps ≠ [] ∧ timerLt w.after tend then some (timerSub tend w.after) else none
    .ok { ret := r.ret, started := caps.map captureCmd, events := r.events, slept := slept }

end Ef
