import Verif.Model.Exec
import Verif.Spec.Match

/-!
# Specification: what a run of the commands does

Vocabulary for the statements about `exec_cmds`: named frames, the sockets, which received frame is credited to
which command, and what is transmitted.
-/

namespace Ef.Spec

open Ef

/-! ## Named frames -/

/-- The command defines a frame under the name `n`. -/
def defines (n : CStr) (c : Cmd) : Bool := c.type == .name && c.buf.isSome && c.name == some n

/-- The name a command refers to instead of giving a frame. -/
def refersTo (c : Cmd) : Option CStr := if c.type ≠ .name ∧ c.buf = none then c.name else none

/-- The command refers to a name which nobody defines. -/
def unresolved (cmds : List Cmd) (c : Cmd) : Bool :=
  match refersTo c with
  | some n => !cmds.any (defines n)
  | none => false

/-- A command that refers to a name with the frame, bytes and mask of the first definition. -/
def resolve (cmds : List Cmd) (c : Cmd) : Cmd :=
  match refersTo c with
  | some n =>
    match cmds.find? (defines n) with
    | some d => { c with frame := d.frame, buf := d.buf, mask := d.mask }
    | none => c
  | none => c

/-! ## Interfaces -/

/-- The interface of a tx or rx command. -/
def ioIface (c : Cmd) : Option CStr := if c.type = .rx ∨ c.type = .tx then c.arg0 else none

/-- The list without repetitions, in order of first occurrence. -/
def firsts : List CStr → List CStr
  | [] => []
  | a :: l => a :: (firsts l).filter (· ≠ a)

/-- The interfaces used by the commands in order of first use. -/
def ifaces (cmds : List Cmd) : List CStr := firsts (cmds.filterMap ioIface)

/-- The tx and rx commands of an interface. -/
def cmdsOn (a : CStr) (cmds : List Cmd) : List Cmd := cmds.filter (fun c => ioIface c == some a)

/-! ## Events -/

/-- The interface on which a frame is received, reported missing or transmitted. -/
def ifaceOf : Event → Option CStr
  | .rxOk a _ _ _ => some a
  | .rxErr a _ => some a
  | .send a _ _ => some a
  | .txDone a _ _ => some a
  | .noRx a _ _ _ => some a
  | _ => none

/-- Outcome of a received frame on interface `a`. -/
def isRx (a : CStr) : Event → Bool
  | .rxOk a' _ _ _ => a' == a
  | .rxErr a' _ => a' == a
  | _ => false

/-- A frame was reported missing on interface `a`. -/
def isNoRx (a : CStr) : Event → Bool
  | .noRx a' _ _ _ => a' == a
  | _ => false

/-- The frame of a `send` call on interface `a`. -/
def sentOn (a : CStr) : Event → Option Buf
  | .send a' b _ => if a' = a then some b else none
  | _ => none

/-- An error message about the traffic: a frame nobody waited for, or a frame that never came. -/
def isError : Event → Bool
  | .rxErr _ _ => true
  | .noRx _ _ _ _ => true
  | _ => false

/-! ## Received frames -/

/-- The history is used up to the first answer after the deadline or without any ready socket. -/
def usable (tend : TimeVal) (hist : List Step) : List Step :=
  hist.takeWhile (fun s => !timerGt s.now tend && decide (0 < s.res))

/-- The frame that is delivered for the socket with index `i`, if any: at most 32 KiB, with the VLAN tag put
back (see C65). -/
def delivered (cfg : Config) (i : Nat) (s : Step) : List Buf :=
  if s.readable i then
    match s.recv i with
    | none => []
    | some m =>
      if m.data = [] then []
      else (restoreVlan cfg (m.data.take rxBufSize) m.aux).get?.toList
  else []

/-- The deadline of a run. -/
def deadline (env : Env) : TimeVal := timerAdd env.begin (timeoutVal env.timeoutMs)

/-- The frames received on the socket with index `i` and commands `cs` during the first `n` usable answers of
the operating system; a socket without rx command is not read. -/
def heard (env : Env) (cs : List Cmd) (i n : Nat) : List Buf :=
  if cs.any (fun c => c.type == .rx) then
    ((usable (deadline env) env.hist).take n).flatMap (delivered env.cfg i)
  else []

/-- The frame `b` is what the command describes. -/
def Wants (c : Cmd) (b : Buf) : Prop :=
  ∃ e f, c.buf = some e ∧ c.frame = some f ∧ 0 ≤ f.padding ∧ MatchesPadded b e c.mask f.padding.toNat

/-- `out` tells for each of the received frames `F` to which of the commands `cs` it is credited (`none`: to
nobody). A frame is credited to a command that wants it and has not got a frame before, and it is credited to
somebody unless all expectations that want it have got their frame before; expectations are served in order. -/
structure Credited (cs : List Cmd) (F : List Buf) (out : List (Option Nat)) : Prop where
  len : out.length = F.length
  hit : ∀ k j : Nat, out[k]? = some (some j) → ∃ c b, cs[j]? = some c ∧ F[k]? = some b ∧ Wants c b ∧
    (∀ k' : Nat, k' < k → out[k']? ≠ some (some j)) ∧
    (∀ (j' : Nat) c', j' < j → cs[j']? = some c' → c'.type = .rx → Wants c' b → ∃ k' : Nat, k' < k ∧ out[k']? = some (some j'))
  miss : ∀ (k : Nat) b, out[k]? = some none → F[k]? = some b →
    ∀ (j : Nat) c, cs[j]? = some c → c.type = .rx → Wants c b → ∃ k' : Nat, k' < k ∧ out[k']? = some (some j)

/-- What is printed about the received frames. -/
def rxReport (a : CStr) (cs : List Cmd) (F : List Buf) (out : List (Option Nat)) : List Event :=
  List.zipWith (fun b o =>
    match o with
    | none => .rxErr a b
    | some j =>
      match cs[j]? with
      | some c => .rxOk a b c.name c.mask
      | none => .rxErr a b) F out

/-- The expectations that got no frame, in order. -/
def uncredited (cs : List Cmd) (out : List (Option Nat)) : List Cmd :=
  (cs.zipIdx.filter (fun p => p.1.type == .rx && p.1.buf.isSome && !out.contains (some p.2))).map (·.1)

/-- What is printed about them. -/
def noRxReport (a : CStr) (c : Cmd) : Event := .noRx a (c.buf.getD []) c.name c.mask

/-! ## Transmitted frames -/

/-- Command number `j` of `cs` is transmitted `ks j` times, one command after the other. -/
def transmissions (cs : List Cmd) (ks : Nat → Nat) : List Buf :=
  cs.zipIdx.flatMap (fun p => if p.1.type = .tx then List.replicate (ks p.2) (p.1.buf.getD []) else [])

/-- The result of a `send` call tells that the whole frame was transmitted. -/
def sendOk : Event → Bool
  | .send _ b res => res == (b.length : Int)
  | _ => true

/-! ## Pairing frames with expectations -/

/-- The commands that expect a frame. -/
def expectations (cs : List Cmd) : List Cmd := cs.filter (fun c => c.type == .rx && c.buf.isSome)

/-- The frames can be paired one-to-one with the expectations so that each pair matches. -/
def Paired (es : List Cmd) (F : List Buf) : Prop :=
  ∃ es' : List Cmd, es'.Perm es ∧ es'.length = F.length ∧
    ∀ (k : Nat) c b, es'[k]? = some c → F[k]? = some b → Wants c b

/-- Two expectations either want exactly the same frames or have no frame in common. This is so, for example, if
no expectation has a mask. -/
def NoOverlap (cs : List Cmd) : Prop :=
  ∀ c ∈ cs, ∀ c' ∈ cs, (∃ b, Wants c b ∧ Wants c' b) → ∀ b, Wants c b ↔ Wants c' b

/-! ## Time -/

/-- The time in microseconds. -/
def micros (t : TimeVal) : Int := t.sec * 1000000 + t.usec

/-- A proper `timeval`. -/
def Normalised (t : TimeVal) : Prop := 0 ≤ t.usec ∧ t.usec < 1000000

/-- The timeouts of the `select` calls. -/
def waits (es : List Event) : List TimeVal :=
  es.filterMap (fun
    | .wait t => some t
    | _ => none)

/-- All `send` calls in order: interface, frame and result. -/
def sends (es : List Event) : List (CStr × Buf × Int) :=
  es.filterMap (fun
    | .send a b n => some (a, b, n)
    | _ => none)

/-- The same answer of the operating system, but nothing is received. -/
def deafStep (s : Step) : Step := { s with recv := fun _ => none }

/-- The same environment, but nothing is received. -/
def deaf (env : Env) : Env := { env with hist := env.hist.map deafStep }

/-- The answer is later than `limit` (in microseconds), or waiting timed out or failed. -/
def Ends (limit : Int) (s : Step) : Prop := limit < micros s.now ∨ s.res ≤ 0

end Ef.Spec
