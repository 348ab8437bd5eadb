import Verif.Spec.Tool
import Verif.Spec.Run

/-!
# Frames that wait in the sockets

Frames arrive at an interface whenever they like. The operating system keeps them for the socket until they are read,
one with each `recvmsg`. This is a description of the operating system, not of the tool; frames which it drops because too
many of them wait are not in the lists.
-/

namespace Ef.Spec

open Ef

/-- For each socket the frames that arrive there after it has been opened, with the times of their arrival in
microseconds, in this order. -/
abbrev Wire := Nat → List (Int × Buf)

/-- The frames that have arrived at time `t`. -/
def arrivedBy (t : Int) (l : List (Int × Buf)) : List (Int × Buf) := l.takeWhile (fun e => decide (e.1 ≤ t))

/-- `m` is what `recvmsg` makes out of frame `o`, and the tag protocol id is not lost (see C65). -/
def ReadAs (cfg : Config) (o : Buf) (m : RxMsg) : Prop :=
  Delivers o m ∧ (m = strip o → cfg.hasTpid = true ∨ pairAt o 12 = [0x81#8, 0x00#8])

/-- The answers `hist` of the operating system belong to the frames `w`. `listens i`: the tool asks for socket `i`;
`reads i`: the number of frames that have been read from it. `select` looks at the sockets at some time `c`, the tool
reads the clock afterwards.

* It reports exactly the sockets where a frame waits, and `recvmsg` gives the oldest of those.
* It returns 0 only after the deadline, and only if nothing waits.
* It may fail. -/
inductive Follows (cfg : Config) (w : Wire) (listens : Nat → Bool) (tend : TimeVal) : (Nat → Nat) → List Step → Prop
  | nil (reads : Nat → Nat) : Follows cfg w listens tend reads []
  | ready (reads : Nat → Nat) (s : Step) (hist : List Step) (c : Int) : 0 < s.res → c ≤ micros s.now →
      (∀ i, listens i = true → (s.readable i = true ↔ reads i < (arrivedBy c (w i)).length)) →
      (∀ i, listens i = true → s.readable i = true →
        ∃ e m, (w i)[reads i]? = some e ∧ s.recv i = some m ∧ ReadAs cfg e.2 m) →
      Follows cfg w listens tend (fun i => if s.readable i = true then reads i + 1 else reads i) hist →
      Follows cfg w listens tend reads (s :: hist)
  | expired (reads : Nat → Nat) (s : Step) (hist : List Step) (c : Int) : s.res = 0 → micros tend ≤ c → c ≤ micros s.now →
      (∀ i, listens i = true → (arrivedBy c (w i)).length ≤ reads i) →
      Follows cfg w listens tend reads (s :: hist)
  | failed (reads : Nat → Nat) (s : Step) (hist : List Step) : s.res < 0 → Follows cfg w listens tend reads (s :: hist)

/-- The run ends since `select` returns 0: there was nothing to read until the deadline. -/
def Expires (tend : TimeVal) (hist : List Step) : Prop :=
  ∃ s, hist[(usable tend hist).length]? = some s ∧ s.res = 0

/-- The frames that arrive on socket `i` until the deadline. -/
def inTime (w : Wire) (tend : TimeVal) (i : Nat) : List Buf := (arrivedBy (micros tend) (w i)).map (·.2)

end Ef.Spec
