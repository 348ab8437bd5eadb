import Verif.Model.Descriptors
import Verif.Spec.Run
import Verif.Spec.Socket

/-! # Vocabulary for descriptors -/

namespace Ef.Spec

open Ef

/-- Both computations end in the same way, and their results are related. -/
inductive Agrees {α β : Type} (P : α → β → Prop) : Out α → Out β → Prop where
  | ok {a : α} {b : β} : P a b → Agrees P (.ok a) (.ok b)
  | ub (u : UB) : Agrees P (.ub u) (.ub u)
  | abort : Agrees P .abort .abort
  | exit (c : Int) : Agrees P (.exit c) (.exit c)

/-- What is seen of the main loop if one does not look at the descriptors. -/
def plain : FdEvent → Event
  | .select _ l => .wait l
  | .on _ e => e

/-- The answer of the system seen from the sockets `fds`: the `i`-th socket is ready if its descriptor is, and receives
what arrives at its descriptor. -/
def byPlace (fds : List Int) (s : FdStep) : Step where
  res := s.res
  now := s.now
  readable := fun i => match fds[i]? with | some fd => s.readable fd | none => false
  writable := fun i => match fds[i]? with | some fd => s.writable fd | none => false
  recv := fun i => match fds[i]? with | some fd => s.recv fd | none => none
  send := s.send

/-- A system that hands out the lowest free descriptor, as POSIX demands; `inherited` are the descriptors that were open
when the program was started. -/
def LowestFds (inherited : List Int) (os : OS) : Prop :=
  ∀ h d, 0 ≤ d → d < os h .socket → d ∈ inherited ∨ d ∈ openFds h

end Ef.Spec
