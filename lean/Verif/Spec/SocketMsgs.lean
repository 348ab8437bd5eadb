import Verif.Spec.Socket

/-! # Specification: failures to open a socket -/

namespace Ef.Spec

open Ef

/-- The steps whose failure ends the run. -/
inductive SockStep where
  | socket
  | bind
  | promisc
  deriving DecidableEq, Repr

/-- The step that a call failed in. -/
def failedStep (c : Call) : Option SockStep :=
  match c.req with
  | .socket => if c.answer < 0 then some .socket else none
  | .bind _ _ => if c.answer < 0 then some .bind else none
  | .promisc _ _ => if c.answer = -1 then some .promisc else none
  | _ => none

/-- The line about a failed step. -/
def stepText (file m : CStr) : SockStep → CStr
  | .socket => file ++ c!":32 socket error: " ++ m ++ c!"\n"
  | .bind => file ++ c!":44 bind error: " ++ m ++ c!"\n"
  | .promisc => file ++ c!":53 Failed to set PROMISC: " ++ m ++ c!"\n"

end Ef.Spec
