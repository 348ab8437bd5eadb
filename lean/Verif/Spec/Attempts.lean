import Verif.Spec.Run

/-!
# Specification: transmissions with their results
-/

namespace Ef.Spec

open Ef

/-- The frame and the result of a `send` call on interface `a`. -/
def attemptOn (a : CStr) : Event → Option (Buf × Int)
  | .send a' b res => if a' = a then some (b, res) else none
  | _ => none

/-- The frame of the first command for each of its results, then that of the second one, and so on. -/
def attempts (cs : List Cmd) (rs : Nat → List Int) : List (Buf × Int) :=
  cs.zipIdx.flatMap (fun p => (rs p.2).map (fun x => (p.1.buf.getD [], x)))

/-- The transmission with index `k` is the last one of command `c`: it took the whole frame, and the number of
transmissions so far, `k + 1`, is the number requested or exceeds it by a multiple of 2³² (for `rep 0` it is such a
multiple). -/
def CompletedBy (c : Cmd) (results : List Int) (k : Nat) : Prop :=
  (k + 1) % 2 ^ 32 = c.rep ∧ results[k]? = some ((c.buf.getD []).length : Int)

end Ef.Spec
