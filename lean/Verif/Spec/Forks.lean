import Verif.Model.Forks

/-!
# Specification: processes of the tool
-/

namespace Ef.Spec

open Ef

/-- The process that took these sides in `n` calls of `fork` exists and executes the commands: whenever it was a child,
its `execl` failed. -/
def GoesOn (ask : List Bool → Int × Bool) (n : Nat) (path : List Bool) : Prop :=
  path.length = n ∧ ∀ k, path[k]? = some true → 0 < (ask (path.take k)).1 ∧ (ask (path.take k)).2 = false

end Ef.Spec
