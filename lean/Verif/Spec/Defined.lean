import Verif.Spec.Safe

/-!
# Specification: no undefined behaviour
-/

namespace Ef.Spec

open Ef

/-- Everything but an undefined operation: a result, a failed assertion or a call of `exit`. -/
def Defined {α : Type} (o : Out α) : Prop := ∀ u, o ≠ .ub u

/-- Conditions on the words alone: no literal too long for its field, CoAP payload well-formed, something behind `tx IF`
and `tx IF rep`. -/
structure Plain (argv : List CStr) : Prop where
  words : SafeWords argv
  tx : ∀ a, ¬ [c!"tx", a] <:+ argv
  rep : ∀ a r, r = c!"rep" ∨ r = c!"repeat" → ¬ [c!"tx", a, r] <:+ argv

end Ef.Spec
