import Verif.Spec.Checksum

/-!
# Words of the data under a checksum (C130)
-/

namespace Ef.Spec

/-- The number in the two bytes from position `k`, in network byte order. -/
def wordAt (b : Buf) (k : Nat) : Nat := 256 * (b.getD k 0#8).toNat + (b.getD (k + 1) 0#8).toNat

/-- `D` and `E` have the same bytes, except perhaps for the words at the positions `k` and `p`. -/
def AgreeBut (k p : Nat) (D E : Buf) : Prop :=
  E.length = D.length ∧ ∀ j, j ≠ k → j ≠ k + 1 → j ≠ p → j ≠ p + 1 → E[j]? = D[j]?

/-- The two bytes of a number exchanged. -/
def swapped (n : Nat) : Nat := 256 * (n % 256) + n / 256

end Ef.Spec
