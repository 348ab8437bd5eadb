import Verif.Spec.Match

/-! # Specification: when a comparison reads behind the expected frame -/

namespace Ef.Spec

open Ef

/-- There is padding, the received frame has the size of the expected one with its padding, and without a mask or when all
compared bits of the expected frame agree. -/
def Overread (rx expected : Buf) (mask : Option Buf) (n : Nat) : Prop :=
  0 < n ∧ rx.length = expected.length + n ∧ (mask = none ∨ MatchesPadded rx expected mask n)

end Ef.Spec
