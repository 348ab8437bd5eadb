import Verif.Spec.Bits

/-! # Specification: when a received frame matches an expectation -/

namespace Ef.Spec

open Ef

/-- Is bit `i` compared? Without a mask every bit is; a mask that is too short only covers its own length. -/
def compared (mask : Option Buf) (i : Nat) : Prop :=
  match mask with
  | none => True
  | some m => i < 8 * m.length → bit m i = true

/-- Same length, and equal on all compared bits. -/
def Matches (rx expected : Buf) (mask : Option Buf) : Prop :=
  rx.length = expected.length ∧ ∀ i, compared mask i → bit rx i = bit expected i

/-- Same as `Matches` with `n` arbitrary trailing bytes in the received frame. -/
def MatchesPadded (rx expected : Buf) (mask : Option Buf) (n : Nat) : Prop :=
  ∃ core trailer, rx = core ++ trailer ∧ trailer.length = n ∧ Matches core expected mask

end Ef.Spec
