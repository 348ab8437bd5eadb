import Verif.Spec.Help
import Verif.Spec.Value

/-!
# Specification: words that are rejected without a message
-/

namespace Ef.Spec

open Ef

/-- A text for which there is neither a value of `n` bytes nor a message. -/
def MuteText (n : Nat) (s : CStr) : Prop := (¬ ∃ v, Value n s v) ∧ ¬ AddressLike n s

/-- Words that start like a payload segment but are incomplete or contain a text without value. -/
inductive MuteSegment : List CStr → Prop
  | missing1 {w : CStr} : w = c!"hex" ∨ w = c!"ascii" ∨ w = c!"ascii0" → MuteSegment [w]
  | missing2 {w : CStr} {ws : List CStr} : w = c!"repeat" ∨ w = c!"pattern" → ws.length ≤ 1 → MuteSegment (w :: ws)
  | count {cnt val : CStr} {ws : List CStr} : MuteText 4 cnt → MuteSegment (c!"repeat" :: cnt :: val :: ws)
  | value {cnt val : CStr} {ws : List CStr} : (∃ v, Value 4 cnt v) → (¬ ∃ v, Value 1 val v) → MuteSegment (c!"repeat" :: cnt :: val :: ws)
  | length {pat len : CStr} {ws : List CStr} : MuteText 4 len → MuteSegment (c!"pattern" :: pat :: len :: ws)
  | pattern {pat len : CStr} {ws : List CStr} : (∃ v, Value 4 len v) → pat ≠ c!"cnt" → pat ≠ c!"zero" → pat ≠ c!"ones" →
      MuteSegment (c!"pattern" :: pat :: len :: ws)

/-- A payload with such a segment, or a padding without a number. -/
inductive Mute : List CStr → Prop
  | data {ws tail : List CStr} : MuteSegment tail → Mute (c!"data" :: (ws ++ tail))
  | missing : Mute [c!"padding"]
  | padding {w : CStr} {ws : List CStr} : MuteText 4 w → Mute (c!"padding" :: w :: ws)

end Ef.Spec
