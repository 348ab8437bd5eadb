import Verif.Model.Frame

/-!
# Specification: layout of a header

`raw` is the field list as written in the source (explicit bit positions of overlay fields, 0 elsewhere), `fs` the
field list with its final positions.
-/

namespace Ef.Spec

open Ef

/-- The fields declared without an explicit position (with their final positions). -/
def plainFields (raw fs : List Field) : List Field :=
  ((raw.zip fs).filter (fun p => p.1.offset == 0)).map (·.2)

/-- The overlay fields: declared with an explicit position. -/
def overlayFields (raw fs : List Field) : List (Field × Field) :=
  (raw.zip fs).filter (fun p => p.1.offset != 0)

/-- The fields are adjacent, the first one starting at bit `start`, and the last one ends at bit `stop`. -/
def Adjacent : List Field → Nat → Nat → Prop
  | [], start, stop => start = stop
  | f :: fs, start, stop => f.offset = start ∧ Adjacent fs (start + f.width) stop

instance adjacentDec : (fs : List Field) → (a b : Nat) → Decidable (Adjacent fs a b)
  | [], a, b => inferInstanceAs (Decidable (a = b))
  | f :: fs, a, b =>
    have := adjacentDec fs (a + f.width) b
    inferInstanceAs (Decidable (_ ∧ _))

end Ef.Spec
