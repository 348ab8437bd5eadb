import Verif.Spec.Frame

/-!
# Specification: the compared bits of a frame
-/

namespace Ef.Spec

open Ef

/-- Position and width, in bits, of all fields of the headers `hs` that are not ignored; the first header begins with
byte `start`. -/
def comparedFields : Nat → List Hdr → List (Nat × Nat)
  | _, [] => []
  | start, h :: hs =>
    (h.fields.filter (fun g => !g.rxSkip)).map (fun g => (8 * start + g.offset, g.width)) ++ comparedFields (start + h.size) hs

/-- Bit `i` of the frame is compared: it belongs to the padding after the last header or to a field that is not
ignored. -/
def IsCompared (hs : List Hdr) (i : Nat) : Prop := 8 * totalSize hs ≤ i ∨ ∃ p ∈ comparedFields 0 hs, p.1 ≤ i ∧ i < p.1 + p.2

instance (hs : List Hdr) (i : Nat) : Decidable (IsCompared hs i) := inferInstanceAs (Decidable (_ ∨ _))

/-- No compared field reaches behind the end of the frame. -/
def ComparedInside (hs : List Hdr) : Prop := ∀ p ∈ comparedFields 0 hs, p.1 + p.2 ≤ 8 * max 60 (totalSize hs)

instance (hs : List Hdr) : Decidable (ComparedInside hs) := inferInstanceAs (Decidable (∀ _ ∈ _, _))

end Ef.Spec
