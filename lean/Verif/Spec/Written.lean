import Verif.Spec.Frame

/-!
# Specification: the written bits of a frame
-/

namespace Ef.Spec

open Ef

/-- Position and width, in bits, and value of all fields of the headers `hs` that have a value; the first header begins
with byte `start`. -/
def writtenFields : Nat → List Hdr → List (Nat × Nat × Buf)
  | _, [] => []
  | start, h :: hs =>
    h.fields.filterMap (fun g => (fieldValue g).map (fun v => (8 * start + g.offset, g.width, v))) ++
      writtenFields (start + h.size) hs

/-- Bit `i` of a frame with the given fields: the last field at this place decides, and it shows the last bits of its
value. Without any field the bit is `z`. -/
def writtenBit (z : Bool) (ps : List (Nat × Nat × Buf)) (i : Nat) : Bool :=
  ps.foldl (fun z p => if p.1 ≤ i ∧ i < p.1 + p.2.1 then bit p.2.2 (8 * p.2.2.length - p.2.1 + (i - p.1)) else z) z

/-- No field with a value reaches behind the end of the frame. -/
def WrittenInside (hs : List Hdr) : Prop := ∀ p ∈ writtenFields 0 hs, p.1 + p.2.1 ≤ 8 * max 60 (totalSize hs)

instance (hs : List Hdr) : Decidable (WrittenInside hs) := inferInstanceAs (Decidable (∀ _ ∈ _, _))

end Ef.Spec
