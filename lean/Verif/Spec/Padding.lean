import Verif.Spec.Command
import Verif.Spec.Frame

/-!
# Specification: what `padding` does to the header before it
-/

namespace Ef.Spec

open Ef

/-- The field with which a header announces the header behind it, and its bytes. -/
def announcement (name : CStr) : Option (CStr × Nat) :=
  if name ∈ [c!"eth", c!"ctag", c!"stag", c!"rtag", c!"htag"] then some (c!"et", 2)
  else if name = c!"ipv4" then some (c!"proto", 1)
  else if name = c!"ipv6" then some (c!"next", 1)
  else none

/-- The field gets `k` zero bytes. -/
def zeroField (n : CStr) (k : Nat) : List Field → List Field
  | [] => []
  | g :: gs => if g.name = n then { g with val := some (List.replicate k 0#8) } :: gs else g :: zeroField n k gs

/-- The header announces 0, unless the announcement was given. -/
def announceZero (h : Hdr) : Hdr :=
  match announcement h.name with
  | none => h
  | some (n, k) => if given h n = none then { h with fields := zeroField n k h.fields } else h

/-- The last header of the frame announces 0. -/
def zeroLast : List Hdr → List Hdr
  | [] => []
  | [h] => [announceZero h]
  | h :: hs => h :: zeroLast hs

/-- The bytes and the mask of a frame. -/
def Gives (f0 : Frame) (b : Buf) (m : Option Buf) : Prop :=
  ∃ f, frameToBuf f0 = .ok (f, b) ∧
    ((f.hasMask = false ∧ m = none) ∨ (f.hasMask = true ∧ ∃ x, m = some x ∧ frameMaskToBuf f = .ok x))

end Ef.Spec
