import Verif.Spec.Coap
import Verif.Spec.Checksum

/-!
# CoAP messages (RFC 7252 section 3)

Nothing here refers to the model of the code.
-/

namespace Ef.Spec

open Ef

/-- What a CoAP message says. -/
structure CoapMessage where
  type : Nat
  code : Nat
  id : Nat
  token : Buf
  /-- numbers and values of the options -/
  options : List (Nat × Buf)
  payload : Buf
  deriving DecidableEq

/-- The options and the payload; `last` is the number of the option before (0 in front of the first one), `k` a bound for the
number of options. The payload follows the marker 0xff and must not be empty then. -/
def decodeOptions : Nat → Nat → Buf → Option (List (Nat × Buf) × Buf)
  | _, _, [] => some ([], [])
  | 0, _, _ :: _ => none
  | k + 1, last, x :: r =>
    if x = 0xff#8 then if r = [] then none else some ([], r)
    else
      match decodeOption (x :: r) with
      | none => none
      | some (delta, v, rest) =>
        match decodeOptions k (last + delta) rest with
        | none => none
        | some (os, p) => some ((last + delta, v) :: os, p)

/-- The message with the bytes `b`: version 1, token of at most 8 bytes. -/
def decodeMessage (b : Buf) : Option CoapMessage :=
  if 4 ≤ b.length ∧ numAt b 0 2 = 1 ∧ numAt b 4 4 ≤ 8 ∧ 4 + numAt b 4 4 ≤ b.length then
    match decodeOptions b.length 0 (b.drop (4 + numAt b 4 4)) with
    | none => none
    | some (os, p) => some ⟨numAt b 2 2, numAt b 8 8, numAt b 16 16, slice b 4 (numAt b 4 4), os, p⟩
  else none

/-- The sums of the first numbers. -/
def runningSums : Nat → List Nat → List Nat
  | _, [] => []
  | s, n :: ns => (s + n) :: runningSums (s + n) ns

end Ef.Spec
