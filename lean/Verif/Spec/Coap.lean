import Verif.Spec.Bits

/-!
# CoAP notions (RFC 7252)
-/

namespace Ef.Spec

open Ef

/-- The text `c.dd` of a CoAP code. -/
def codeText (c d : Nat) : CStr :=
  [BitVec.ofNat 8 (48 + c), ch!".", BitVec.ofNat 8 (48 + d / 10), BitVec.ofNat 8 (48 + d % 10)]

/-- RFC 7252 section 3.1: value of a delta or length nibble, with the extension bytes at the start of `b`; 15 is
reserved. -/
def extended (nibble : Nat) (b : Buf) : Option (Nat × Buf) :=
  if nibble = 15 then none
  else if nibble = 14 then
    match b with
    | x :: y :: r => some (x.toNat * 256 + y.toNat + 269, r)
    | _ => none
  else if nibble = 13 then
    match b with
    | x :: r => some (x.toNat + 13, r)
    | _ => none
  else some (nibble, b)

/-- RFC 7252 section 3.1: delta and value of the option at the start of the bytes, and what follows it. -/
def decodeOption (b : Buf) : Option (Nat × Buf × Buf) :=
  match b with
  | [] => none
  | x :: r =>
    match extended (x.toNat / 16) r with
    | none => none
    | some (delta, r) =>
      match extended (x.toNat % 16) r with
      | none => none
      | some (len, r) => if len ≤ r.length then some (delta, r.take len, r.drop len) else none

end Ef.Spec
