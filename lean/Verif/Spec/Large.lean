import Verif.Spec.Bits

/-! # Payloads of any size -/

namespace Ef.Spec

/-- The frame that consists of the payload `d`: at least 60 bytes. -/
def payloadFrame (d : Buf) : Buf := d ++ zeros (60 - d.length)

/-- What is made of a frame of a payload `d` of less than 2³² bytes. Its size is taken as a signed number,
and of its bits only the number modulo 2³² is kept, again signed. With `k` the number of bytes modulo 2²⁹:

* below 2²⁸ only the last `k` bytes are sent, at the beginning of the frame, if they fit;
* for 2²⁸ the computation overflows (`none`);
* for 2²⁹ − 1 an assertion fails;
* for all others the frame consists of zeros. -/
def payloadSent (d : Buf) : Option (Out Buf) :=
  let k := d.length % 2 ^ 29
  let m := if d.length < 2 ^ 31 then max d.length 60 else 60
  if k = 2 ^ 28 then none
  else if k = 2 ^ 29 - 1 then some .abort
  else if k < 2 ^ 28 ∧ k ≤ m then some (.ok (d.drop (d.length - k) ++ zeros (m - k)))
  else some (.ok (zeros m))

end Ef.Spec
