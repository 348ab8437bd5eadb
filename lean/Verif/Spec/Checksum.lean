import Verif.Spec.Bits

/-!
# Specification of the Internet checksum (RFC 1071)

The data is read as 16 bit big-endian words, an odd last byte is followed by a zero byte. The checksum is the ones'
complement of the ones' complement sum of the words; data including its checksum is valid if its ones' complement
sum is 0xffff.
-/

namespace Ef.Spec

/-- 16 bit big-endian words; an odd last byte is padded with zero. -/
def words : Buf → List Nat
  | [] => []
  | [x] => [256 * x.toNat]
  | x :: y :: rest => (256 * x.toNat + y.toNat) :: words rest

/-- Ones' complement addition on 16 bits: the carry is added at the low end. -/
def onesAdd (a b : Nat) : Nat := if a + b < 65536 then a + b else a + b - 65535

/-- The ones' complement sum of the data. -/
def onesSum (b : Buf) : Nat := (words b).foldl onesAdd 0

/-- The checksum of RFC 1071. -/
def rfc1071 (b : Buf) : Nat := 65535 - onesSum b

/-- Data with a correct checksum in it. -/
def ChecksumValid (b : Buf) : Prop := onesSum b = 65535

instance (b : Buf) : Decidable (ChecksumValid b) := inferInstanceAs (Decidable (_ = _))

/-- Plain sum of the 16 bit words read in the byte order of a little-endian host. -/
def hostSum : Buf → Nat
  | [] => 0
  | [x] => x.toNat
  | x :: y :: rest => x.toNat + 256 * y.toNat + hostSum rest

/-- The sum over the data fits 32 bits, and adding the carries of the 16 bit words once does not carry again. The
checksum function of the code folds the carries only once. -/
def OneFold (b : Buf) : Prop := hostSum b < 2 ^ 32 ∧ hostSum b / 65536 + hostSum b % 65536 < 65536

instance (b : Buf) : Decidable (OneFold b) := inferInstanceAs (Decidable (_ ∧ _))

/-- `b` with the two bytes at position `k` set to zero. -/
def zeroAt (b : Buf) (k : Nat) : Buf := b.take k ++ [0#8, 0#8] ++ b.drop (k + 2)

end Ef.Spec

namespace Ef.Spec

/-- `m` bytes from position `k`. -/
def slice (b : Buf) (k m : Nat) : Buf := (b.drop k).take m

/-- Pseudo header of UDP and TCP over IPv4 (RFC 768, RFC 793): addresses, zero, protocol, length. -/
def pseudo4 (src dst : Buf) (proto len : Nat) : Buf := src ++ dst ++ [0#8, BitVec.ofNat 8 proto] ++ beBytes 2 len

/-- Pseudo header over IPv6 (RFC 8200, 8.1): addresses, length, zero, next header. -/
def pseudo6 (src dst : Buf) (next len : Nat) : Buf :=
  src ++ dst ++ beBytes 4 len ++ [0#8, 0#8, 0#8, BitVec.ofNat 8 next]

/-- The data, whose checksum word is at position `k`, verifies exactly if the sum of the data without the checksum
needs only one fold (or, beyond 128 KiB, if it needs only one fold then it verifies). -/
def ValidIffOneFold (b : Buf) (k : Nat) : Prop :=
  (OneFold (zeroAt b k) → ChecksumValid b) ∧ (hostSum (zeroAt b k) < 2 ^ 32 → ChecksumValid b → OneFold (zeroAt b k))

end Ef.Spec
