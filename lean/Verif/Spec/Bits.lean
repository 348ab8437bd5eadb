import Verif.Model.Basic

/-!
# Specification notions: bits and numbers of a byte sequence

Used to state the properties. Nothing here refers to the model of the code.
-/

namespace Ef.Spec

open Ef

/-- Bit `i` of a byte sequence in network order: bit 0 is the most significant bit of the first byte.
Outside the sequence it is `false`. -/
def bit (b : Buf) (i : Nat) : Bool :=
  match b[i / 8]? with
  | some x => x.getLsbD (7 - i % 8)
  | none => false

/-- The number written as these binary digits, most significant first. -/
def bitsNat (bs : List Bool) : Nat := bs.foldl (fun a x => 2 * a + x.toNat) 0

/-- The `w` bits from position `off`. -/
def bitsAt (b : Buf) (off w : Nat) : List Bool := (List.range w).map (fun k => bit b (off + k))

/-- The unsigned number in the `w` bits from position `off`. -/
def numAt (b : Buf) (off w : Nat) : Nat := bitsNat (bitsAt b off w)

/-- The big-endian number denoted by a byte sequence. -/
def beNat (b : Buf) : Nat := b.foldl (fun a x => 256 * a + x.toNat) 0

/-- The big-endian encoding of `n` in `k` bytes (modulo `256 ^ k`). -/
def beBytes : Nat → Nat → Buf
  | 0, _ => []
  | k + 1, n => BitVec.ofNat 8 (n / 256 ^ k) :: beBytes k n

/-- `n` zero bytes. -/
def zeros (n : Nat) : Buf := List.replicate n 0#8

end Ef.Spec
