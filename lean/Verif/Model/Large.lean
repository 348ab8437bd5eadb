import Verif.Model.Fill

/-!
# The numbers of a frame in the types of the program

`bit_width` and `bit_offset` of a field are of type `int` (ef.h:120-121), the size of a header is an
`uint32_t` (ef.h:137), the size of a frame is an `int` (ef.c:469, 498) and `hdr_write_field` takes its offset
as an `int` (ef.c:244), all of 32 bits. `size_t` has 64 bits. `Model/Frame.lean` and `Model/Fill.lean` count
with natural numbers. Here the same functions count as the program does: from the headers, with their
defaults filled in, to the bytes.

A result `none` is an `int` that overflows, which has no meaning in C.

Simplification: memory for the frame is always found.
-/

namespace Ef

/-- One computation after the other. -/
def thenI {α β : Type} (r : Option (Out α)) (k : α → Option (Out β)) : Option (Out β) :=
  match r with
  | some (.ok a) => k a
  | some (.ub u) => some (.ub u)
  | some .abort => some .abort
  | some (.exit n) => some (.exit n)
  | none => none

/-- Conversion of a number to `int`, which wraps (`hdr->fields[0].bit_width = b->size * 8`, ef-payload.c:16). -/
def toI32 (n : Nat) : Int := (n : Int).bmod (2 ^ 32)

/-- A number of type `int`. -/
def isI32 (x : Int) : Bool := decide (-(2 ^ 31) ≤ x) && decide (x < 2 ^ 31)

/-- Conversion to `size_t`. -/
def toSize (x : Int) : Nat := (x % (2 ^ 64)).toNat

/-- `BIT_TO_BYTE` (ef.h:16-17) of an `int`: the division truncates. -/
def bitToByteI (w : Int) : Int := 1 + (w - 1).tdiv 8

/-- `hdr_write_field` (ef.c:244-280) for a field of width `w` at `o`. `offset * 8`, and in the loop
`f->bit_offset + pos + (8 * offset)`, are computed as `int`; the comparison and `bits_to_1st_valid` as
`size_t`. -/
def writeFieldI (b : Buf) (offset : Nat) (w o : Int) (val : Buf) : Option (Out Buf) :=
  let j := toI32 offset
  if !isI32 (8 * j) then none
  else if 8 * b.length ≥ toSize (w + o + 8 * j) then
    if w ≤ 0 then some (.ok b)
    else if !isI32 (o + (w - 1)) || !isI32 (o + (w - 1) + 8 * j) then none
    else if o + 8 * j < 0 then some .abort
    else some (writeLoop val (o + 8 * j).toNat (toSize (8 * val.length - w)) w.toNat 0 b)
  else some .abort

/-- The value written for a field (ef.c:425-444). A negative width asks for more memory than there is and
`memset` gets a null pointer. -/
def copyValueI (mask : Bool) (f : Field) : Out (Option Buf) :=
  if mask then
    if f.rxSkip then .ok none
    else if bitToByteI (toI32 f.width) < 0 then .ub .nullDeref
    else .ok (some (List.replicate (bitToByteI (toI32 f.width)).toNat 0xff#8))
  else
    match f.val with
    | some v => .ok (some v)
    | none => .ok f.dflt

/-- One turn of the loop of `hdr_copy_to_buf_` (ef.c:418-451): whether it returns, and the buffer. -/
def copyFieldI (mask : Bool) (offset : Nat) (f : Field) (b : Buf) : Option (Out (Bool × Buf)) :=
  if !isI32 (toI32 f.width - 1) then none
  else if toSize (bitToByteI (toI32 f.width) + offset) > b.length then some (.ok (true, b))
  else
    thenI (some (copyValueI mask f)) fun
      | some v => thenI (writeFieldI b offset (toI32 f.width) (toI32 f.offset) v) fun b => some (.ok (false, b))
      | none => some (.ok (false, b))

/-- Loop of `hdr_copy_to_buf_` (ef.c:418-451). -/
def copyFieldsI (mask : Bool) (offset : Nat) : List Field → Buf → Option (Out Buf)
  | [], b => some (.ok b)
  | f :: fs, b =>
    thenI (copyFieldI mask offset f b) fun p => if p.1 then some (.ok p.2) else copyFieldsI mask offset fs p.2

/-- All headers (ef.c:486-489, 516-519); the size of each is an `uint32_t`, the offset a `size_t`. -/
def copyHdrsI (mask : Bool) : List Hdr → Nat → Buf → Option (Out Buf)
  | [], _, b => some (.ok b)
  | h :: hs, offset, b =>
    thenI (copyFieldsI mask offset h.fields b) fun b => copyHdrsI mask hs (offset + h.size % 2 ^ 32) b

/-- `frame_size` before the comparison with 60 (ef.c:476-479, 504-507): the sum is taken as `uint32_t` and
stored in an `int`. -/
def sumSizesI (hs : List Hdr) : Int := toI32 (sumSizes hs)

/-- `frame_size` (ef.c:481-482, 510-511). -/
def frameSizeI (hs : List Hdr) : Int := if sumSizesI hs < 60 then 60 else sumSizesI hs

/-- `frame_to_buf` behind the filling of the defaults (ef.c:475-492). -/
def renderI (hs : List Hdr) : Option (Out Buf) := copyHdrsI false hs 0 (balloc (frameSizeI hs).toNat)

/-- `frame_mask_to_buf` (ef.c:494-522). With a negative size `memset` starts before the buffer. -/
def renderMaskI (hs : List Hdr) : Option (Out Buf) :=
  if sumSizesI hs < 0 then some (.ub .oobWrite)
  else copyHdrsI true hs 0
    (balloc (sumSizesI hs).toNat ++ List.replicate ((frameSizeI hs).toNat - (sumSizesI hs).toNat) 0xff#8)

end Ef
