import Verif.Model.Frame

/-!
# Model of the comparison functions of `src/ef-buf.c` and of the copy functions of `src/ef.c`
-/

namespace Ef

/-- `bclone` (ef-buf.c:29-40): a fresh buffer with the same bytes. Buffers are values, so a clone is the
value itself. -/
def bclone : Option Buf → Option Buf
  | none => none
  | some b => some b

/-- `memcmp(a, b, n) == 0` where both objects have their list length as size; undefined if it would read
outside one of them. -/
def memcmpEq (a b : Buf) (n : Nat) : Out Bool :=
  if n ≤ a.length ∧ n ≤ b.length then .ok (a.take n == b.take n) else .ub .oobRead

/-- `bequal` (ef-buf.c:42-53). -/
def bequal : Option Buf → Option Buf → Out Bool
  | some _, none => .ok false
  | none, some _ => .ok false
  | none, none => .ok true
  | some a, some b => if a.length ≠ b.length then .ok false else memcmpEq a b a.length

/-- Loop of `bequal_mask` (ef-buf.c:75-90) from index `i`, with `n` bytes left. -/
def maskLoop (rx expected mask : Buf) : Nat → Nat → Out Bool
  | 0, _ => .ok true
  | n + 1, i =>
    match rx[i]?, expected[i]? with
    | some a, some b =>
      let m := match mask[i]? with
        | some m => m
        | none => 0xff#8
      if a &&& m ≠ b &&& m then .ok false else maskLoop rx expected mask n (i + 1)
    | _, _ => .ub .oobRead

/-- `bequal_mask` (ef-buf.c:55-91). -/
def bequalMask (rx expected mask : Option Buf) (padding : Int) : Out Bool :=
  match rx, expected with
  | some _, none => .ok false
  | none, some _ => .ok false
  | none, none => .ok true
  | some a, some b =>
    if padding < 0 then .ok false
    else if a.length ≠ b.length + padding.toNat then .ok false
    else
      match mask with
      | none => memcmpEq a b a.length
      | some m => maskLoop a b m a.length 0

/-- `field_copy` (ef.c:56-64). -/
def fieldCopy (src : Field) : Field := { src with val := bclone src.val, dflt := bclone src.dflt }

/-- `hdr_copy` (ef.c:82-98). -/
def hdrCopy (src : Hdr) : Hdr := { src with fields := src.fields.map fieldCopy }

/-- `frame_copy` (ef.c:110-121). -/
def frameCopy (src : Frame) : Frame := { src with stack := src.stack.map hdrCopy }

end Ef
