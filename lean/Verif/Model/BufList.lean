import Verif.Model.Frame

/-!
# Lists of buffers and dumps (ef-buf.c:93-170, 195-273; ef.c:9-20)

These functions are part of the interface (ef.h) but, except for `bprintf`, not used by the tool itself.

* A chain of elements is the list of their buffers, `[]` is NULL. Simplification: an element belongs to one chain only.
* A call with a format and arguments is given by the text it formats to. `vsnprintf` does not fail, memory is not exhausted.
-/

namespace Ef

/-- `buf_list_element_t *` (ef.h:34-37). -/
abbrev Chain := List Buf

/-- `ble_alloc` (ef-buf.c:103-116). -/
def bleAlloc (n : Nat) : Chain := [balloc n]

/-- `ble_tail` (ef-buf.c:118-123): the buffer of the last element. -/
def bleTail (c : Chain) : Out Buf :=
  match c.getLast? with
  | none => .ub .nullDeref
  | some b => .ok b

/-- `ble_append` (ef-buf.c:125-129): the chain afterwards. -/
def bleAppend (head e : Chain) : Out Chain := do
  let _ ← bleTail head
  .ok (head ++ e)

/-- `ble_append_buf` (ef-buf.c:131-141): a copy of the buffer is appended. -/
def bleAppendBuf (head : Chain) (e : Buf) : Out Chain := bleAppend head (bleAlloc e.length |>.map (fun _ => e))

/-- `buf_list_t` (ef.h:48-52). -/
structure BufList where
  size : Nat := 0
  capacity : Nat := 0
  head : Chain := []
  deriving DecidableEq

/-- `assert` (with `NDEBUG` it does nothing). -/
def assertC (ndebug : Bool) (p : Bool) : Out Unit := if ndebug || p then .ok () else .abort

/-- `bl_check` (ef-buf.c:148-175). The last assertion is `assert(0)`. With `NDEBUG` the call of `ble_tail` inside of the
assertion is gone, too. -/
def blCheck (ndebug : Bool) (b : BufList) : Out Unit := do
  assertC ndebug (b.capacity ≥ b.size)
  assertC ndebug ((b.head.map List.length).sum = b.capacity)
  if b.capacity > b.size ∧ ndebug = false then
    let t ← bleTail b.head
    assertC ndebug (b.capacity - b.size < t.length)
  assertC ndebug false

/-- `vsnprintf(area, n, ...)` for the text `t`: the text, cut to `n - 1` characters, and a terminating zero. -/
def snprintfTo (t : CStr) (n : Nat) (area : Buf) : Buf :=
  if n = 0 then area else t.take (n - 1) ++ 0#8 :: area.drop ((t.take (n - 1)).length + 1)

/-- `bl_printf_append` (ef-buf.c:195-245). The new element is not linked to the list. -/
def blPrintfAppend (ndebug : Bool) (b : BufList) (t : CStr) : Out (Nat × BufList) := do
  blCheck ndebug b
  let free := (b.capacity + 2 ^ 64 - b.size) % 2 ^ 64
  let head ←
    if free = 0 then .ok b.head
    else do
      let tail ← bleTail b.head
      if tail.length < free then .ub .oobWrite
      else .ok (b.head.dropLast ++ [tail.take (tail.length - free) ++ snprintfTo t free (tail.drop (tail.length - free))])
  if t.length ≤ free then do
    let b' := { b with size := b.size + t.length, head := head }
    blCheck ndebug b'
    .ok (t.length, b')
  else do
    let alloc := if t.length > 4096 then t.length else 4096
    let new := snprintfTo t alloc (balloc alloc)
    let head' :=
      if free = 0 then head
      else
        match head.getLast? with
        | none => head
        | some tail => head.dropLast ++ [tail.take (tail.length - free) ++ new.take free]
    let b' := { size := b.size + t.length, capacity := b.capacity + alloc, head := head' }
    blCheck ndebug b'
    .ok (t.length, b')

/-- Several calls of `bl_printf_append`. -/
def blPrintfs (ndebug : Bool) : BufList → List CStr → Out BufList
  | b, [] => .ok b
  | b, t :: ts => do
    let (_, b') ← blPrintfAppend ndebug b t
    blPrintfs ndebug b' ts

/-- `bprintf` (ef-buf.c:254-273). -/
def bprintf (t : CStr) : Buf := snprintfTo t (t.length + 1) (balloc (t.length + 1))

/-- `%08tx` (a position inside of a buffer, so below 2^31): at least 8 lower-case digits. -/
def hex08 (n : Nat) : CStr := (List.range 8).map (fun i => hexChar (n / 16 ^ (7 - i) % 16))

/-- `hexdump` (ef.c:9-20) from position `pos` on; `fuel` bounds the lines. -/
def hexdumpFrom : Nat → Nat → Buf → CStr
  | 0, _, _ => []
  | fuel + 1, pos, d =>
    if d = [] then []
    else hex08 pos ++ c!": " ++ (d.take 16).flatMap (fun b => [hexChar (b.toNat / 16), hexChar (b.toNat % 16), ch!" "]) ++ c!"\n" ++
      hexdumpFrom fuel (pos + 16) (d.drop 16)

/-- `hexdump` (ef.c:9-20) of a buffer of less than 2^31 bytes. -/
def hexdump (d : Buf) : CStr := hexdumpFrom d.length 0 d

end Ef
