import Verif.Model.Main

/-!
# The memory of the tool: allocations, pointers, releases

In the other modules buffers, headers and frames are values. Here the same code is modelled a second time with the
blocks it gets from `malloc`/`calloc`/`strdup` and gives back with `free`. A pointer is the number of a block, the
heap knows which blocks are live. Reading through a pointer (`use`) and releasing it (`free`) are recorded as bad
when the block is not live. Block numbers are never used again, so a pointer to a released block stays detectable.
The bytes of a buffer are kept with its only pointer instead of in the heap.

Not modelled: exhaustion of memory; the receive buffer of ef-exec.c:187, which is released at the end of the same
loop iteration (ef-exec.c:274); blocks of the C library itself. Reads of `main loop` of `exec_cmds` are one `use` of
every block of every command (`useCmds`), since nothing is released between the beginning and the end of it.
-/

namespace Ef

/-- Number of a block. -/
abbrev Ptr := Nat

/-- Where the code drops the last pointer to a block that is not released (bookkeeping of the model). -/
inductive Loss where
  /-- a value in hex digits that is too long for its field (ef-parse-bytes.c:582-585, ef-coap.c:65-67) -/
  | refused
  /-- the command line is not accepted (ef-args.c:289-298) -/
  | parseError
  /-- an option that ends the run after `-c` options (ef-args.c:335-356) -/
  | option
  /-- default values that are not released at the end of the process -/
  | defaults
  /-- the run has not ended -/
  | running
  deriving DecidableEq, Repr

/-- The heap. -/
structure Heap where
  /-- the next block number -/
  next : Ptr := 0
  /-- blocks that are allocated -/
  live : List Ptr := []
  /-- blocks the code drops its last pointer to without releasing them (bookkeeping of the model) -/
  lost : List (Ptr × Loss) := []
  /-- a block that is not live was used or released -/
  bad : Bool := false

/-- A computation on the heap. The heap is also there when the computation does not end normally. -/
def Mem (α : Type) := Heap → Out α × Heap

namespace Mem

/-- Sequencing. -/
def bind {α β : Type} (m : Mem α) (k : α → Mem β) : Mem β := fun hp =>
  match m hp with
  | (.ok a, hp') => k a hp'
  | (.ub u, hp') => (.ub u, hp')
  | (.abort, hp') => (.abort, hp')
  | (.exit c, hp') => (.exit c, hp')

instance : Monad Mem where
  pure a := fun hp => (.ok a, hp)
  bind := bind

end Mem

/-- A computation that does not touch the heap. -/
def lift {α : Type} (o : Out α) : Mem α := fun hp => (o, hp)

/-- `malloc`, `calloc`, `strdup`. -/
def alloc : Mem Ptr := fun hp => (.ok hp.next, { hp with next := hp.next + 1, live := hp.next :: hp.live })

/-- `free(p)` for a pointer that is not NULL. -/
def free (p : Ptr) : Mem Unit := fun hp =>
  (.ok (), if p ∈ hp.live then { hp with live := hp.live.erase p } else { hp with bad := true })

/-- Access to the block `p`. -/
def use (p : Ptr) : Mem Unit := fun hp => (.ok (), if p ∈ hp.live then hp else { hp with bad := true })

/-- Bookkeeping: here the code forgets the pointer `p`. -/
def lose (why : Loss) (p : Ptr) : Mem Unit := fun hp => (.ok (), { hp with lost := (p, why) :: hp.lost })

/-- Several blocks. -/
def useAll : List Ptr → Mem Unit
  | [] => pure ()
  | p :: ps => do use p; useAll ps

/-- Several blocks. -/
def freeAll : List Ptr → Mem Unit
  | [] => pure ()
  | p :: ps => do free p; freeAll ps

/-- Several blocks. -/
def loseAll (why : Loss) : List Ptr → Mem Unit
  | [] => pure ()
  | p :: ps => do lose why p; loseAll why ps

/-! ## Structures with pointers -/

/-- A `buf_t *` or `char *` that is not NULL: its block and the bytes there (`balloc` makes one block of the
structure and the bytes, ef-buf.c:14-27). -/
structure PBuf where
  ptr : Ptr
  data : Buf

/-- `field_t`; the members `dflt` and `val` of `base` do not count. -/
structure PField where
  base : Field
  dflt : Option PBuf
  val : Option PBuf

/-- `hdr_t`; the member `fields` of `base` does not count. `self` is the block of the structure (`none` for the
static headers), `arr` the block of the array of fields. -/
structure PHdr where
  self : Option Ptr
  arr : Option Ptr
  base : Hdr
  fields : List PField

/-- `frame_t`; the member `stack` of `base` does not count. -/
structure PFrame where
  self : Ptr
  base : Frame
  stack : List PHdr

/-- `cmd_t`; the pointer members of `base` do not count. Commands are elements of an array on the stack. -/
structure PCmd where
  base : Cmd
  name : Option PBuf
  arg0 : Option PBuf
  frame : Option PFrame
  buf : Option PBuf
  mask : Option PBuf

/-- `capture_t`. -/
structure PCapture where
  self : Ptr
  cmd : PBuf

/-- The static headers after start-up: `hdr_tmpls` and the pseudo headers of ef-udp.c. -/
structure PTmpls where
  tmpls : List PHdr
  pseudo4 : PHdr
  pseudo6 : PHdr

/-! ### The values without the pointers -/

/-- The field as a value. -/
def PField.erase (f : PField) : Field := { f.base with dflt := f.dflt.map (·.data), val := f.val.map (·.data) }

/-- The header as a value. -/
def PHdr.erase (h : PHdr) : Hdr := { h.base with fields := h.fields.map PField.erase }

/-- The frame as a value. -/
def PFrame.erase (f : PFrame) : Frame := { f.base with stack := f.stack.map PHdr.erase }

/-- The command as a value. -/
def PCmd.erase (c : PCmd) : Cmd :=
  { c.base with
    name := c.name.map (·.data), arg0 := c.arg0.map (·.data), frame := c.frame.map PFrame.erase,
    buf := c.buf.map (·.data), mask := c.mask.map (·.data) }

/-! ### The blocks that belong to a structure -/

/-- Blocks of a pointer to a buffer. -/
def ownBuf : Option PBuf → List Ptr
  | none => []
  | some b => [b.ptr]

/-- Blocks of a field. -/
def PField.own (f : PField) : List Ptr := ownBuf f.dflt ++ ownBuf f.val

/-- Blocks of fields. -/
def ownFields : List PField → List Ptr
  | [] => []
  | f :: fs => f.own ++ ownFields fs

/-- Blocks of a header. -/
def PHdr.own (h : PHdr) : List Ptr := h.self.toList ++ h.arr.toList ++ ownFields h.fields

/-- Blocks of headers. -/
def ownHdrs : List PHdr → List Ptr
  | [] => []
  | h :: hs => h.own ++ ownHdrs hs

/-- Blocks of a frame. -/
def PFrame.own (f : PFrame) : List Ptr := f.self :: ownHdrs f.stack

/-- Blocks of a pointer to a frame. -/
def ownFrame : Option PFrame → List Ptr
  | none => []
  | some f => f.own

/-- Blocks of a command. -/
def PCmd.own (c : PCmd) : List Ptr :=
  ownBuf c.name ++ ownBuf c.arg0 ++ ownFrame c.frame ++ ownBuf c.buf ++ ownBuf c.mask

/-- Blocks of commands. -/
def ownCmds : List PCmd → List Ptr
  | [] => []
  | c :: cs => c.own ++ ownCmds cs

/-- Blocks of the captures. -/
def ownCaps : List PCapture → List Ptr
  | [] => []
  | c :: cs => c.self :: c.cmd.ptr :: ownCaps cs

/-- Blocks of the static headers. -/
def PTmpls.own (t : PTmpls) : List Ptr := ownHdrs t.tmpls ++ t.pseudo4.own ++ t.pseudo6.own

/-! ## Buffers (ef-buf.c) -/

/-- `balloc` (ef-buf.c:14-27) with what is written to it before anything else happens. -/
def ballocM (b : Buf) : Mem PBuf := do
  let p ← alloc
  pure ⟨p, b⟩

/-- A function that returns NULL or a buffer allocated by it. -/
def newBuf : Option Buf → Mem (Option PBuf)
  | none => pure none
  | some b => do
    let b ← ballocM b
    pure (some b)

/-- `bfree` (ef-buf.c:7-12). -/
def bfreeM : Option PBuf → Mem Unit
  | none => pure ()
  | some b => free b.ptr

/-- `bclone` (ef-buf.c:29-40). -/
def bcloneM : Option PBuf → Mem (Option PBuf)
  | none => pure none
  | some b => do
    use b.ptr
    let c ← ballocM b.data
    pure (some c)

/-! ## Fields, headers, frames (ef.c) -/

/-- `find_field` (ef.c:192-200). -/
def PHdr.find (h : PHdr) (name : CStr) : Option PField := h.fields.find? (fun f => f.base.name == name)

/-- Use of `*find_field(h, name)`. -/
def getFieldM (h : PHdr) (name : CStr) : Mem PField :=
  match h.find name with
  | some f => pure f
  | none => lift (.ub .nullDeref)

/-- Modification of `*find_field(h, name)`. -/
def PHdr.upd (h : PHdr) (name : CStr) (g : PField → PField) : PHdr :=
  { h with fields := updFirst (fun f => f.base.name == name) g h.fields }

/-- `find_field(h, name)->val = v`. -/
def PHdr.setVal (h : PHdr) (name : CStr) (v : Option PBuf) : PHdr := h.upd name (fun f => { f with val := v })

/-- `find_field(h, name)->val = v`, undefined if there is no such field. -/
def setValM (h : PHdr) (name : CStr) (v : Option PBuf) : Mem PHdr :=
  match h.find name with
  | some _ => pure (h.setVal name v)
  | none => lift (.ub .nullDeref)

/-- `rx_match_skip` of a field. -/
def PField.skip (s : Bool) (f : PField) : PField := { f with base := { f.base with rxSkip := s } }

/-- `bit_width` of a field. -/
def PField.width (w : Nat) (f : PField) : PField := { f with base := { f.base with width := w } }

/-- `bit_offset` of a field. -/
def PField.offset (o : Nat) (f : PField) : PField := { f with base := { f.base with offset := o } }

/-- `hdr->size = n`. -/
def PHdr.size (n : Nat) (h : PHdr) : PHdr := { h with base := { h.base with size := n } }

/-- `field_destruct` of all fields (ef.c:43-54, 70-72). -/
def fieldsFreeM : List PField → Mem Unit
  | [] => pure ()
  | f :: fs => do
    bfreeM f.dflt
    bfreeM f.val
    fieldsFreeM fs

/-- `hdr_free`: `hdr_destruct` (ef.c:66-80), then `free` (ef.c:33-40). -/
def hdrFreeM (h : PHdr) : Mem Unit := do
  useAll (h.self.toList ++ h.arr.toList)
  fieldsFreeM h.fields
  freeAll h.arr.toList
  freeAll h.self.toList

/-- `frame_destruct` (ef.c:100-108). -/
def hdrsFreeM : List PHdr → Mem Unit
  | [] => pure ()
  | h :: hs => do
    hdrFreeM h
    hdrsFreeM hs

/-- `frame_free`. -/
def frameFreeM (f : PFrame) : Mem Unit := do
  use f.self
  hdrsFreeM f.stack
  free f.self

/-- The loop of `hdr_copy` with `field_copy` (ef.c:90-93, 56-64). -/
def fieldsCopyM : List PField → Mem (List PField)
  | [] => pure []
  | f :: fs => do
    let v ← bcloneM f.val
    let d ← bcloneM f.dflt
    let fs' ← fieldsCopyM fs
    pure ({ f with val := v, dflt := d } :: fs')

/-- `hdr_clone`: `calloc` (ef.h:86-99), `hdr_copy` (ef.c:82-98). -/
def hdrCloneM (src : PHdr) : Mem PHdr := do
  useAll src.self.toList
  let self ← alloc
  let arr ← (if src.fields = [] then pure none else do let a ← alloc; pure (some a))
  useAll src.arr.toList
  let fs ← fieldsCopyM src.fields
  pure ⟨some self, arr, src.base, fs⟩

/-- The loop of `frame_copy` (ef.c:114-118). -/
def hdrsCloneM : List PHdr → Mem (List PHdr)
  | [] => pure []
  | h :: hs => do
    let h' ← hdrCloneM h
    let hs' ← hdrsCloneM hs
    pure (h' :: hs')

/-- `frame_clone`. -/
def frameCloneM (src : PFrame) : Mem PFrame := do
  use src.self
  let self ← alloc
  let st ← hdrsCloneM src.stack
  pure ⟨self, src.base, st⟩

/-- `frame_clone` of a pointer that may be NULL (ef-exec.c:332). `frame_copy` would read through it. -/
def frameCloneOptM : Option PFrame → Mem (Option PFrame)
  | none => pure none
  | some f => do
    let f' ← frameCloneM f
    pure (some f')

/-- The loop of `hdr_copy_to_buf_` (ef.c:418-451) into the buffer `b`. -/
def copyFieldsM (mask : Bool) (offset : Nat) : List PField → PBuf → Mem PBuf
  | [], b => pure b
  | f :: fs, b => do
    use b.ptr
    if bitToByte f.base.width + offset > b.data.length then pure b
    else if mask then
      if f.base.rxSkip then copyFieldsM mask offset fs b
      else do
        let m ← ballocM (List.replicate (bitToByte f.base.width) 0xff#8)
        let d ← lift (writeField b.data offset f.base m.data)
        free m.ptr
        copyFieldsM mask offset fs ⟨b.ptr, d⟩
    else
      match f.val with
      | some v => do
        use v.ptr
        let d ← lift (writeField b.data offset f.base v.data)
        copyFieldsM mask offset fs ⟨b.ptr, d⟩
      | none =>
        match f.dflt with
        | some v => do
          use v.ptr
          let d ← lift (writeField b.data offset f.base v.data)
          copyFieldsM mask offset fs ⟨b.ptr, d⟩
        | none => copyFieldsM mask offset fs b

/-- `hdr_copy_to_buf`, `hdr_copy_to_buf_mask` (ef.c:411-462). -/
def copyHdrM (mask : Bool) (h : PHdr) (offset : Nat) (b : PBuf) : Mem PBuf := do
  useAll (h.self.toList ++ h.arr.toList)
  copyFieldsM mask offset h.fields b

/-- Copy of all headers. -/
def copyHdrsM (mask : Bool) : List PHdr → Nat → PBuf → Mem PBuf
  | [], _, b => pure b
  | h :: hs, offset, b => do
    let b ← copyHdrM mask h offset b
    copyHdrsM mask hs (offset + h.base.size) b

/-- Sum of the header sizes. -/
def sumSizesP : List PHdr → Nat
  | [] => 0
  | h :: hs => h.base.size + sumSizesP hs

/-! ## Parsers of values (ef-parse-bytes.c) -/

/-- `parse_bytes` (ef-parse-bytes.c:194-482): every `balloc` in it is followed by the return of this buffer. -/
def parseBytesM (s : CStr) (n : Nat) : Mem (Option PBuf) := do
  let v ← lift (parseBytes s n)
  newBuf v

/-- `parse_var_bytes_hex` (ef-parse-bytes.c:484-564). -/
def parseVarBytesHexM (s : CStr) (n : Nat) : Mem (Option PBuf) := do
  let v ← lift (parseVarBytesHex s n)
  newBuf v

/-- `parse_field_hex` (ef-parse-bytes.c:566-592). A text that is too long makes it return without releasing the two
buffers (ef-parse-bytes.c:582-585). -/
def parseFieldHexM (s : CStr) (bytes : Nat) : Mem (Option PBuf) := do
  let r ← ballocM (balloc bytes)
  match ← parseVarBytesHexM s 0 with
  | none => do
    free r.ptr
    pure none
  | some b =>
    if b.data.length > bytes then do
      lose .refused b.ptr
      lose .refused r.ptr
      pure none
    else do
      use r.ptr
      use b.ptr
      let d ← lift (if bytes < 4 then .ub .oobWrite else .ok (b.data ++ balloc (bytes - b.data.length)))
      free b.ptr
      pure (some ⟨r.ptr, d⟩)

/-- `parse_uint8` (ef-parse-bytes.c:610-620). -/
def parseUint8M (s : CStr) : Mem (Option Byte) := do
  match ← parseBytesM s 1 with
  | none => pure none
  | some b => do
    use b.ptr
    let x ← lift (match b.data with
      | x :: _ => .ok x
      | [] => .ub .oobRead)
    free b.ptr
    pure (some x)

/-- `parse_uint32` (ef-parse-bytes.c:622-634). -/
def parseUint32M (s : CStr) : Mem (Option Nat) := do
  match ← parseBytesM s 4 with
  | none => pure none
  | some b => do
    use b.ptr
    let x ← lift (match b.data with
      | a :: b :: c :: d :: _ => .ok (be32 a b c d)
      | _ => .ub .oobRead)
    free b.ptr
    pure (some x)

/-- `parse_var_bytes_repeat` (ef-parse-bytes.c:636-656). -/
def parseVarBytesRepeatM (cnt val : CStr) : Mem (Option PBuf) := do
  match ← parseUint32M cnt with
  | none => pure none
  | some n =>
    match ← parseUint8M val with
    | none => pure none
    | some v => newBuf (some (List.replicate n v))

/-- `parse_var_bytes_pattern` (ef-parse-bytes.c:658-688). -/
def parseVarBytesPatternM (pat len : CStr) : Mem (Option PBuf) := do
  match ← parseUint32M len with
  | none => pure none
  | some n => do
    let b ← ballocM (balloc n)
    use b.ptr
    if pat = c!"cnt" then pure (some ⟨b.ptr, cntPattern n 0#8⟩)
    else if pat = c!"zero" then pure (some ⟨b.ptr, List.replicate n 0#8⟩)
    else if pat = c!"ones" then pure (some ⟨b.ptr, List.replicate n 0xff#8⟩)
    else do
      free b.ptr
      pure none

/-- Result of `parse_var_bytes_`. -/
inductive PSeg where
  | err
  | stop
  | seg (b : PBuf) (used : Nat)

/-- The end of `parse_var_bytes_` (ef-parse-bytes.c:752-759). -/
def PSeg.ofOpt (used : Nat) : Option PBuf → PSeg
  | none => .err
  | some b => .seg b used

/-- `parse_var_bytes_` (ef-parse-bytes.c:692-760). -/
def parseVarBytes1M (argv : List CStr) : Mem PSeg :=
  match argv with
  | [] => pure .stop
  | w :: rest =>
    if w = c!"help" then pure .err
    else if w = c!"hex" then
      match rest with
      | a :: _ => do
        let b ← parseVarBytesHexM a 0
        pure (PSeg.ofOpt 2 b)
      | [] => pure .err
    else if w = c!"ascii" then
      match rest with
      | a :: _ => do
        let b ← ballocM (parseVarBytesAscii a)
        pure (.seg b 2)
      | [] => pure .err
    else if w = c!"ascii0" then
      match rest with
      | a :: _ => do
        let b ← ballocM (parseVarBytesAscii0 a)
        pure (.seg b 2)
      | [] => pure .err
    else if w = c!"repeat" then
      match rest with
      | a :: b :: _ => do
        let b ← parseVarBytesRepeatM a b
        pure (PSeg.ofOpt 3 b)
      | _ => pure .err
    else if w = c!"pattern" then
      match rest with
      | a :: b :: _ => do
        let b ← parseVarBytesPatternM a b
        pure (PSeg.ofOpt 3 b)
      | _ => pure .err
    else pure .stop

/-- Joining `b_res` and `b_tmp` (ef-parse-bytes.c:773-790). -/
def joinM (acc : Option PBuf) (b : PBuf) : Mem PBuf :=
  match acc with
  | none => pure b
  | some r => do
    let n ← ballocM (r.data ++ b.data)
    use r.ptr
    use b.ptr
    free r.ptr
    free b.ptr
    pure n

/-- Loop of `parse_var_bytes` (ef-parse-bytes.c:767-800). -/
def parseVarBytesLoopM : Nat → List CStr → Nat → Option PBuf → Mem (Option (Nat × Option PBuf))
  | 0, _, i, acc => pure (some (i, acc))
  | fuel + 1, argv, i, acc =>
    if argv = [] then pure (some (i, acc))
    else do
      match ← parseVarBytes1M argv with
      | .err => do
        bfreeM acc
        pure none
      | .stop => pure (some (i, acc))
      | .seg b used => do
        let n ← joinM acc b
        parseVarBytesLoopM fuel (argv.drop used) (i + used) (some n)

/-- `parse_var_bytes` (ef-parse-bytes.c:762-806). -/
def parseVarBytesM (argv : List CStr) : Mem (Option (Nat × Option PBuf)) :=
  parseVarBytesLoopM argv.length argv 0 none

/-! ## Parsers of fields -/

/-- `relayout` of the fields. -/
def relayoutP : List PField → Nat → List PField × Nat
  | [], off => ([], off)
  | f :: fs, off =>
    let (fs', off') := relayoutP fs (off + f.base.width)
    (f.offset off :: fs', off')

/-- ef-coap.c:69-74, 233-237, ef-profinet.c:34-39. -/
def relayoutHdrP (h : PHdr) : PHdr :=
  let (fs, off) := relayoutP h.fields 0
  { h with fields := fs, base := { h.base with size := off / 8 } }

/-- `coap_parse_code` (ef-coap.c:29-53). -/
def coapParseCodeM (s : CStr) : Mem (Option PBuf) := newBuf (coapParseCode s)

/-- `coap_parse_token` (ef-coap.c:55-79). A token that is too long is not released (ef-coap.c:65-67). -/
def coapParseTokenM (h : PHdr) (s : CStr) : Mem (PHdr × Option PBuf) := do
  match ← parseVarBytesHexM s 1 with
  | none => pure (h, none)
  | some b =>
    if b.data.length > 8 ∨ b.data.length = 0 then do
      lose .refused b.ptr
      pure (h, none)
    else
      pure (relayoutHdrP { h with fields := h.fields.modify 5 (PField.width (b.data.length * 8)) }, some b)

/-- `profinet_data_parser` (ef-profinet.c:23-42). -/
def profinetDataParserM (h : PHdr) (s : CStr) : Mem (PHdr × Option PBuf) := do
  match ← parseVarBytesHexM s 40 with
  | none => pure (h, none)
  | some b => pure (relayoutHdrP { h with fields := h.fields.modify 1 (PField.width (b.data.length * 8)) }, some b)

/-- `opc_parse_uint16` (ef-opcua.c:5-15). -/
def opcParseUint16M (s : CStr) : Mem (Option PBuf) := do
  match ← parseBytesM s 2 with
  | none => pure none
  | some b => do
    use b.ptr
    let d ← lift (match b.data with
      | x :: y :: rest => .ok (y :: x :: rest)
      | _ => .ub .oobRead)
    pure (some ⟨b.ptr, d⟩)

/-- `field_parse_multi_var_byte` (ef-parse-bytes.c:808-827). -/
def fieldParseMultiVarByteM (h : PHdr) (name : CStr) (argv : List CStr) : Mem (PHdr × Nat) := do
  match ← parseVarBytesM argv with
  | some (res, some b) =>
    if res > 1 ∧ res ≤ argv.length then
      pure ((h.upd name (fun f => { f with val := some b }.width (b.data.length * 8))).size
        (h.base.size + b.data.length), res)
    else do
      free b.ptr
      pure (h, 0)
  | some (res, none) => if res > 1 ∧ res ≤ argv.length then lift (.ub .nullDeref) else pure (h, 0)
  | none => pure (h, 0)

/-- `coap_parse_option_value` (ef-coap.c:245-272): the value is shortened in place. -/
def coapParseOptionValueM (h : PHdr) (name : CStr) (argv : List CStr) : Mem (PHdr × Nat) := do
  let (h, res) ← fieldParseMultiVarByteM h name argv
  if res > 1 ∧ res ≤ argv.length then do
    let f ← getFieldM h name
    match f.val with
    | none => lift (.ub .nullDeref)
    | some b => do
      use b.ptr
      if b.data.all (· == 0#8) then
        pure ((h.upd name (fun f => { f with val := some ⟨b.ptr, []⟩ }.width 0)).size
          (h.base.size - b.data.length), res)
      else pure (h, res)
  else pure (h, res)

/-- `coap_parse_parms` (ef-coap.c:81-109). -/
def coapParseParmsM (h : PHdr) (name : CStr) (argv : List CStr) : Mem (PHdr × Nat) := do
  match ← parseVarBytesM argv with
  | some (res, some b) =>
    if res > 1 ∧ res ≤ argv.length then do
      let bb ← ballocM (0xff#8 :: b.data)
      use b.ptr
      let h := (h.upd name (fun f => { f with val := some bb }.width (bb.data.length * 8))).size bb.data.length
      free b.ptr
      pure (h, res)
    else do
      free b.ptr
      pure (h, 0)
  | _ => lift (.ub .uninit)

/-- The value of a field that is one word (ef.c:387-390, 401-403). -/
def runFieldParserM (h : PHdr) (f : PField) (s : CStr) : Mem (PHdr × Option PBuf) :=
  match f.base.parser with
  | .none => do
    let b ← parseBytesM s (bitToByte f.base.width)
    pure (h, b)
  | .coapCode => do
    let b ← coapParseCodeM s
    pure (h, b)
  | .coapToken => coapParseTokenM h s
  | .profinetData => profinetDataParserM h s
  | .opcUint16 => do
    let b ← opcParseUint16M s
    pure (h, b)
  | .fieldHex => do
    let b ← parseFieldHexM s (bitToByte f.base.width)
    pure (h, b)

/-- `f->parser_multi(...)` (ef.c:392). -/
def runMultiParserM (h : PHdr) (f : PField) (argv : List CStr) : Mem (PHdr × Nat) :=
  match f.base.multi with
  | .none => pure (h, 0)
  | .coapOptVal => coapParseOptionValueM h f.base.name argv
  | .coapParms => coapParseParmsM h f.base.name argv

/-- Set `rx_match_skip` of all fields. -/
def PHdr.skipAll (h : PHdr) : PHdr := { h with fields := h.fields.map (PField.skip true) }

/-- Loop of `hdr_parse_fields` (ef.c:331-406). The header is changed in place, also when -1 is returned: the result
is the header, and `none` for -1 or the consumed words and `has_mask`. -/
def parseFieldsLoopM : Nat → PHdr → Bool → Nat → List CStr → Mem (PHdr × Option (Nat × Bool))
  | 0, h, m, i, _ => pure (h, some (i, m))
  | fuel + 1, h, m, i, argv =>
    match argv with
    | [] => pure (h, some (i, m))
    | w :: rest =>
      if w = c!"help" then pure (h, none)
      else if isIgn w ∧ i = 0 then parseFieldsLoopM fuel h.skipAll true (i + 1) rest
      else
        match h.find w with
        | none => pure (h, some (i, m))
        | some f => do
          bfreeM f.val
          let h := h.setVal w none
          match rest with
          | [] => pure (h, none)
          | v :: rest' =>
            if isIgn v then parseFieldsLoopM fuel (h.upd w (PField.skip true)) true (i + 2) rest'
            else if v = c!"help" then pure (h, none)
            else if f.base.parser = .none ∧ f.base.multi ≠ .none then do
              let (h, cnt) ← runMultiParserM h f rest
              if cnt > 0 ∧ cnt ≤ rest.length then
                parseFieldsLoopM fuel (h.upd w (PField.skip false)) m (i + 1 + cnt) (rest.drop cnt)
              else pure (h, none)
            else do
              let (h, b) ← runFieldParserM h f v
              parseFieldsLoopM fuel (h.upd w (fun f => { f with val := b }.skip false)) m (i + 2) rest'

/-- `payload_parser` (ef-payload.c:3-19). -/
def payloadParserM (h : PHdr) (argv : List CStr) : Mem (PHdr × Option Nat) := do
  match ← parseVarBytesM argv with
  | none => pure (h, none)
  | some (res, b) =>
    if res = 0 then do
      bfreeM b
      pure (h, some 0)
    else
      match b with
      | none => lift (.ub .nullDeref)
      | some b =>
        pure ({ h with
          base := { h.base with size := b.data.length }
          fields := h.fields.modify 0 (fun f => { f with val := some b }.width (b.data.length * 8)) }, some res)

/-- `padding_parser` (ef-padding.c:3-18). -/
def paddingParserM (argv : List CStr) : Mem (Option Int) :=
  match argv with
  | [] => pure none
  | w :: _ => do
    match ← parseUint32M w with
    | none => pure none
    | some n => pure (some (u32ToInt n))

/-- `h->parser(...)` (ef-args.c:53): the header, and `none` for -1 or consumed words, padding and mask flag of the
frame. -/
def runHdrParserM (h : PHdr) (pad : Int) (m : Bool) (argv : List CStr) : Mem (PHdr × Option (Nat × Int × Bool)) :=
  match h.base.parser with
  | .fields => do
    match ← parseFieldsLoopM argv.length h m 0 argv with
    | (h, none) => pure (h, none)
    | (h, some (n, m)) => pure (h, some (n, pad, m))
  | .payload => do
    match ← payloadParserM h argv with
    | (h, none) => pure (h, none)
    | (h, some n) => pure (h, some (n, pad, m))
  | .padding => do
    match ← paddingParserM argv with
    | none => pure (h, none)
    | some p => pure (h, some (1, p, m))

/-! ## Default values (the `frame_fill_defaults` functions) -/

/-- `if (!find_field(h, name)->val) find_field(h, name)->val = parse_bytes(text, n)`. -/
def fillFieldM (h : PHdr) (name text : CStr) (n : Nat) : Mem PHdr := do
  let f ← getFieldM h name
  if f.val.isSome then pure h
  else do
    let v ← parseBytesM text n
    pure (h.setVal name v)

/-- The same when there need not be such a field. -/
def fillFieldOptM (h : PHdr) (name text : CStr) (n : Nat) : Mem PHdr :=
  match h.find name with
  | none => pure h
  | some f =>
    if f.val.isSome then pure h
    else do
      let v ← parseBytesM text n
      pure (h.setVal name v)

/-- `ether_type_fill_defaults` (ef.c:153-169). -/
def fillEtherTypeM (h : PHdr) (above : List PHdr) : Mem PHdr := do
  let et ← getFieldM h c!"et"
  if et.val.isSome then pure h
  else
    match above with
    | n :: _ => do
      let v ← parseBytesM (decStr n.base.type) 2
      pure (h.setVal c!"et" v)
    | [] => pure h

/-- The text for `proto`/`next`. -/
def nextProtoP (above : List PHdr) : CStr :=
  match above with
  | n :: _ => decStr n.base.type
  | [] => c!"17"

/-- `ipv4_fill_defaults`, header checksum (ef-ipv4.c:35-47). -/
def fillIpv4ChksumM (h : PHdr) : Mem PHdr := do
  let chksum ← getFieldM h c!"chksum"
  if chksum.val.isSome then pure h
  else do
    let b ← ballocM (balloc 20)
    let b ← copyHdrM false h 0 b
    use b.ptr
    let v ← parseBytesM (decStr (inetChksum 0 b.data)) 2
    free b.ptr
    pure (h.setVal c!"chksum" v)

/-- `ipv4_fill_defaults` (ef-ipv4.c:4-50). -/
def fillIpv4M (h : PHdr) (above : List PHdr) : Mem PHdr := do
  let h ← fillFieldM h c!"proto" (nextProtoP above) 1
  let h ← fillFieldM h c!"len" (decStr (sumSizesP (h :: above))) 2
  fillIpv4ChksumM h

/-- `ipv6_fill_defaults` (ef-ipv6.c:4-35). -/
def fillIpv6M (h : PHdr) (above : List PHdr) : Mem PHdr := do
  let h ← fillFieldM h c!"next" (nextProtoP above) 1
  fillFieldM h c!"len" (decStr (sumSizesP above)) 2

/-- The pseudo header (ef-udp.c:58-79, ef-icmp.c:28-42). -/
def fillPseudoM (pseudo ll : PHdr) (proto : CStr) (len : Nat) : Mem PHdr := do
  let p ← hdrCloneM pseudo
  let sip ← getFieldM ll c!"sip"
  let dip ← getFieldM ll c!"dip"
  let s ← bcloneM sip.val
  let p ← setValM p c!"sip" s
  let d ← bcloneM dip.val
  let p ← setValM p c!"dip" d
  let pr ← parseBytesM proto 1
  let p ← setValM p c!"proto" pr
  let lf ← getFieldM p c!"len"
  let l ← parseBytesM (decStr len) (lf.base.width / 8)
  setValM p c!"len" l

/-- The pseudo header template for the header below (ef-udp.c:58-64). -/
def pseudoForP (t : PTmpls) (ll : PHdr) : Option PHdr :=
  if ll.base.name = c!"ipv4" then some t.pseudo4
  else if ll.base.name = c!"ipv6" then some t.pseudo6
  else none

/-- `udp_tcp_fill_defaults`, checksum (ef-udp.c:51-98). -/
def fillUdpChksumM (t : PTmpls) (below : List PHdr) (h : PHdr) (above : List PHdr) : Mem PHdr := do
  let chksum ← getFieldM h c!"chksum"
  if chksum.val.isSome then pure h
  else
    match below.getLast? with
    | none => pure h
    | some ll =>
      match pseudoForP t ll with
      | none => pure h
      | some ps => do
        let len := sumSizesP (h :: above)
        let p ← fillPseudoM ps ll (decStr h.base.type) len
        let b ← ballocM (balloc (len + p.base.size))
        let b ← copyHdrM false p 0 b
        let b ← copyHdrsM false (h :: above) p.base.size b
        use b.ptr
        let v ← parseBytesM (decStr (inetChksum 0 b.data)) 2
        free b.ptr
        hdrFreeM p
        pure (h.setVal c!"chksum" v)

/-- `udp_tcp_fill_defaults` (ef-udp.c:34-100). -/
def fillUdpTcpM (t : PTmpls) (below : List PHdr) (h : PHdr) (above : List PHdr) : Mem PHdr := do
  let h ← fillFieldOptM h c!"len" (decStr (sumSizesP (h :: above))) 2
  fillUdpChksumM t below h above

/-- Is the header directly below an IPv6 header? -/
def ipv6BelowP (below : List PHdr) : Option PHdr :=
  match below.getLast? with
  | some ll => if ll.base.name = c!"ipv6" then some ll else none
  | none => none

/-- `icmp_fill_defaults` (ef-icmp.c:8-67). -/
def fillIcmpM (t : PTmpls) (below : List PHdr) (h : PHdr) (above : List PHdr) : Mem PHdr := do
  let chksum ← getFieldM h c!"chksum"
  if chksum.val.isSome then pure h
  else
    let len := sumSizesP (h :: above)
    match ipv6BelowP below with
    | some ll => do
      let p ← fillPseudoM t.pseudo6 ll c!"58" len
      let h := { h with base := { h.base with type := 58 } }
      let b ← ballocM (balloc (len + p.base.size))
      let b ← copyHdrM false p 0 b
      let b ← copyHdrsM false (h :: above) p.base.size b
      use b.ptr
      let v ← parseBytesM (decStr (inetChksum 0 b.data)) 2
      free b.ptr
      hdrFreeM p
      pure (h.setVal c!"chksum" v)
    | none => do
      let b ← ballocM (balloc len)
      let b ← copyHdrsM false (h :: above) 0 b
      use b.ptr
      let v ← parseBytesM (decStr (inetChksum 0 b.data)) 2
      free b.ptr
      pure (h.setVal c!"chksum" v)

/-- The search loops of igmp/mld. -/
def anyGivenM (h : PHdr) : List CStr → Mem Bool
  | [] => pure false
  | n :: ns => do
    let f ← getFieldM h n
    if f.val.isSome || f.dflt.isSome then pure true else anyGivenM h ns

/-- Set the width of the named fields to 0. -/
def zeroWidthsP (h : PHdr) : List CStr → PHdr
  | [] => h
  | n :: ns => zeroWidthsP (h.upd n (PField.width 0)) ns

/-- The query part of igmp/mld (ef-igmp.c:14-35, ef-mld.c:26-47). -/
def adjustQueryM (h : PHdr) : Mem PHdr := do
  if ← anyGivenM h queryFields then pure h
  else pure (zeroWidthsP (h.size (u32Sub h.base.size 4)) queryFields)

/-- The report part of igmp (ef-igmp.c:37-73). -/
def adjustReportIgmpM (h : PHdr) : Mem PHdr := do
  if ← anyGivenM h reportFields then
    let h := zeroWidthsP (h.size (u32Sub h.base.size 4)) [c!"ga"]
    let h := h.upd c!"rresv" (PField.offset 32)
    pure (h.upd c!"ng" (PField.offset 48))
  else pure (zeroWidthsP (h.size (u32Sub h.base.size 4)) reportFields)

/-- The report part of mld (ef-mld.c:49-90). -/
def adjustReportMldM (h : PHdr) : Mem PHdr := do
  if ← anyGivenM h reportFields then
    let h := zeroWidthsP (h.size (u32Sub h.base.size 20)) [c!"ga", c!"max_resp", c!"rsv"]
    let h := h.upd c!"rresv" (PField.offset 32)
    pure (h.upd c!"ng" (PField.offset 48))
  else pure (zeroWidthsP (h.size (u32Sub h.base.size 4)) reportFields)

/-- `igmp_fill_defaults`, checksum (ef-igmp.c:75-98). -/
def fillIgmpChksumM (h : PHdr) (above : List PHdr) : Mem PHdr := do
  let chksum ← getFieldM h c!"chksum"
  if chksum.val.isSome then pure h
  else do
    let b ← ballocM (balloc (sumSizesP (h :: above)))
    let b ← copyHdrsM false (h :: above) 0 b
    use b.ptr
    let v ← parseBytesM (hexStr (inetChksum 0 b.data)) 2
    free b.ptr
    pure (h.setVal c!"chksum" v)

/-- `igmp_fill_defaults` (ef-igmp.c:4-101). -/
def fillIgmpM (h : PHdr) (above : List PHdr) : Mem PHdr := do
  let h ← adjustQueryM h
  let h ← adjustReportIgmpM h
  fillIgmpChksumM h above

/-- An address of the IPv6 header, or `exit(-1)` (ef-mld.c:115-138). -/
def mldAddrM (ip : PHdr) (name : CStr) : Mem Buf :=
  match ip.find name with
  | none => lift (.exit (-1))
  | some f =>
    match f.val with
    | none => lift (.exit (-1))
    | some a => do
      use a.ptr
      if a.data.length ≠ 16 then lift (.exit (-1)) else pure a.data

/-- `mld_fill_defaults`, checksum (ef-mld.c:92-176). -/
def fillMldChksumM (below : List PHdr) (h : PHdr) (above : List PHdr) : Mem PHdr := do
  let chksum ← getFieldM h c!"chksum"
  if chksum.val.isSome then pure h
  else
    match below.find? (fun x => x.base.name == c!"ipv6") with
    | none => lift (.exit (-1))
    | some ip => do
      let sip ← mldAddrM ip c!"sip"
      let dip ← mldAddrM ip c!"dip"
      let len := sumSizesP (h :: above)
      let sum := chksumLoop 0 (mldPseudo sip dip len)
      let b ← ballocM (balloc len)
      let b ← copyHdrsM false (h :: above) 0 b
      use b.ptr
      let v ← parseBytesM (hexStr (inetChksum sum b.data)) 2
      free b.ptr
      pure (h.setVal c!"chksum" v)

/-- `mld_fill_defaults` (ef-mld.c:5-179). -/
def fillMldM (below : List PHdr) (h : PHdr) (above : List PHdr) : Mem PHdr := do
  let h ← adjustQueryM h
  let h ← adjustReportMldM h
  fillMldChksumM below h above

/-- Search loop of sv (ef-sv.c:18-24). -/
def anyValM (h : PHdr) : List CStr → Mem Bool
  | [] => pure false
  | n :: ns => do
    let f ← getFieldM h n
    if f.val.isSome then pure true else anyValM h ns

/-- `sv_fill_defaults` (ef-sv.c:9-37). -/
def fillSvM (h : PHdr) : Mem PHdr := do
  if ← anyValM h tlv2Fields then pure h
  else pure (zeroWidthsP (h.size (u32Sub h.base.size 8)) tlv2Fields)

/-- `coap_fill_defaults` (ef-coap.c:111-125). -/
def fillCoapM (h : PHdr) : Mem PHdr := do
  let tkl ← getFieldM h c!"tkl"
  let token ← getFieldM h c!"token"
  if tkl.val.isSome then pure h
  else if token.val.isNone then pure h
  else
    match h.fields[5]? with
    | none => lift (.ub .oobRead)
    | some t => do
      let v ← parseBytesM (decStr (bitToByte t.base.width)) 1
      pure (h.setVal c!"tkl" v)

/-- `options_fill_defaults` (ef-coap.c:166-241). -/
def fillCoapOptM (h : PHdr) : Mem PHdr := do
  let fnum ← getFieldM h c!"num"
  let fval ← getFieldM h c!"val"
  match fnum.val, fval.val with
  | some n, some v => do
    use v.ptr
    use n.ptr
    let delta ← lift (match n.data with
      | d0 :: d1 :: _ => .ok ((d0.toNat * 256 + d1.toNat) % 2 ^ 16)
      | _ => .ub .oobRead)
    let b ← ballocM (balloc 5)
    use b.ptr
    let bb ← ballocM (coapOptHdr delta (v.data.length % 2 ^ 16))
    use b.ptr
    free n.ptr
    let h := h.setVal c!"num" (some bb)
    use bb.ptr
    let h := { h with fields := h.fields.modify 0 (PField.width (bb.data.length * 8)) }
    free b.ptr
    pure (relayoutHdrP h)
  | _, _ => pure h

/-- `f->stack[i]->frame_fill_defaults(f, i)` (ef.c:471-473). -/
def fillHdrM (t : PTmpls) (below : List PHdr) (h : PHdr) (above : List PHdr) : Mem PHdr :=
  match h.base.fill with
  | .none => pure h
  | .etherType => fillEtherTypeM h above
  | .ipv4 => fillIpv4M h above
  | .ipv6 => fillIpv6M h above
  | .udpTcp => fillUdpTcpM t below h above
  | .icmp => fillIcmpM t below h above
  | .igmp => fillIgmpM h above
  | .mld => fillMldM below h above
  | .sv => fillSvM h
  | .coap => fillCoapM h
  | .coapOpt => fillCoapOptM h
  | .ptp => fillFieldOptM h c!"hdr-messageLength" (decStr (sumSizesP (h :: above))) 2
  | .ptpTlv => fillFieldOptM h c!"tlv-length" (decStrInt ((sumSizesP (h :: above) : Int) - 4)) 2

/-- The first loop of `frame_to_buf` (ef.c:471-473). The functions look at other headers of the frame, too. -/
def fillStackM (t : PTmpls) (below : List PHdr) : List PHdr → Mem (List PHdr)
  | [] => pure []
  | h :: hs => do
    let hs' ← fillStackM t (below ++ [h]) hs
    useAll (ownHdrs below ++ (h.own ++ ownHdrs hs'))
    let h' ← fillHdrM t below h hs'
    pure (h' :: hs')

/-- `frame_to_buf` (ef.c:465-492). -/
def frameToBufM (t : PTmpls) (f : PFrame) : Mem (PFrame × PBuf) := do
  use f.self
  let st ← fillStackM t [] f.stack
  let b ← ballocM (balloc (if sumSizesP st < 60 then 60 else sumSizesP st))
  let b ← copyHdrsM false st 0 b
  pure ({ f with stack := st }, b)

/-- `frame_mask_to_buf` (ef.c:494-522). -/
def frameMaskToBufM (f : PFrame) : Mem PBuf := do
  use f.self
  let n := sumSizesP f.stack
  let total := if n < 60 then 60 else n
  let b ← ballocM (balloc n ++ List.replicate (total - n) 0xff#8)
  copyHdrsM true f.stack 0 b

/-! ## Commands (ef-args.c) -/

/-- Loop of `argc_frame` (ef-args.c:20-63). The frame is changed in place, also when -1 is returned. -/
def argcFrameLoopM (t : PTmpls) (cap : Nat) : Nat → PFrame → Nat → List CStr → Mem (PFrame × Option Nat)
  | 0, f, i, _ => pure (f, some i)
  | fuel + 1, f, i, argv =>
    match argv with
    | [] => pure (f, some i)
    | w :: rest =>
      if w = c!"help" then pure (f, none)
      else
        match t.tmpls.find? (fun h => h.base.name == w) with
        | none => pure (f, some i)
        | some tm =>
          if f.stack.length < cap then do
            let h ← hdrCloneM tm
            use f.self
            match ← runHdrParserM h f.base.padding f.base.hasMask rest with
            | (h, none) => pure ({ f with stack := f.stack ++ [h] }, none)
            | (h, some (n, pad, m)) =>
              argcFrameLoopM t cap fuel
                { f with stack := f.stack ++ [h], base := { f.base with padding := pad, hasMask := m } } (i + 1 + n)
                (rest.drop n)
          else lift (.ub .oobWrite)

/-- `argc_frame` (ef-args.c:8-64) on a new frame. `frame_reset` (ef.c:301-314) finds nothing to release. -/
def argcFrameM (t : PTmpls) (f : PFrame) (argv : List CStr) : Mem (PFrame × Option Nat) :=
  if argv.length > frameStackMax then pure (f, none)
  else do
    use f.self
    argcFrameLoopM t frameStackMax argv.length f 0 argv

/-- `cmd_destruct` (ef-args.c:66-83). -/
def cmdDestructM (c : PCmd) : Mem Unit := do
  bfreeM c.name
  bfreeM c.arg0
  (match c.frame with
    | none => pure ()
    | some f => frameFreeM f)
  bfreeM c.buf
  bfreeM c.mask

/-- `cmd_destruct` of all commands (ef-args.c:321-323). -/
def cmdsDestructM : List PCmd → Mem Unit
  | [] => pure ()
  | c :: cs => do
    cmdDestructM c
    cmdsDestructM cs

/-- Result of `argc_cmd`. -/
inductive PCmdRes where
  | err
  | stop
  | cmd (c : PCmd) (used : Nat)

/-- The end of `argc_cmd` (ef-args.c:240-269). -/
def argcCmdFrameM (t : PTmpls) (c : PCmd) (i : Nat) (argv : List CStr) : Mem PCmdRes := do
  let p ← alloc
  let (f, res) ← argcFrameM t ⟨p, {}, []⟩ argv
  match res with
  | none => do
    cmdDestructM { c with frame := some f }
    pure .err
  | some n =>
    if n = 0 then
      if c.base.type = .rx then do
        frameFreeM f
        pure (.cmd c i)
      else do
        cmdDestructM { c with frame := some f }
        pure .stop
    else do
      let (f', b) ← frameToBufM t f
      if f'.base.hasMask then do
        let m ← frameMaskToBufM f'
        pure (.cmd { c with frame := some f', buf := some b, mask := some m } (i + n))
      else pure (.cmd { c with frame := some f', buf := some b } (i + n))

/-- ef-args.c:231-243. -/
def argcCmdRestM (t : PTmpls) (c : PCmd) (i : Nat) (argv : List CStr) : Mem PCmdRes :=
  match argv with
  | w :: n :: _ =>
    if w = c!"name" ∧ c.base.type ≠ .name then do
      let b ← ballocM n
      pure (.cmd { c with name := some b } (i + 2))
    else argcCmdFrameM t c i argv
  | _ => argcCmdFrameM t c i argv

/-- A command without any pointers. -/
def PCmd.start (ty : CmdType) (rep : Nat) : PCmd := ⟨{ type := ty, rep := rep }, none, none, none, none, none⟩

/-- `argc_cmd` (ef-args.c:169-270). -/
def argcCmdM (t : PTmpls) (hasPcap : Bool) (argv : List CStr) : Mem PCmdRes :=
  match argv with
  | [] => pure .stop
  | w :: rest =>
    match cmdWord hasPcap w with
    | .help => pure .err
    | .other => pure .stop
    | .cmd ty =>
      match rest with
      | [] => pure .stop
      | a :: rest' =>
        match ty with
        | .name => do
          let n ← ballocM a
          argcCmdRestM t { PCmd.start .name 0 with name := some n } 2 rest'
        | .hex => argcCmdRestM t (PCmd.start .hex 0) 1 rest
        | .pcap => do
          let n ← ballocM a
          argcCmdRestM t { PCmd.start .pcap 0 with arg0 := some n } 2 rest'
        | .rx => do
          let n ← ballocM a
          argcCmdRestM t { PCmd.start .rx 0 with arg0 := some n } 2 rest'
        | .tx => do
          let n ← ballocM a
          match rest' with
          | [] => lift (.ub .nullDeref)
          | r :: rest'' =>
            if r = c!"rep" ∨ r = c!"repeat" then
              match rest'' with
              | [] => lift (.ub .nullDeref)
              | x :: rest3 =>
                argcCmdRestM t { PCmd.start .tx (atoi x % 2 ^ 32).toNat with arg0 := some n } 4 rest3
            else argcCmdRestM t { PCmd.start .tx 1 with arg0 := some n } 2 rest'

/-- Loop of `argc_cmds` (ef-args.c:278-293). The `return -1` drops all commands so far without `cmd_destruct`. -/
def argcCmdsLoopM (t : PTmpls) (hasPcap : Bool) : Nat → List CStr → Mem (Option (List PCmd × List CStr))
  | 0, argv => pure (some ([], argv))
  | slots + 1, argv =>
    if argv = [] then pure (some ([], argv))
    else do
      match ← argcCmdM t hasPcap argv with
      | .err => pure none
      | .stop => pure (some ([], argv))
      | .cmd c used => do
        match ← argcCmdsLoopM t hasPcap slots (argv.drop used) with
        | none => do
          loseAll .parseError c.own
          pure none
        | some (cs, rest) => pure (some (c :: cs, rest))

/-- The parsing part of `argc_cmds` (ef-args.c:272-298). -/
def parseCmdsM (t : PTmpls) (hasPcap : Bool) (argv : List CStr) : Mem (Option (List PCmd)) := do
  match ← argcCmdsLoopM t hasPcap 100 argv with
  | none => pure none
  | some (cs, rest) =>
    if rest = [] then pure (some cs)
    else do
      loseAll .parseError (ownCmds cs)
      pure none

/-! ## Execution (ef-exec.c) -/

/-- The definition of a name (ef-exec.c:322-331). -/
def lookupNameP (n : CStr) : List PCmd → Option PCmd
  | [] => none
  | c :: cs =>
    if c.base.type = .name ∧ c.buf.isSome ∧ c.name.map (·.data) = some n then some c else lookupNameP n cs

/-- "Pair named frames" (ef-exec.c:405-420) with `copy_cmd_by_name` (ef-exec.c:319-339). -/
def pairNamesM (all : List PCmd) : List PCmd → Mem (List PCmd × List Event)
  | [] => pure ([], [])
  | c :: cs =>
    match needsName c.erase with
    | none => do
      let (cs', es) ← pairNamesM all cs
      pure (c :: cs', es)
    | some n =>
      match lookupNameP n all with
      | some d => do
        let f ← frameCloneOptM d.frame
        let b ← bcloneM d.buf
        let m ← bcloneM d.mask
        let (cs', es) ← pairNamesM all cs
        pure ({ c with frame := f, buf := b, mask := m } :: cs', es)
      | none => do
        let (cs', es) ← pairNamesM all cs
        pure (c :: cs', .noSuchName n :: es)

/-- `exec_cmds` (ef-exec.c:378-546): the result and the commands, which belong to the caller. -/
def execCmdsM (env : Env) (cmds : List PCmd) : Mem (ExecRes × List PCmd) := do
  useAll (ownCmds cmds)
  let (cmds', en) ← pairNamesM cmds cmds
  if en ≠ [] then pure (⟨some en.length, .finished, [], inventory (cmds.map PCmd.erase) ++ en⟩, cmds')
  else do
    useAll (ownCmds cmds')
    let r ← lift (execResolved env (cmds'.map PCmd.erase))
    useAll (ownCmds cmds')
    pure ({ r with events := inventory (cmds.map PCmd.erase) ++ r.events }, cmds')

/-! ## Captures (ef-capture.c) -/

/-- One more option of the tcpdump command line: a new text, the old one is released (ef-capture.c:77-84, 87-94,
115-122). -/
def optTextM (b : PBuf) (opt : CStr) (v : Option CStr) : Mem PBuf :=
  match v with
  | none => pure b
  | some v => do
    use b.ptr
    let b' ← ballocM (b.data ++ (opt ++ v))
    free b.ptr
    pure b'

/-- `capture_add` (ef-capture.c:51-142) without the splitting of the text. -/
def captureAddM (s : CStr) : Mem PCapture := do
  let es := captureElems 5 s
  let b ← ballocM (c!"tcpdump -i " ++ (es[0]?).getD [])
  let b ← optTextM b c!" -s " (elemGiven es 1)
  let b ← optTextM b c!" -j " (elemGiven es 2)
  let f ← ballocM (captureFile s)
  use f.ptr
  use b.ptr
  let b' ← ballocM (b.data ++ c!" -w " ++ f.data)
  free b.ptr
  free f.ptr
  let b' ← optTextM b' c!" -c " (elemGiven es 4)
  let c ← alloc
  pure ⟨c, b'⟩

/-- The end of `capture_all_stop` (ef-capture.c:276-282). -/
def capturesFreeM : List PCapture → Mem Unit
  | [] => pure ()
  | c :: cs => do
    free c.cmd.ptr
    free c.self
    capturesFreeM cs

/-! ## Whole runs -/

/-- `argc_cmds` (ef-args.c:272-326). Without a return value (`ret = none`, the run has not ended) nothing is released
yet. -/
def argcCmdsM (t : PTmpls) (w : World) (ms : Int) (caps : List PCapture) (argv : List CStr) : Mem RunRes := do
  match ← parseCmdsM t w.env.cfg.hasPcap argv with
  | none => do
    loseAll .parseError (ownCaps caps)
    pure { ret := some (-1) }
  | some cmds => do
    useAll (ownCaps caps)
    let (r, cmds') ← execCmdsM { w.env with timeoutMs := ms } cmds
    let tend := timerAdd w.before (timeoutVal ms)
    let slept := if r.status = .finished ∧ caps ≠ [] ∧ timerLt w.after tend then some (timerSub tend w.after) else none
    let res : RunRes := { ret := r.ret, started := caps.map (·.cmd.data), events := r.events, slept := slept }
    if r.ret.isSome then do
      useAll (ownCaps caps)
      capturesFreeM caps
      cmdsDestructM cmds'
      pure res
    else do
      loseAll .running (ownCaps caps ++ ownCmds cmds')
      pure res

/-- The option loop of `main_` (ef-args.c:333-358); `args` are the texts of the captures. -/
def mainLoopOptsM (t : PTmpls) (w : World) (argv : List CStr) :
    List Opt → Int → List CStr → List PCapture → Mem RunRes
  | [], ms, args, caps => do
    let r ← argcCmdsM t w ms caps argv
    pure { r with deleted := args.map captureFile }
  | .version :: _, _, args, caps => do
    loseAll .option (ownCaps caps)
    pure { ret := some 0, version := true, deleted := args.map captureFile }
  | .help :: _, _, args, caps => do
    loseAll .option (ownCaps caps)
    pure { ret := some (-1), help := true, deleted := args.map captureFile }
  | .bad :: _, _, args, caps => do
    loseAll .option (ownCaps caps)
    pure { ret := some (-1), help := true, deleted := args.map captureFile }
  | .timeout a :: os, _, args, caps => mainLoopOptsM t w argv os (atoi a) args caps
  | .capture a :: os, ms, args, caps => do
    let c ← captureAddM a
    mainLoopOptsM t w argv os ms (args ++ [a]) (caps ++ [c])

/-- `main_` (ef-args.c:328-361). -/
def mainM (t : PTmpls) (w : World) (argv : List CStr) : Mem RunRes :=
  let (os, words) := getopt w.posix argv
  mainLoopOptsM t w words os 100 [] []

/-! ## Start-up and end of the process -/

/-- The `def_val` calls of a static header (ef.c:202-209): one buffer for each default value. -/
def initFieldsM : List Field → Mem (List PField)
  | [] => pure []
  | f :: fs => do
    let d ← newBuf f.dflt
    let fs' ← initFieldsM fs
    pure (⟨f, d, none⟩ :: fs')

/-- A static header. -/
def initHdrM (h : Hdr) : Mem PHdr := do
  let fs ← initFieldsM h.fields
  pure ⟨none, none, h, fs⟩

/-- Several static headers. -/
def initHdrsM : List Hdr → Mem (List PHdr)
  | [] => pure []
  | h :: hs => do
    let h' ← initHdrM h
    let hs' ← initHdrsM hs
    pure (h' :: hs')

/-- `init` (ef.c:601-622), called before `main`. -/
def initM : Mem PTmpls := do
  let ts ← initHdrsM hdrTmpls
  let p4 ← initHdrM HDR_IPV4_PSEUDO
  let p6 ← initHdrM HDR_IPV6_PSEUDO
  pure ⟨ts, p4, p6⟩

/-- Headers whose default values are not released by `uninit`: `oam_uninit` (ef-oam.c:304-312) leaves out three
headers. (`coap_uninit` leaves out two and `padding_uninit` one without default values.) -/
def notReleased : List CStr := [c!"oam-lb", c!"oam-lt", c!"oam-raps"]

/-- `uninit_frame_data` (ef.c:213-218), called for every static header but those of `notReleased`. -/
def uninitHdrsM : List PHdr → Mem Unit
  | [] => pure ()
  | h :: hs => do
    (if notReleased.contains h.base.name then loseAll .defaults h.own else fieldsFreeM h.fields)
    uninitHdrsM hs

/-- `uninit` (ef.c:644-665), called after `main` and by `exit`. -/
def uninitM (t : PTmpls) : Mem Unit := do
  uninitHdrsM t.tmpls
  fieldsFreeM t.pseudo4.fields
  fieldsFreeM t.pseudo6.fields

/-- The whole process. Both the return from `main` and `exit` run `uninit`; `abort` and undefined behaviour do not. -/
def processM (w : World) (argv : List CStr) : Mem RunRes := do
  let t ← initM
  fun hp =>
    match mainM t w argv hp with
    | (.ok r, hp') => if r.ret.isSome then (do uninitM t; pure r) hp' else (do loseAll .running t.own; pure r) hp'
    | (.exit c, hp') => (do uninitM t; lift (.exit c)) hp'
    | (o, hp') => (o, hp')

end Ef
