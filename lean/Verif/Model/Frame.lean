import Verif.Model.ParseBytes

/-!
# Model of the data structures of `src/ef.h` and of `src/ef.c`

Fields, headers, frames, the bit writer and serialisation.
-/

namespace Ef

/-- `BIT_TO_BYTE(x)` (ef.h:16-17): `1 + ((x - 1) / 8)`. For `x = 0` C division truncates `-1/8` to 0 and
the result is 1, which is also what truncated subtraction on natural numbers gives. -/
def bitToByte (x : Nat) : Nat := 1 + (x - 1) / 8

/-- `.parser` of a field (ef.h:125): which function, if any. -/
inductive FieldParser where
  | none
  /-- ef-coap.c:29-53 -/
  | coapCode
  /-- ef-coap.c:55-79 -/
  | coapToken
  /-- ef-profinet.c:23-42 -/
  | profinetData
  /-- ef-opcua.c:5-15 -/
  | opcUint16
  /-- ef-parse-bytes.c:566-592 -/
  | fieldHex
  deriving DecidableEq, Repr

/-- `.parser_multi` of a field (ef.h:126). -/
inductive MultiParser where
  | none
  /-- ef-coap.c:245-272 -/
  | coapOptVal
  /-- ef-coap.c:81-109 -/
  | coapParms
  deriving DecidableEq, Repr

/-- `field_t` (ef.h:116-127). Help texts are not modelled. -/
structure Field where
  name : CStr
  /-- `rx_match_skip` -/
  rxSkip : Bool := false
  /-- `bit_width` -/
  width : Nat
  /-- `bit_offset` -/
  offset : Nat := 0
  /-- `def` -/
  dflt : Option Buf := none
  val : Option Buf := none
  parser : FieldParser := .none
  multi : MultiParser := .none
  deriving DecidableEq, Repr

/-- `.frame_fill_defaults` of a header (ef.h:144): which function. -/
inductive Fill where
  /-- NULL, or a function that only returns 0 -/
  | none
  /-- ef.c:153-169 through eth/vlan wrappers -/
  | etherType
  /-- ef-ipv4.c:4-50 -/
  | ipv4
  /-- ef-ipv6.c:4-35 -/
  | ipv6
  /-- ef-udp.c:34-100 -/
  | udpTcp
  /-- ef-icmp.c:8-67 -/
  | icmp
  /-- ef-igmp.c:4-101 -/
  | igmp
  /-- ef-mld.c:5-179 -/
  | mld
  /-- ef-sv.c:9-37 -/
  | sv
  /-- ef-coap.c:111-125 -/
  | coap
  /-- ef-coap.c:166-241 -/
  | coapOpt
  /-- ef-ptp.c:6-26 -/
  | ptp
  /-- ef-ptp.c:28-51 -/
  | ptpTlv
  deriving DecidableEq, Repr

/-- `.parser` of a header (ef.h:146). -/
inductive HdrParser where
  /-- ef.c:325-409 -/
  | fields
  /-- ef-payload.c:3-19 -/
  | payload
  /-- ef-padding.c:3-18 -/
  | padding
  deriving DecidableEq, Repr

/-- `hdr_t` (ef.h:133-147). `offset_in_frame` is written but never read and is left out. -/
structure Hdr where
  name : CStr
  type : Nat := 0
  size : Nat := 0
  fields : List Field
  fill : Fill := .none
  parser : HdrParser := .fields
  deriving DecidableEq, Repr

/-- `frame_t` (ef.h:153-159); `stack_size` is the length of the list. -/
structure Frame where
  stack : List Hdr := []
  /-- `padding_len` (an `int`) -/
  padding : Int := 0
  hasMask : Bool := false
  deriving DecidableEq, Repr

/-- `FRAME_STACK_MAX` (ef.h:154). -/
def frameStackMax : Nat := 100

/-! ## Finding and updating fields -/

/-- `find_field(h, name)` (ef.c:192-200): the first field with that name. -/
def findField (h : Hdr) (name : CStr) : Option Field := h.fields.find? (fun f => f.name == name)

/-- Apply `g` to the first element satisfying `p`. -/
def updFirst {α : Type} (p : α → Bool) (g : α → α) : List α → List α
  | [] => []
  | x :: xs => if p x then g x :: xs else x :: updFirst p g xs

/-- Modification of `*find_field(h, name)`. -/
def updField (h : Hdr) (name : CStr) (g : Field → Field) : Hdr :=
  { h with fields := updFirst (fun f => f.name == name) g h.fields }

/-- `find_field(h, name)->val = v`. -/
def setVal (h : Hdr) (name : CStr) (v : Option Buf) : Hdr := updField h name (fun f => { f with val := v })

/-- Use of `*find_field(h, name)`, undefined if there is no such field. -/
def getField (h : Hdr) (name : CStr) : Out Field :=
  match findField h name with
  | some f => .ok f
  | none => .ub .nullDeref

/-- `uint32_t` subtraction. -/
def u32Sub (a b : Nat) : Nat := (a + 2 ^ 32 - b) % 2 ^ 32

/-! ## Template initialisation -/

/-- Loop of `def_offset` (ef.c:176-187). The flag tells whether the "must be specified after" error is
printed. -/
def defOffsetLoop : List Field → Nat → List Field × Nat × Bool
  | [], off => ([], off, false)
  | f :: fs, off =>
    if f.offset ≠ 0 ∧ f.offset < off then
      let (fs', off', e) := defOffsetLoop fs off
      (f :: fs', off', e)
    else
      let (fs', off', e) := defOffsetLoop fs (off + f.width)
      ({ f with offset := off } :: fs', off', e || f.offset ≠ 0)

/-- `def_offset(h)` (ef.c:171-190). -/
def defOffset (h : Hdr) : Hdr :=
  let (fs, off, _) := defOffsetLoop h.fields 0
  { h with fields := fs, size := bitToByte off }

/-- Does `def_offset(h)` print its error message? (ef.c:178-184) -/
def defOffsetError (h : Hdr) : Bool := (defOffsetLoop h.fields 0).2.2

/-- `def_val(h, field, def)` (ef.c:202-209). -/
def defVal (h : Hdr) (field d : CStr) : Out Hdr :=
  match findField h field with
  | none => .ok h
  | some f => do
    let v ← parseBytes d (bitToByte f.width)
    .ok (updField h field (fun f => { f with dflt := v }))

/-- A sequence of `def_val` calls on one header. If one of them were undefined, the header is dropped
(this never happens, see `Tables`). -/
def defVals (h : Hdr) : List (CStr × CStr) → Hdr
  | [] => h
  | (f, d) :: rest =>
    match defVal h f d with
    | .ok h' => defVals h' rest
    | _ => { h with fields := [] }

/-! ## Bits -/

/-- `bit_get(val, bit_pos)` (ef.c:220-228). -/
def bitGet (val : Buf) (pos : Nat) : Out Bool :=
  match val[pos / 8]? with
  | some x => .ok ((x >>> (7 - pos % 8)) &&& 1#8 ≠ 0#8)
  | none => .abort

/-- `bit_set(b, bit_pos, value)` (ef.c:230-242). -/
def bitSet (b : Buf) (pos : Nat) (v : Bool) : Out Buf :=
  match b[pos / 8]? with
  | some x =>
    .ok (b.set (pos / 8) (if v then x ||| (1#8 <<< (7 - pos % 8)) else x &&& ~~~(1#8 <<< (7 - pos % 8))))
  | none => .abort

/-- Loop of `hdr_write_field` (ef.c:277-279): `n` positions left, the next one is `pos`. -/
def writeLoop (val : Buf) (dst src : Nat) : Nat → Nat → Buf → Out Buf
  | 0, _, b => .ok b
  | n + 1, pos, b => do
    let v ← bitGet val ((pos + src) % 2 ^ 64)
    let b ← bitSet b (dst + pos) v
    writeLoop val dst src n (pos + 1) b

/-- `hdr_write_field(b, offset, f, val)` (ef.c:244-280). `bits_to_1st_valid` is a `size_t` and wraps if the
value is shorter than the field. -/
def writeField (b : Buf) (offset : Nat) (f : Field) (val : Buf) : Out Buf :=
  if 8 * b.length ≥ f.width + f.offset + offset * 8 then
    writeLoop val (f.offset + 8 * offset) ((8 * val.length + 2 ^ 64 - f.width) % 2 ^ 64) f.width 0 b
  else .abort

/-- The value `hdr_copy_to_buf_` writes for a field (ef.c:425-444). -/
def copyValue (mask : Bool) (f : Field) : Option Buf :=
  if mask then
    if f.rxSkip then none else some (List.replicate (bitToByte f.width) 0xff#8)
  else
    match f.val with
    | some v => some v
    | none => f.dflt

/-- Loop of `hdr_copy_to_buf_` (ef.c:418-451). The early `return -1` keeps what has been written; no
caller looks at the return value. -/
def copyFields (mask : Bool) (offset : Nat) : List Field → Buf → Out Buf
  | [], b => .ok b
  | f :: fs, b =>
    if bitToByte f.width + offset > b.length then .ok b
    else
      match copyValue mask f with
      | some v => do
        let b ← writeField b offset f v
        copyFields mask offset fs b
      | none => copyFields mask offset fs b

/-- `hdr_copy_to_buf` / `hdr_copy_to_buf_mask` (ef.c:411-462). -/
def copyHdr (mask : Bool) (h : Hdr) (offset : Nat) (b : Buf) : Out Buf := copyFields mask offset h.fields b

/-- The loop "copy all headers, advancing offset" (ef.c:486-489, 516-519, ef-udp.c:85-88, ef-icmp.c:51-54,
ef-igmp.c:86-89, ef-mld.c:163-166). -/
def copyHdrs (mask : Bool) : List Hdr → Nat → Buf → Out Buf
  | [], _, b => .ok b
  | h :: hs, offset, b => do
    let b ← copyHdr mask h offset b
    copyHdrs mask hs (offset + h.size) b

/-- Sum of the header sizes (ef.c:476-479 and all length computations). -/
def sumSizes : List Hdr → Nat
  | [] => 0
  | h :: hs => h.size + sumSizes hs

/-! ## Internet checksum -/

/-- Accumulation loop of `inet_chksum` (ef.c:133-144): 16-bit words in host (little-endian) order, the
accumulator is a `uint32_t`. -/
def chksumLoop : Nat → Buf → Nat
  | sum, [] => sum
  | sum, [x] => (sum + x.toNat) % 2 ^ 32
  | sum, x :: y :: rest => chksumLoop ((sum + (x.toNat + 256 * y.toNat)) % 2 ^ 32) rest

/-- `htons` on a little-endian host. -/
def htons (x : Nat) : Nat := (x % 256) * 256 + (x / 256) % 256

/-- `inet_chksum(sum, buf, length)` (ef.c:132-150), including the single carry fold. -/
def inetChksum (sum : Nat) (b : Buf) : Nat :=
  let s := chksumLoop sum b
  let folded := ((s >>> 16) + (s &&& 0xffff)) % 2 ^ 32
  htons ((2 ^ 32 - 1 - folded) &&& 0xffff)

/-! ## Hex output -/

/-- `print_hex_str` (ef.c:22-29): `%02hhx` per byte. -/
def printHexStr : Buf → CStr
  | [] => []
  | x :: xs => hexChar (x.toNat / 16) :: hexChar (x.toNat % 16) :: printHexStr xs

end Ef
