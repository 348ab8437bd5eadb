import Verif.Model.Libc

/-!
# Model of `src/ef-parse-bytes.c`
-/

namespace Ef

/-- `balloc(size)` (ef-buf.c:14-27): zero initialised. Allocation failure is not modelled. -/
def balloc (size : Nat) : Buf := List.replicate size 0#8

/-! ## Hexadecimal and binary strings -/

/-- Value of a hexadecimal digit character (ef-parse-bytes.c:163-174, 536-547, 346-353). -/
def hexVal (c : Byte) : Option Byte :=
  let n := c.toNat
  if 48 ≤ n ∧ n ≤ 57 then some (c - 48#8)
  else if 97 ≤ n ∧ n ≤ 102 then some (c - 97#8 + 10#8)
  else if 65 ≤ n ∧ n ≤ 70 then some (c - 65#8 + 10#8)
  else none

/-- `'.' ':' '-' '_'` (ef-parse-bytes.c:133, 502). -/
def isDelim (c : Byte) : Bool := c = ch!"." || c = ch!":" || c = ch!"-" || c = ch!"_"

/-- Counters of the first pass over a hex string (ef-parse-bytes.c:121-124, 490-493). -/
structure HexScan where
  cnt : Nat
  others : Bool
  align : Bool
  deriving DecidableEq, Repr

/-- One character of the first pass (ef-parse-bytes.c:126-140, 495-509). -/
def hexScanStep (st : HexScan) (c : Byte) : HexScan :=
  match hexVal c with
  | some _ => { st with cnt := st.cnt + 1 }
  | none =>
    if isDelim c then
      if st.cnt % 2 ≠ 0 then { st with align := true } else st
    else { st with others := true }

/-- The first pass including the final alignment check (ef-parse-bytes.c:126-144, 495-513). -/
def hexScan (s : CStr) : HexScan :=
  let st := s.foldl hexScanStep { cnt := 0, others := false, align := false }
  if st.cnt % 2 ≠ 0 then { st with align := true } else st

/-- `*p |= v` on a buffer, undefined outside of it. The pointer is given as an index relative to
`data`, which may be negative. -/
def orByteAt (b : Buf) (p : Int) (v : Byte) : Out Buf :=
  if 0 ≤ p ∧ p < b.length then .ok (b.modify p.toNat (· ||| v)) else .ub .oobWrite

/-- `*p <<= k` on a buffer, undefined outside of it. -/
def shlByteAt (b : Buf) (p : Int) (k : Nat) : Out Buf :=
  if 0 ≤ p ∧ p < b.length then .ok (b.modify p.toNat (· <<< k)) else .ub .oobWrite

/-- The second pass over a hex string (ef-parse-bytes.c:162-188 and 532-561, identical text).
`p` is `p_o - b->data`. -/
def hexWrite : CStr → Int → Nat → Buf → Out Buf
  | [], _, _, b => .ok b
  | c :: cs, p, cnt, b =>
    match hexVal c with
    | some v => do
      let b ← orByteAt b p v
      if (cnt + 1) % 2 = 1 then
        let b ← shlByteAt b p 4
        hexWrite cs p (cnt + 1) b
      else
        hexWrite cs (p + 1) (cnt + 1) b
    | none => hexWrite cs p cnt b

/-- `parse_bytes_hex(s, size)` (ef-parse-bytes.c:115-191). -/
def parseBytesHex (s : CStr) (size : Nat) : Out (Option Buf) :=
  let st := hexScan s
  if st.others || st.cnt = 0 then .ok none
  else if st.align then .ok none
  else do
    let b ← hexWrite s ((size : Int) - (st.cnt / 2 : Nat)) 0 (balloc size)
    .ok (some b)

/-- `parse_var_bytes_hex(s, min_size)` (ef-parse-bytes.c:484-564). -/
def parseVarBytesHex (s : CStr) (minSize : Nat) : Out (Option Buf) :=
  let st := hexScan s
  if st.others || st.cnt = 0 then .ok none
  else if st.align then .ok none
  else do
    let b ← hexWrite s 0 0 (if st.cnt / 2 > minSize then balloc (st.cnt / 2) else balloc minSize)
    .ok (some b)

/-- `'0'` or `'1'` (ef-parse-bytes.c:66, 94). -/
def isBit (c : Byte) : Bool := c = ch!"0" || c = ch!"1"

/-- The second pass over a binary string (ef-parse-bytes.c:93-110). -/
def binWrite : CStr → Int → Nat → Buf → Out Buf
  | [], _, _, b => .ok b
  | c :: cs, p, cnt, b =>
    if isBit c then do
      let b ← orByteAt b p (c - 48#8)
      if (cnt + 1) % 8 = 0 then
        binWrite cs (p + 1) (cnt + 1) b
      else
        let b ← shlByteAt b p 1
        binWrite cs p (cnt + 1) b
    else binWrite cs p cnt b

/-- `parse_bytes_binary(s, size)` (ef-parse-bytes.c:54-113). -/
def parseBytesBinary (s : CStr) (size : Nat) : Out (Option Buf) :=
  let cnt := s.countP isBit
  let others := s.any (fun c => !isBit c)
  if others || cnt = 0 then .ok none
  else if cnt % 8 ≠ 0 then .ok none
  else do
    let b ← binWrite s ((size : Int) - (cnt / 8 : Nat)) 0 (balloc size)
    .ok (some b)

/-! ## `parse_bytes` -/

/-- `start_withs` (ef-parse-bytes.c:13-23). -/
inductive Prefix where
  | none | x | o | b
  deriving DecidableEq, Repr

/-- Recognise the prefix; the result is `start_mask` and `data_begin` (ef-parse-bytes.c:205-212). -/
def splitPrefix (s : CStr) : Prefix × CStr :=
  if s.take 2 = c!"0x" then (.x, s.drop 2)
  else if s.take 2 = c!"0o" then (.o, s.drop 2)
  else if s.take 2 = c!"0b" then (.b, s.drop 2)
  else (.none, s)

/-- Character sets of `has_chars` (ef-parse-bytes.c:45-52). -/
def inBase2 (c : Byte) : Bool := (c!"01").contains c
/-- ef-parse-bytes.c:47 -/
def inBase8 (c : Byte) : Bool := (c!"234567").contains c
/-- ef-parse-bytes.c:48 -/
def inBase10 (c : Byte) : Bool := (c!"89").contains c
/-- ef-parse-bytes.c:49 -/
def inBase16 (c : Byte) : Bool := (c!"aAbBcCdDeEfF").contains c
/-- ef-parse-bytes.c:50 -/
def isDot (c : Byte) : Bool := c = ch!"."
/-- ef-parse-bytes.c:51 -/
def isColon (c : Byte) : Bool := c = ch!":"

/-- `has_other` (ef-parse-bytes.c:215-230). The usage counters `cnt` in `has_chars` are never read and
are not modelled. -/
def hasOther (d : CStr) : Bool :=
  d.any fun c => !(inBase2 c || inBase8 c || inBase10 c || inBase16 c || isDot c || isColon c)

/-- The number base, 0 if it is not a number (ef-parse-bytes.c:232-253). -/
def numBase (start : Prefix) (d : CStr) : Nat :=
  if start = .x ∧ ¬ hasOther d ∧ ¬ (d.any isDot || d.any isColon) then 16
  else if start = .none ∧ ¬ hasOther d ∧ ¬ (d.any inBase16 || d.any isDot || d.any isColon) then 10
  else if start = .o ∧ ¬ hasOther d ∧
      ¬ (d.any inBase10 || d.any inBase16 || d.any isDot || d.any isColon) then 8
  else if start = .b ∧ ¬ hasOther d ∧
      ¬ (d.any inBase8 || d.any inBase10 || d.any inBase16 || d.any isDot || d.any isColon) then 2
  else 0

/-- `htobe64(val)` seen as bytes in memory (ef-parse-bytes.c:266-273). -/
def be64 (v : Nat) : Buf :=
  [BitVec.ofNat 8 (v >>> 56), BitVec.ofNat 8 (v >>> 48), BitVec.ofNat 8 (v >>> 40), BitVec.ofNat 8 (v >>> 32),
   BitVec.ofNat 8 (v >>> 24), BitVec.ofNat 8 (v >>> 16), BitVec.ofNat 8 (v >>> 8), BitVec.ofNat 8 v]

/-- Local variables of the MAC address parser (ef-parse-bytes.c:319, 332-337). -/
structure Mac where
  m : Buf
  idx : Nat
  split : Nat
  splitCnt : Nat
  valCnt : Nat
  colCnt : Nat
  elementCnt : Nat
  deriving DecidableEq, Repr

/-- Initial values (ef-parse-bytes.c:319, 332-337). -/
def Mac.init : Mac := ⟨balloc 6, 0, 0, 0, 0, 0, 0⟩

/-- One character of the MAC address parser; `none` is "return 0" (ef-parse-bytes.c:342-414). -/
def macStep (st : Mac) (x : Byte) : Option Mac :=
  match hexVal x with
  | some v =>
    if st.idx > 5 then none
    else
      let valCnt := st.valCnt + 1
      if valCnt > 2 then none
      else some { st with
        valCnt := valCnt
        colCnt := 0
        elementCnt := if valCnt = 1 then st.elementCnt + 1 else st.elementCnt
        m := st.m.modify st.idx (fun b => (b <<< 4) ||| v) }
  | none =>
    if isColon x then
      if st.idx > 5 then none
      else
        let idx := if st.valCnt ≠ 0 ∧ st.colCnt = 0 then st.idx + 1 else st.idx
        let colCnt := st.colCnt + 1
        if colCnt = 2 then
          if st.splitCnt + 1 > 1 then none
          else if st.split ≠ 0 then none
          else some { st with idx := idx, valCnt := 0, colCnt := colCnt, splitCnt := st.splitCnt + 1, split := idx }
        else if colCnt > 2 then none
        else some { st with idx := idx, valCnt := 0, colCnt := colCnt }
    else none

/-- `memmove(m + to, m + from, size)` on an array (no overlap problem; in bounds when `to + size` and
`from + size` do not exceed the length). -/
def memmove (m : Buf) (to frm size : Nat) : Buf :=
  m.take to ++ (m.drop frm).take size ++ m.drop (to + size)

/-- `memset(m + p, 0, n)` on an array. -/
def memzero (m : Buf) (p n : Nat) : Buf :=
  m.take p ++ List.replicate n 0#8 ++ m.drop (p + n)

/-- The end of the MAC address parser (ef-parse-bytes.c:416-453): shift the elements behind the split
to the end. A negative `move_size` would be undefined. -/
def macFinish (st : Mac) : Out (Option Buf) :=
  if st.splitCnt > 1 then .ok none
  else if st.elementCnt > 6 then .ok none
  else if st.elementCnt ≥ 6 ∧ st.splitCnt > 0 then .ok none
  else if st.elementCnt < st.split then .ub .badLength
  else
    let to := 6 - st.elementCnt + st.split
    let m := memmove st.m to st.split (st.elementCnt - st.split)
    .ok (some (memzero m st.split (to - st.split)))

/-- The MAC branch of `parse_bytes` (ef-parse-bytes.c:316-453). -/
def parseMac (d : CStr) : Out (Option Buf) :=
  match d.foldlM macStep Mac.init with
  | none => .ok none
  | some st => macFinish st

/-- `parse_bytes(s, bytes)` (ef-parse-bytes.c:194-482). Messages on stdout are not modelled. -/
def parseBytes (s : CStr) (bytes : Nat) : Out (Option Buf) :=
  let (start, d) := splitPrefix s
  let base := numBase start d
  if base ≠ 0 ∧ bytes ≤ 8 then
    match strtoull d base with
    | (some v, []) => .ok (some ((be64 v).drop (8 - bytes)))
    | _ => .ok none
  else if base = 16 then parseBytesHex d bytes
  else if base = 2 then parseBytesBinary d bytes
  else if start = .none ∧ bytes = 4 ∧ ¬ hasOther d ∧ ¬ d.any isColon ∧ d.any isDot then
    .ok (inetPton4 d)
  else if start = .none ∧ bytes = 6 ∧ ¬ hasOther d ∧ ¬ d.any isDot ∧ d.any isColon then
    parseMac d
  else if start = .none ∧ bytes = 16 ∧ ¬ hasOther d ∧ d.any isColon then
    .ok (inetPton6 d)
  else .ok none

/-! ## Field and payload helpers -/

/-- `parse_field_hex(hdr, hdr_offset, s, bytes)` (ef-parse-bytes.c:566-592). `memset(.., sizeof(bytes))`
writes 4 bytes, which is outside the buffer if `bytes < 4`. -/
def parseFieldHex (s : CStr) (bytes : Nat) : Out (Option Buf) := do
  match ← parseVarBytesHex s 0 with
  | none => .ok none
  | some b =>
    if b.length > bytes then .ok none
    else if bytes < 4 then .ub .oobWrite
    else .ok (some (b ++ balloc (bytes - b.length)))

/-- `parse_uint8` (ef-parse-bytes.c:610-620); `none` is -1. -/
def parseUint8 (s : CStr) : Out (Option Byte) := do
  match ← parseBytes s 1 with
  | none => .ok none
  | some b =>
    match b with
    | x :: _ => .ok (some x)
    | [] => .ub .oobRead

/-- Big-endian value of four bytes (`be32toh`, ef-parse-bytes.c:629-630). -/
def be32 (a b c d : Byte) : Nat := ((a.toNat * 256 + b.toNat) * 256 + c.toNat) * 256 + d.toNat

/-- `parse_uint32` (ef-parse-bytes.c:622-634); `none` is -1. -/
def parseUint32 (s : CStr) : Out (Option Nat) := do
  match ← parseBytes s 4 with
  | none => .ok none
  | some b =>
    match b with
    | a :: b :: c :: d :: _ => .ok (some (be32 a b c d))
    | _ => .ub .oobRead

/-- `parse_var_bytes_ascii` (ef-parse-bytes.c:594-600). -/
def parseVarBytesAscii (s : CStr) : Buf := s

/-- `parse_var_bytes_ascii0` (ef-parse-bytes.c:602-608). -/
def parseVarBytesAscii0 (s : CStr) : Buf := s ++ [0#8]

/-- `parse_var_bytes_repeat` (ef-parse-bytes.c:636-656). -/
def parseVarBytesRepeat (cnt val : CStr) : Out (Option Buf) := do
  match ← parseUint32 cnt with
  | none => .ok none
  | some n =>
    match ← parseUint8 val with
    | none => .ok none
    | some v => .ok (some (List.replicate n v))

/-- The counting pattern: a `uint8_t` incremented per byte (ef-parse-bytes.c:672-673). -/
def cntPattern : Nat → Byte → Buf
  | 0, _ => []
  | n + 1, v => v :: cntPattern n (v + 1#8)

/-- `parse_var_bytes_pattern` (ef-parse-bytes.c:658-688). -/
def parseVarBytesPattern (pat len : CStr) : Out (Option Buf) := do
  match ← parseUint32 len with
  | none => .ok none
  | some n =>
    if pat = c!"cnt" then .ok (some (cntPattern n 0#8))
    else if pat = c!"zero" then .ok (some (List.replicate n 0#8))
    else if pat = c!"ones" then .ok (some (List.replicate n 0xff#8))
    else .ok none

/-- Result of `parse_var_bytes_`: -1, 0 (no segment), or a segment and the words it used. -/
inductive Seg where
  | err
  | stop
  | seg (b : Buf) (used : Nat)
  deriving DecidableEq, Repr

/-- Translate "b may be NULL" at the end of `parse_var_bytes_` (ef-parse-bytes.c:752-759). -/
def Seg.ofOpt (used : Nat) : Option Buf → Seg
  | none => .err
  | some b => .seg b used

/-- `parse_var_bytes_` (ef-parse-bytes.c:692-760). -/
def parseVarBytes1 (argv : List CStr) : Out Seg :=
  match argv with
  | [] => .ok .stop
  | w :: rest =>
    if w = c!"help" then .ok .err
    else if w = c!"hex" then
      match rest with
      | a :: _ => do .ok (Seg.ofOpt 2 (← parseVarBytesHex a 0))
      | [] => .ok .err
    else if w = c!"ascii" then
      match rest with
      | a :: _ => .ok (.seg (parseVarBytesAscii a) 2)
      | [] => .ok .err
    else if w = c!"ascii0" then
      match rest with
      | a :: _ => .ok (.seg (parseVarBytesAscii0 a) 2)
      | [] => .ok .err
    else if w = c!"repeat" then
      match rest with
      | a :: b :: _ => do .ok (Seg.ofOpt 3 (← parseVarBytesRepeat a b))
      | _ => .ok .err
    else if w = c!"pattern" then
      match rest with
      | a :: b :: _ => do .ok (Seg.ofOpt 3 (← parseVarBytesPattern a b))
      | _ => .ok .err
    else .ok .stop

/-- Loop of `parse_var_bytes` (ef-parse-bytes.c:767-800). `i` words are consumed so far, `acc` is
`b_res`. The result is `none` for -1, else the number of words and `*b_out` if it was assigned.
`fuel` bounds the iterations; the number of remaining words is always enough. -/
def parseVarBytesLoop : Nat → List CStr → Nat → Option Buf → Out (Option (Nat × Option Buf))
  | 0, _, i, acc => .ok (some (i, acc))
  | fuel + 1, argv, i, acc =>
    if argv = [] then .ok (some (i, acc))
    else do
      match ← parseVarBytes1 argv with
      | .err => .ok none
      | .stop => .ok (some (i, acc))
      | .seg b used =>
        parseVarBytesLoop fuel (argv.drop used) (i + used)
          (some (match acc with | some r => r ++ b | none => b))

/-- `parse_var_bytes(&b, argc, argv)` (ef-parse-bytes.c:762-806): `none` is -1; otherwise the number of
words consumed and the buffer stored in `*b` (`none`: `*b` is left untouched). -/
def parseVarBytes (argv : List CStr) : Out (Option (Nat × Option Buf)) :=
  parseVarBytesLoop argv.length argv 0 none

end Ef
