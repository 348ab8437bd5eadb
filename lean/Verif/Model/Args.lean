import Verif.Model.Fill

/-!
# Model of the field, header and command parsers

`hdr_parse_fields` (src/ef.c), header specific parsers, and `src/ef-args.c`.
-/

namespace Ef

/-! ## Field parsers -/

/-- `coap_parse_code` (ef-coap.c:29-53). Note that the upper bound of `s[3]` is not checked (the code
tests `s[2] <= '9'` twice). `char` is signed, so `s[3] >= '0'` means 48..127. -/
def coapParseCode (s : CStr) : Option Buf :=
  match s with
  | [s0, s1, s2, s3] =>
    if 48 ≤ s0.toNat ∧ s0.toNat ≤ 55 ∧ s1 = ch!"." ∧ 48 ≤ s2.toNat ∧ s2.toNat ≤ 51 ∧
        48 ≤ s3.toNat ∧ s3.toNat < 128 ∧ s2.toNat ≤ 57 then
      let tmp := (s2.toNat - 48) * 10 + (s3.toNat - 48)
      if tmp < 32 then some [BitVec.ofNat 8 ((s0.toNat - 48) * 32 + tmp)] else none
    else none
  | _ => none

/-- `coap_parse_token` (ef-coap.c:55-79); `COAP_FIELD_TOKEN` is index 5. -/
def coapParseToken (h : Hdr) (s : CStr) : Out (Hdr × Option Buf) := do
  match ← parseVarBytesHex s 1 with
  | none => .ok (h, none)
  | some b =>
    if b.length > 8 ∨ b.length = 0 then .ok (h, none)
    else
      let h := { h with fields := h.fields.modify 5 (fun f => { f with width := b.length * 8 }) }
      .ok (relayoutHdr h, some b)

/-- `profinet_data_parser` (ef-profinet.c:23-42); `PNET_RTC_FIELD_DATA` is index 1. -/
def profinetDataParser (h : Hdr) (s : CStr) : Out (Hdr × Option Buf) := do
  match ← parseVarBytesHex s 40 with
  | none => .ok (h, none)
  | some b =>
    let h := { h with fields := h.fields.modify 1 (fun f => { f with width := b.length * 8 }) }
    .ok (relayoutHdr h, some b)

/-- `opc_parse_uint16` (ef-opcua.c:5-15): swap the two bytes. -/
def opcParseUint16 (s : CStr) : Out (Option Buf) := do
  match ← parseBytes s 2 with
  | none => .ok none
  | some b =>
    match b with
    | x :: y :: rest => .ok (some (y :: x :: rest))
    | _ => .ub .oobRead

/-- `field_parse_multi_var_byte` (ef-parse-bytes.c:808-827) for field `name`: words used and the new
header; 0 words on failure. -/
def fieldParseMultiVarByte (h : Hdr) (name : CStr) (argv : List CStr) : Out (Hdr × Nat) := do
  match ← parseVarBytes argv with
  | some (res, some b) =>
    if res > 1 ∧ res ≤ argv.length then
      let h := updField h name (fun f => { f with val := some b, width := b.length * 8 })
      .ok ({ h with size := h.size + b.length }, res)
    else .ok (h, 0)
  | some (res, none) =>
    if res > 1 ∧ res ≤ argv.length then .ub .nullDeref else .ok (h, 0)
  | none => .ok (h, 0)

/-- `coap_parse_option_value` (ef-coap.c:245-272): an all-zero value is truncated to length 0. `hdr->size` has
just grown by the length of the value, so the subtraction does not go below zero. -/
def coapParseOptionValue (h : Hdr) (name : CStr) (argv : List CStr) : Out (Hdr × Nat) := do
  let (h, res) ← fieldParseMultiVarByte h name argv
  if res > 1 ∧ res ≤ argv.length then
    let f ← getField h name
    match f.val with
    | none => .ub .nullDeref
    | some b =>
      if b.all (· == 0#8) then
        let h := updField h name (fun f => { f with val := some [], width := 0 })
        .ok ({ h with size := h.size - b.length }, res)
      else .ok (h, res)
  else .ok (h, res)

/-- `coap_parse_parms` (ef-coap.c:81-109). `b` is not initialised; when `parse_var_bytes` does not assign
it, `if (b) bfree(b)` uses it. -/
def coapParseParms (h : Hdr) (name : CStr) (argv : List CStr) : Out (Hdr × Nat) := do
  match ← parseVarBytes argv with
  | some (res, some b) =>
    if res > 1 ∧ res ≤ argv.length then
      let bb := 0xff#8 :: b
      let h := updField h name (fun f => { f with val := some bb, width := bb.length * 8 })
      .ok ({ h with size := bb.length }, res)
    else .ok (h, 0)
  | _ => .ub .uninit

/-- `f->parser(hdr, offset, argv[i], bytes)` for a field with a parser function, else
`parse_bytes(argv[i], bytes)` (ef.c:387-390, 401-403). -/
def runFieldParser (h : Hdr) (f : Field) (s : CStr) : Out (Hdr × Option Buf) :=
  match f.parser with
  | .none => do .ok (h, ← parseBytes s (bitToByte f.width))
  | .coapCode => .ok (h, coapParseCode s)
  | .coapToken => coapParseToken h s
  | .profinetData => profinetDataParser h s
  | .opcUint16 => do .ok (h, ← opcParseUint16 s)
  | .fieldHex => do .ok (h, ← parseFieldHex s (bitToByte f.width))

/-- `f->parser_multi(hdr, offset, f, argc - i, argv + i)` (ef.c:392). -/
def runMultiParser (h : Hdr) (f : Field) (argv : List CStr) : Out (Hdr × Nat) :=
  match f.multi with
  | .none => .ok (h, 0)
  | .coapOptVal => coapParseOptionValue h f.name argv
  | .coapParms => coapParseParms h f.name argv

/-- `"ign"` or `"ignore"`. -/
def isIgn (w : CStr) : Bool := w = c!"ign" || w = c!"ignore"

/-- Set `rx_match_skip` of all fields (ef.c:342-343). -/
def skipAll (h : Hdr) : Hdr := { h with fields := h.fields.map (fun f => { f with rxSkip := true }) }

/-- Loop of `hdr_parse_fields` (ef.c:331-406), `i` words consumed, `argv` the remaining words. Result:
`none` for -1, else consumed words, header, and `has_mask`. `fuel` bounds the iterations (the number
of remaining words is enough, every iteration consumes at least one).
The variable `field_ignore` is never set, its branch (ef.c:355-360) is dead and left out. -/
def parseFieldsLoop : Nat → Hdr → Bool → Nat → List CStr → Out (Option (Nat × Hdr × Bool))
  | 0, h, m, i, _ => .ok (some (i, h, m))
  | fuel + 1, h, m, i, argv =>
    match argv with
    | [] => .ok (some (i, h, m))
    | w :: rest =>
      if w = c!"help" then .ok none
      else if isIgn w ∧ i = 0 then parseFieldsLoop fuel (skipAll h) true (i + 1) rest
      else
        match findField h w with
        | none => .ok (some (i, h, m))
        | some f =>
          let h := setVal h w none
          match rest with
          | [] => .ok none
          | v :: rest' =>
            if isIgn v then
              parseFieldsLoop fuel (updField h w (fun f => { f with rxSkip := true })) true (i + 2) rest'
            else if v = c!"help" then .ok none
            else if f.parser = .none ∧ f.multi ≠ .none then do
              let (h, cnt) ← runMultiParser h f rest
              if cnt > 0 ∧ cnt ≤ rest.length then
                parseFieldsLoop fuel (updField h w (fun f => { f with rxSkip := false })) m (i + 1 + cnt) (rest.drop cnt)
              else .ok none
            else do
              let (h, b) ← runFieldParser h f v
              parseFieldsLoop fuel (updField h w (fun f => { f with val := b, rxSkip := false })) m (i + 2) rest'

/-- `hdr_parse_fields` (ef.c:325-409). -/
def parseFields (h : Hdr) (m : Bool) (argv : List CStr) : Out (Option (Nat × Hdr × Bool)) :=
  parseFieldsLoop argv.length h m 0 argv

/-- `payload_parser` (ef-payload.c:3-19). Nothing given leaves the header as it is. -/
def payloadParser (h : Hdr) (argv : List CStr) : Out (Option (Nat × Hdr)) := do
  match ← parseVarBytes argv with
  | none => .ok none
  | some (res, b) =>
    if res = 0 then .ok (some (0, h))
    else
      match b with
      | none => .ub .nullDeref
      | some b =>
        .ok (some (res, { h with
          size := b.length
          fields := h.fields.modify 0 (fun f => { f with width := b.length * 8, val := some b }) }))

/-- Conversion of a `uint32_t` to `int`. -/
def u32ToInt (n : Nat) : Int := if n < 2 ^ 31 then n else (n : Int) - 2 ^ 32

/-- `padding_parser` (ef-padding.c:3-18): the new `padding_len`. -/
def paddingParser (argv : List CStr) : Out (Option Int) := do
  match argv with
  | [] => .ok none
  | w :: _ =>
    match ← parseUint32 w with
    | none => .ok none
    | some n => .ok (some (u32ToInt n))

/-- `h->parser(f, h, offset, argc - i, argv + i)` (ef-args.c:53) on a pushed header: consumed words, the
header, padding and mask flag of the frame. -/
def runHdrParser (h : Hdr) (pad : Int) (m : Bool) (argv : List CStr) :
    Out (Option (Nat × Hdr × Int × Bool)) :=
  match h.parser with
  | .fields => do
    match ← parseFields h m argv with
    | none => .ok none
    | some (n, h, m) => .ok (some (n, h, pad, m))
  | .payload => do
    match ← payloadParser h argv with
    | none => .ok none
    | some (n, h) => .ok (some (n, h, pad, m))
  | .padding => do
    match ← paddingParser argv with
    | none => .ok none
    | some p => .ok (some (1, h, p, m))

/-- Template lookup (ef-args.c:30-37). -/
def findTmpl (w : CStr) : Option Hdr := hdrTmpls.find? (fun h => h.name == w)

/-- `frame_clone_and_push_hdr` (ef.c:316-323): undefined if the stack array, of `cap` elements, is full. -/
def pushHdr (cap : Nat) (f : Frame) (h : Hdr) : Out Frame :=
  if f.stack.length < cap then .ok { f with stack := f.stack ++ [hdrCopy h] } else .ub .oobWrite

/-- Loop of `argc_frame` (ef-args.c:20-63), with a stack array of `cap` elements. `none` is -1. The parser works on the
header pushed last. -/
def argcFrameLoop (cap : Nat) : Nat → Frame → Nat → List CStr → Out (Option (Nat × Frame))
  | 0, f, i, _ => .ok (some (i, f))
  | fuel + 1, f, i, argv =>
    match argv with
    | [] => .ok (some (i, f))
    | w :: rest =>
      if w = c!"help" then .ok none
      else
        match findTmpl w with
        | none => .ok (some (i, f))
        | some t => do
          let f' ← pushHdr cap f t
          match ← runHdrParser (hdrCopy t) f.padding f.hasMask rest with
          | none => .ok none
          | some (n, h, pad, m) =>
            let f'' := { f' with stack := f.stack ++ [h], padding := pad, hasMask := m }
            argcFrameLoop cap fuel f'' (i + 1 + n) (rest.drop n)

/-- `argc_frame` (ef-args.c:8-64). -/
def argcFrame (argv : List CStr) : Out (Option (Nat × Frame)) :=
  if argv.length > frameStackMax then .ok none
  else argcFrameLoop frameStackMax argv.length {} 0 argv

/-! ## Commands -/

/-- `cmd_type_t` (ef.h:261-270). `pcap` only exists when built with libpcap. -/
inductive CmdType where
  | name | pcap | hex | rx | tx
  deriving DecidableEq, Repr

/-- `cmd_t` (ef.h:273-283). The `next` pointers are represented by lists, see `Exec`. -/
structure Cmd where
  type : CmdType
  name : Option CStr := none
  arg0 : Option CStr := none
  frame : Option Frame := none
  /-- `frame_buf` -/
  buf : Option Buf := none
  /-- `frame_mask_buf` -/
  mask : Option Buf := none
  done : Bool := false
  /-- `repeat`, a `uint32_t` -/
  rep : Nat := 0
  deriving DecidableEq, Repr

/-- Digits of `atoi`. -/
def atoiLoop : CStr → Nat → Nat
  | [], acc => acc
  | c :: cs, acc => if 48 ≤ c.toNat ∧ c.toNat ≤ 57 then atoiLoop cs (acc * 10 + (c.toNat - 48)) else acc

/-- `isspace` in the C locale. -/
def isSpace (c : Byte) : Bool := c = 32#8 || (9 ≤ c.toNat && c.toNat ≤ 13)

/-- `atoi` with the value clipped to `long` like `strtol` and converted to `int` (glibc). -/
def atoi (s : CStr) : Int :=
  let s := s.dropWhile isSpace
  let v : Int :=
    match s with
    | c :: cs =>
      if c = ch!"-" then max (-(atoiLoop cs 0 : Int)) (-(2 ^ 63))
      else if c = ch!"+" then min (atoiLoop cs 0 : Int) (2 ^ 63 - 1)
      else min (atoiLoop s 0 : Int) (2 ^ 63 - 1)
    | [] => 0
  u32ToInt (v % 2 ^ 32).toNat

/-- The command word (ef-args.c:177-194); `pcap` depends on the build configuration. -/
inductive CmdWord where
  | cmd (t : CmdType)
  | help
  | other
  deriving DecidableEq, Repr

/-- ef-args.c:177-194. -/
def cmdWord (hasPcap : Bool) (w : CStr) : CmdWord :=
  if w = c!"name" then .cmd .name
  else if hasPcap ∧ w = c!"pcap" then .cmd .pcap
  else if w = c!"hex" then .cmd .hex
  else if w = c!"rx" then .cmd .rx
  else if w = c!"tx" then .cmd .tx
  else if w = c!"help" then .help
  else .other

/-- Result of `argc_cmd`: an error, "no command here" (0), or a command and the number of words. -/
inductive CmdRes where
  | err
  | stop
  | cmd (c : Cmd) (used : Nat)
  deriving DecidableEq, Repr

/-- The end of `argc_cmd` (ef-args.c:240-269): parse a frame and serialise it. `i` words are consumed. -/
def argcCmdFrame (c : Cmd) (i : Nat) (argv : List CStr) : Out CmdRes := do
  match ← argcFrame argv with
  | none => .ok .err
  | some (n, f) =>
    if n = 0 then
      if c.type = .rx then .ok (.cmd c i) else .ok .stop
    else
      let (f', b) ← frameToBuf f
      if f'.hasMask then
        let m ← frameMaskToBuf f'
        .ok (.cmd { c with frame := some f', buf := some b, mask := some m } (i + n))
      else .ok (.cmd { c with frame := some f', buf := some b } (i + n))

/-- ef-args.c:231-243: a reference by name, or a frame. -/
def argcCmdRest (c : Cmd) (i : Nat) (argv : List CStr) : Out CmdRes :=
  match argv with
  | w :: n :: _ =>
    if w = c!"name" ∧ c.type ≠ .name then .ok (.cmd { c with name := some n } (i + 2))
    else argcCmdFrame c i argv
  | _ => argcCmdFrame c i argv

/-- `argc_cmd` (ef-args.c:169-270). After the last word, `argv` is a NULL pointer which `tx` dereferences
without checking (ef-args.c:225-226). -/
def argcCmd (hasPcap : Bool) (argv : List CStr) : Out CmdRes :=
  match argv with
  | [] => .ok .stop
  | w :: rest =>
    match cmdWord hasPcap w with
    | .help => .ok .err
    | .other => .ok .stop
    | .cmd t =>
      match rest with
      | [] => .ok .stop
      | a :: rest' =>
        match t with
        | .name => argcCmdRest { type := .name, name := some a } 2 rest'
        | .hex => argcCmdRest { type := .hex } 1 rest
        | .pcap => argcCmdRest { type := .pcap, arg0 := some a } 2 rest'
        | .rx => argcCmdRest { type := .rx, arg0 := some a } 2 rest'
        | .tx =>
          match rest' with
          | [] => .ub .nullDeref
          | r :: rest'' =>
            if r = c!"rep" ∨ r = c!"repeat" then
              match rest'' with
              | [] => .ub .nullDeref
              | n :: rest3 =>
                argcCmdRest { type := .tx, arg0 := some a, rep := (atoi n % 2 ^ 32).toNat } 4 rest3
            else argcCmdRest { type := .tx, arg0 := some a, rep := 1 } 2 rest'

/-- Loop of `argc_cmds` (ef-args.c:278-293): at most `slots` further commands. Result: `none` for
`return -1`, else the commands and the remaining words. -/
def argcCmdsLoop (hasPcap : Bool) : Nat → List CStr → Out (Option (List Cmd × List CStr))
  | 0, argv => .ok (some ([], argv))
  | slots + 1, argv =>
    if argv = [] then .ok (some ([], argv))
    else do
      match ← argcCmd hasPcap argv with
      | .err => .ok none
      | .stop => .ok (some ([], argv))
      | .cmd c used => do
        match ← argcCmdsLoop hasPcap slots (argv.drop used) with
        | none => .ok none
        | some (cs, rest) => .ok (some (c :: cs, rest))

/-- The parsing part of `argc_cmds` (ef-args.c:272-298): the commands, or `none` for `return -1`. -/
def parseCmds (hasPcap : Bool) (argv : List CStr) : Out (Option (List Cmd)) := do
  match ← argcCmdsLoop hasPcap 100 argv with
  | none => .ok none
  | some (cs, rest) => if rest = [] then .ok (some cs) else .ok none

end Ef
