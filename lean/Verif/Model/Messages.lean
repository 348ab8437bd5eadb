import Verif.Model.HelpTables
import Verif.Model.Output
import Verif.Model.Args

/-!
# Text printed while the command line is parsed

All of it is printed with `po` (to standard output, ef-buf.c:177-184). The functions below follow the parsers of
`ParseBytes` and `Args` and collect what these print; they are only about runs without undefined behaviour. The texts
printed by `mld_fill_defaults` just before it ends the program are in `MldMsgs`.
-/

namespace Ef

/-- A text printed while parsing. -/
inductive Msg where
  /-- ef-args.c:13, without newline -/
  | stackTooBig
  /-- ef-args.c:25-26 -/
  | hdrList
  /-- `print_help` (ef-args.c:89-167) -/
  | usage
  /-- ef.c:333: the fields of a header -/
  | hdrHelp (h : Hdr) (t : HelpText)
  /-- ef.c:383: one field -/
  | fieldHelp (f : Field) (t : Option CStr)
  /-- ef.c:371 -/
  | missingArg (w : CStr)
  /-- ef.c:397 -/
  | multiFailed
  /-- ef-parse-bytes.c:78, 147, 516 -/
  | notHex (s : CStr)
  /-- ef-parse-bytes.c:83, 152, 521 -/
  | notAligned
  /-- `"%s:%d: ..."` with `__FILE__` and `__LINE__` -/
  | at (line : Nat) (s : CStr)
  /-- ef-parse-bytes.c:700 -/
  | subCommands
  /-- ef-args.c:296: words parsed, words given, commands found -/
  | parseError (i argc cmds : Nat)
  deriving Repr

/-! ## Values -/

/-- ef-parse-bytes.c:146-154, 515-523. -/
def hexMsgs (s : CStr) : List Msg :=
  let st := hexScan s
  if st.others || st.cnt = 0 then [.notHex s] else if st.align then [.notAligned] else []

/-- ef-parse-bytes.c:77-85. -/
def binMsgs (s : CStr) : List Msg :=
  let cnt := s.countP isBit
  if s.any (fun c => !isBit c) || cnt = 0 then [.notHex s] else if cnt % 8 ≠ 0 then [.notAligned] else []

/-- The line at which `macStep` gives up (ef-parse-bytes.c:359-405). -/
def macStepLine (st : Mac) (x : Byte) : Nat :=
  match hexVal x with
  | some _ => if st.idx > 5 then 368 else 403
  | none =>
    if isColon x then
      if st.idx > 5 then 368
      else if st.colCnt + 1 = 2 then if st.splitCnt + 1 > 1 then 383 else 388
      else 394
    else 359

/-- The line at which the MAC address parser gives up, if it does (ef-parse-bytes.c:342-429). -/
def macLine (st : Mac) : CStr → Option Nat
  | [] =>
    if st.splitCnt > 1 then some 417
    else if st.elementCnt > 6 then some 422
    else if st.elementCnt ≥ 6 ∧ st.splitCnt > 0 then some 427
    else none
  | x :: xs =>
    match macStep st x with
    | none => some (macStepLine st x)
    | some st' => macLine st' xs

/-- What `parse_bytes` prints (ef-parse-bytes.c:194-482). -/
def parseBytesMsgs (s : CStr) (bytes : Nat) : List Msg :=
  let (start, d) := splitPrefix s
  let base := numBase start d
  if base ≠ 0 ∧ bytes ≤ 8 then []
  else if base = 16 then hexMsgs d
  else if base = 2 then binMsgs d
  else if start = .none ∧ bytes = 4 ∧ ¬ hasOther d ∧ ¬ d.any isColon ∧ d.any isDot then
    if (inetPton4 d).isNone then [.at 312 c!"ERROR, could not parse input as an IPv4 address"] else []
  else if start = .none ∧ bytes = 6 ∧ ¬ hasOther d ∧ ¬ d.any isDot ∧ d.any isColon then
    match macLine Mac.init d with
    | some l => [.at l c!"ERROR"]
    | none => []
  else if start = .none ∧ bytes = 16 ∧ ¬ hasOther d ∧ d.any isColon then
    if (inetPton6 d).isNone then [.at 475 c!"ERROR"] else []
  else []

/-- What `parse_field_hex` prints (ef-parse-bytes.c:566-592). -/
def fieldHexMsgs (s : CStr) (bytes : Nat) : List Msg :=
  match parseVarBytesHex s 0 with
  | .ok (some b) => if b.length > bytes then [.at 583 c!"ERROR: Parsed field size is too large"] else []
  | _ => hexMsgs s

/-- What `parse_var_bytes_` prints (ef-parse-bytes.c:692-760); `parse_var_bytes_repeat` parses the value only if the count
was understood (ef-parse-bytes.c:636-656). -/
def varBytes1Msgs (argv : List CStr) : List Msg :=
  match argv with
  | [] => []
  | w :: rest =>
    if w = c!"help" then [.subCommands]
    else if w = c!"hex" then
      match rest with
      | a :: _ => hexMsgs a
      | [] => []
    else if w = c!"repeat" then
      match rest with
      | a :: b :: _ =>
        match parseUint32 a with
        | .ok (some _) => parseBytesMsgs a 4 ++ parseBytesMsgs b 1
        | _ => parseBytesMsgs a 4
      | _ => []
    else if w = c!"pattern" then
      match rest with
      | _ :: b :: _ => parseBytesMsgs b 4
      | _ => []
    else []

/-- What the loop of `parse_var_bytes` prints (ef-parse-bytes.c:767-800). -/
def varBytesMsgs : Nat → List CStr → List Msg
  | 0, _ => []
  | fuel + 1, argv =>
    if argv = [] then []
    else
      varBytes1Msgs argv ++
        match parseVarBytes1 argv with
        | .ok (.seg _ used) => varBytesMsgs fuel (argv.drop used)
        | _ => []

/-- What `f->parser` or `parse_bytes` print for a field (ef.c:387-390, 401-403). `coap_parse_code` prints nothing. -/
def fieldMsgs (f : Field) (s : CStr) : List Msg :=
  match f.parser with
  | .none => parseBytesMsgs s (bitToByte f.width)
  | .coapCode => []
  | .coapToken => hexMsgs s
  | .profinetData => hexMsgs s
  | .opcUint16 => parseBytesMsgs s 2
  | .fieldHex => fieldHexMsgs s (bitToByte f.width)

/-! ## Headers and frames -/

/-- What the loop of `hdr_parse_fields` prints (ef.c:331-406) for a header with the help texts `t`. -/
def fieldsMsgs (t : HelpText) : Nat → Hdr → Nat → List CStr → List Msg
  | 0, _, _, _ => []
  | fuel + 1, h, i, argv =>
    match argv with
    | [] => []
    | w :: rest =>
      if w = c!"help" then [.hdrHelp h t]
      else if isIgn w ∧ i = 0 then fieldsMsgs t fuel (skipAll h) (i + 1) rest
      else
        match findField h w with
        | none => []
        | some f =>
          let h := setVal h w none
          match rest with
          | [] => [.missingArg w]
          | v :: rest' =>
            if isIgn v then
              fieldsMsgs t fuel (updField h w (fun f => { f with rxSkip := true })) (i + 2) rest'
            else if v = c!"help" then [.fieldHelp f ((t.fields[h.fields.findIdx (fun f => f.name == w)]?).join)]
            else if f.parser = .none ∧ f.multi ≠ .none then
              varBytesMsgs rest.length rest ++
              match runMultiParser h f rest with
              | .ok (h, cnt) =>
                if cnt > 0 ∧ cnt ≤ rest.length then
                  fieldsMsgs t fuel (updField h w (fun f => { f with rxSkip := false })) (i + 1 + cnt) (rest.drop cnt)
                else [.multiFailed]
              | _ => []
            else
              fieldMsgs f v ++
              match runFieldParser h f v with
              | .ok (h, b) => fieldsMsgs t fuel (updField h w (fun f => { f with val := b, rxSkip := false })) (i + 2) rest'
              | _ => []

/-- What the parser of a header prints. -/
def hdrMsgs (t : HelpText) (h : Hdr) (argv : List CStr) : List Msg :=
  match h.parser with
  | .fields => fieldsMsgs t argv.length h 0 argv
  | .payload => varBytesMsgs argv.length argv
  | .padding =>
    match argv with
    | [] => []
    | w :: _ => parseBytesMsgs w 4

/-- The help texts of the header found by `findTmpl`. -/
def findHelp (w : CStr) : HelpText :=
  (hdrHelps[hdrTmpls.findIdx (fun h => h.name == w)]?).getD ⟨none, []⟩

/-- What the loop of `argc_frame` prints (ef-args.c:20-63). -/
def frameMsgs : Nat → Frame → List CStr → List Msg
  | 0, _, _ => []
  | fuel + 1, f, argv =>
    match argv with
    | [] => []
    | w :: rest =>
      if w = c!"help" then [.hdrList]
      else
        match findTmpl w with
        | none => []
        | some t =>
          hdrMsgs (findHelp w) (hdrCopy t) rest ++
          match runHdrParser (hdrCopy t) f.padding f.hasMask rest with
          | .ok (some (n, h, pad, m)) =>
            frameMsgs fuel { f with stack := f.stack ++ [h], padding := pad, hasMask := m } (rest.drop n)
          | _ => []

/-- What `argc_frame` prints (ef-args.c:8-64). -/
def argcFrameMsgs (argv : List CStr) : List Msg :=
  if argv.length > frameStackMax then [.stackTooBig] else frameMsgs argv.length {} argv

/-! ## Commands -/

/-- ef-args.c:231-243. -/
def cmdRestMsgs (t : CmdType) (argv : List CStr) : List Msg :=
  match argv with
  | w :: _ :: _ => if w = c!"name" ∧ t ≠ .name then [] else argcFrameMsgs argv
  | _ => argcFrameMsgs argv

/-- What `argc_cmd` prints (ef-args.c:169-270). -/
def cmdMsgs (hasPcap : Bool) (argv : List CStr) : List Msg :=
  match argv with
  | [] => []
  | w :: rest =>
    match cmdWord hasPcap w with
    | .help => [.usage]
    | .other => []
    | .cmd t =>
      match rest with
      | [] => []
      | _ :: rest' =>
        match t with
        | .hex => cmdRestMsgs .hex rest
        | .tx =>
          match rest' with
          | [] => []
          | r :: rest'' =>
            if r = c!"rep" ∨ r = c!"repeat" then
              match rest'' with
              | [] => []
              | _ :: rest3 => cmdRestMsgs .tx rest3
            else cmdRestMsgs .tx rest'
        | t => cmdRestMsgs t rest'

/-- What the loop of `argc_cmds` and the check behind it print (ef-args.c:278-298): `argc` words in total, `k` commands found so
far. -/
def cmdsMsgs (hasPcap : Bool) (argc : Nat) : Nat → Nat → List CStr → List Msg
  | 0, k, argv => if argv = [] then [] else [.parseError (argc - argv.length) argc k]
  | slots + 1, k, argv =>
    if argv = [] then []
    else
      cmdMsgs hasPcap argv ++
      match argcCmd hasPcap argv with
      | .ok .stop => [.parseError (argc - argv.length) argc k]
      | .ok (.cmd _ used) => cmdsMsgs hasPcap argc slots (k + 1) (argv.drop used)
      | _ => []

/-- Everything printed by `argc_cmds` before the first command is executed. -/
def parseMsgs (hasPcap : Bool) (argv : List CStr) : List Msg := cmdsMsgs hasPcap argv.length 100 0 argv

/-! ## Texts -/

/-- `n` blanks. -/
def blanks (n : Nat) : CStr := List.replicate n ch!" "

/-- `%-20s` and `%-16s`. -/
def padRight (n : Nat) (s : CStr) : CStr := s ++ blanks (n - s.length)

/-- `%3d`. -/
def dec3 (n : Nat) : CStr := blanks (3 - (decStr n).length) ++ decStr n

/-- `field_help` (ef.c:524-541). -/
def fieldHelpText (indent : Nat) (f : Field) (t : Option CStr) : CStr :=
  blanks indent ++ padRight 20 f.name ++ c!"+" ++ dec3 f.offset ++ c!":" ++ dec3 f.width ++ c!" " ++
    c!" " ++ t.getD c!"MISSING FIELD HELP TEXT!" ++ nl

/-- `hdr_help` for one header (ef.c:543-579). -/
def hdrHelpText (indent : Nat) (showFields : Bool) (h : Hdr) (t : HelpText) : CStr :=
  blanks indent ++ padRight 16 h.name ++ c!" " ++ t.hdr.getD c!"MISSING HDR HELP TEXT!" ++ nl ++
  if showFields then
    nl ++ c!"Specify the " ++ h.name ++ c!" header by using one or more of the following fields:" ++ nl ++
    blanks indent ++ c!"- Name ------------ offset:width --- Description --------------------------" ++ nl ++
    (List.zipWith (fieldHelpText (indent + 2)) h.fields (t.fields ++ List.replicate h.fields.length none)).flatten
  else []

/-- `hdr_help(hdr_tmpls, HDR_TMPL_SIZE, 2, 0)` with the line before it (ef-args.c:25-26). -/
def hdrListText : CStr :=
  c!"Specify a frame by using one or more of the following headers:" ++ nl ++
    (List.zipWith (hdrHelpText 2 false) hdrTmpls hdrHelps).flatten

/-- `print_help` (ef-args.c:89-167). -/
def usageText : CStr := usageLines.flatMap (· ++ nl)

/-- The printed text. `file` is `__FILE__` of ef-parse-bytes.c. -/
def msgText (file : CStr) : Msg → CStr
  | .stackTooBig => c!"ERROR: Frame stack size is too big"
  | .hdrList => hdrListText
  | .usage => usageText
  | .hdrHelp h t => hdrHelpText 0 true h t
  | .fieldHelp f t => fieldHelpText 0 f t
  | .missingArg w => c!"ERROR: Missing argument to " ++ w ++ nl
  | .multiFailed => c!"ERROR: parser_multi consumed more words than available" ++ nl
  | .notHex s => c!"ERROR: Could not parse >" ++ s ++ c!"< as a hex string" ++ nl
  | .notAligned =>
    c!"ERROR: hex strings must be byte aligned, and if delimiters are then they must also be byte aligned." ++ nl
  | .at l s => file ++ c!":" ++ decStr l ++ c!": " ++ s ++ nl
  | .subCommands =>
    c!"Supported sub-commands: hex <hex-str>, ascii <str>, ascii0 <str>, repeat <cnt> <val>, pattern (cnt|zero|ones) <cnt>" ++ nl
  | .parseError i n k =>
    c!"Parse error! arg# " ++ decStr i ++ c!" out of " ++ decStr n ++ c!", cmd_idx = " ++ decStr k ++ nl

/-- What the command line `argv` (without options) prints while it is parsed. -/
def printed (hasPcap : Bool) (file : CStr) (argv : List CStr) : CStr := (parseMsgs hasPcap argv).flatMap (msgText file)

end Ef
