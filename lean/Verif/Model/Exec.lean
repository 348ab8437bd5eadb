import Verif.Model.Args

/-!
# Model of `src/ef-exec.c`

The operating system (sockets, `select`, clock) is an arbitrary history of answers. Everything observable is
recorded as a list of events in the order in which it happens.
-/

namespace Ef

/-! ## Time (the `timeradd`/`timersub`/`timercmp` macros of `<sys/time.h>`) -/

/-- `struct timeval`. The members are mathematical integers. -/
structure TimeVal where
  sec : Int
  usec : Int
  deriving DecidableEq, Repr

/-- `timeradd`. -/
def timerAdd (a b : TimeVal) : TimeVal :=
  if a.usec + b.usec ≥ 1000000 then ⟨a.sec + b.sec + 1, a.usec + b.usec - 1000000⟩
  else ⟨a.sec + b.sec, a.usec + b.usec⟩

/-- `timersub`. -/
def timerSub (a b : TimeVal) : TimeVal :=
  if a.usec - b.usec < 0 then ⟨a.sec - b.sec - 1, a.usec - b.usec + 1000000⟩
  else ⟨a.sec - b.sec, a.usec - b.usec⟩

/-- `timercmp(a, b, >)`. -/
def timerGt (a b : TimeVal) : Bool := if a.sec = b.sec then a.usec > b.usec else a.sec > b.sec

/-- `timercmp(a, b, <)`. -/
def timerLt (a b : TimeVal) : Bool := if a.sec = b.sec then a.usec < b.usec else a.sec < b.sec

/-- The timeout as a `timeval` (ef-exec.c:475-476, ef-args.c:302-303). C division truncates. -/
def timeoutVal (ms : Int) : TimeVal := ⟨ms.tdiv 1000, (ms - ms.tdiv 1000 * 1000) * 1000⟩

/-! ## Configuration, events, environment -/

/-- Build configuration. -/
structure Config where
  /-- `HAS_LIBPCAP` -/
  hasPcap : Bool
  /-- `TP_STATUS_VLAN_TPID_VALID` is defined by the kernel headers -/
  hasTpid : Bool
  deriving DecidableEq, Repr

/-- The observable effects of `exec_cmds`. Each printed line is one event (its text is `eventText`, see
`Output`), each `select` and `send` call and each frame appended to a pcap file is one event. -/
inductive Event where
  /-- `NAME:` line, with the `NAME MASK:` line if there is a mask -/
  | named (name : CStr) (frame : Buf) (mask : Option Buf)
  /-- `No frame in inventory called` -/
  | noSuchName (name : CStr)
  /-- frame appended to a pcap file -/
  | pcap (file : CStr) (frame : Buf)
  /-- output of the `hex` command; with mask it is the `DATA:`/`MASK:` form -/
  | hex (frame : Buf) (mask : Option Buf)
  /-- a socket is opened for the interface -/
  | opened (iface : CStr)
  /-- a call of `select` with this timeout -/
  | wait (left : TimeVal)
  /-- `RX-OK` line: received bytes on interface, name and mask of the command -/
  | rxOk (iface : CStr) (frame : Buf) (name : Option CStr) (mask : Option Buf)
  /-- `RX-ERR` line -/
  | rxErr (iface : CStr) (frame : Buf)
  /-- a call of `send` on the socket of the interface, with its result -/
  | send (iface : CStr) (frame : Buf) (res : Int)
  /-- `TX` line -/
  | txDone (iface : CStr) (frame : Buf) (name : Option CStr)
  /-- `NO-RX` line -/
  | noRx (iface : CStr) (frame : Buf) (name : Option CStr) (mask : Option Buf)
  deriving DecidableEq, Repr

/-- The part of `struct tpacket_auxdata` that is used (ef-exec.c:201-231), given if the control message has
level `SOL_PACKET` and type `PACKET_AUXDATA`. -/
structure Aux where
  /-- `tp_status & TP_STATUS_VLAN_VALID` -/
  vlanValid : Bool
  tci : BitVec 16
  tpid : BitVec 16
  deriving DecidableEq, Repr

/-- A frame as delivered by the kernel. -/
structure RxMsg where
  data : Buf
  aux : Option Aux
  deriving DecidableEq, Repr

/-- One answer of the operating system: return value of `select`, the clock after it, and, for each resource
index, whether it is reported readable/writable (only counts where asked for), what `recvmsg` returns
(`none`: an error or nothing), and the results of the successive `send` calls. -/
structure Step where
  res : Int
  now : TimeVal
  readable : Nat → Bool
  writable : Nat → Bool
  recv : Nat → Option RxMsg
  send : Nat → Int

/-! ## Resources -/

/-- `cmd_socket_t` (ef.h:285-291). The linked list of commands is a list, `fd` is left out (the resource
index stands for it), `has_rx`/`has_tx` are computed by `hasRx`/`hasTx`. -/
structure Resource where
  cmds : List Cmd
  rxErrCnt : Nat := 0
  deriving DecidableEq, Repr

/-- `resources[i].cmd->arg0`. -/
def resArg0 (r : Resource) : Out CStr :=
  match r.cmds with
  | [] => .ub .nullDeref
  | c :: _ =>
    match c.arg0 with
    | some a => .ok a
    | none => .ub .nullDeref

/-- Search and append loop of `add_cmd_to_resource` (ef-exec.c:97-111). Resources always have a command,
the test `!resources[i].cmd` is never true. Result: `none` if there is no match. -/
def addToExisting (c : Cmd) (a : CStr) : List Resource → Out (Option (List Resource))
  | [] => .ok none
  | r :: rs => do
    let n ← resArg0 r
    if n = a then .ok (some ({ r with cmds := r.cmds ++ [c] } :: rs))
    else
      match ← addToExisting c a rs with
      | none => .ok none
      | some rs' => .ok (some (r :: rs'))

/-- `add_cmd_to_resource` (ef-exec.c:83-120). -/
def addCmd (c : Cmd) (rs : List Resource) : Out (List Resource) :=
  if c.type = .rx ∨ c.type = .tx then
    match c.arg0 with
    | none => if rs = [] then .ok (rs ++ [{ cmds := [c] }]) else .ub .nullDeref
    | some a => do
      match ← addToExisting c a rs with
      | some rs' => .ok rs'
      | none => if rs.length < 100 then .ok (rs ++ [{ cmds := [c] }]) else .abort
  else .ok rs

/-- "Map all commands to resources" (ef-exec.c:455-460). -/
def mapCmds : List Cmd → List Resource → Out (List Resource)
  | [], rs => .ok rs
  | c :: cs, rs => do
    let rs ← addCmd c rs
    mapCmds cs rs

/-- `has_rx` (ef-exec.c:141-142). -/
def hasRx (r : Resource) : Bool := r.cmds.any (fun c => c.type == .rx)

/-- `has_tx` (ef-exec.c:145-146). -/
def hasTx (r : Resource) : Bool := r.cmds.any (fun c => c.type == .tx && !c.done)

/-- Does `rfds_wfds_fill` find anything to wait for? (ef-exec.c:122-168) -/
def wantsIo (rs : List Resource) : Bool := rs.any (fun r => hasRx r || hasTx r)

/-! ## Reception -/

/-- Size of the receive buffer (ef-exec.c:187). -/
def rxBufSize : Nat := 32 * 1024

/-- `htons` result as bytes in memory. -/
def be16Bytes (x : BitVec 16) : Buf := [BitVec.ofNat 8 (x.toNat / 256), BitVec.ofNat 8 (x.toNat % 256)]

/-- The received frame with a stripped VLAN tag put back (ef-exec.c:201-231). `d` are the (non-empty) bytes
in the buffer. `memmove` with a negative length is undefined. -/
def restoreVlan (cfg : Config) (d : Buf) (aux : Option Aux) : Out Buf :=
  match aux with
  | none => .ok d
  | some x =>
    if d.length + 4 < rxBufSize ∧ x.vlanValid then
      if d.length < 12 then .ub .badLength
      else
        let tpid := if cfg.hasTpid then be16Bytes x.tpid else [0x81#8, 0x00#8]
        .ok (d.take 12 ++ tpid ++ be16Bytes x.tci ++ d.drop 12)
    else .ok d

/-- Does command `c` get compared with a received frame, and does it match? (ef-exec.c:235-249) -/
def cmdMatches (b : Buf) (c : Cmd) : Out Bool :=
  match c.buf with
  | none => .ok false
  | some e =>
    if c.done then .ok false
    else
      match c.frame with
      | none => .ub .nullDeref
      | some f => bequalMask (some b) (some e) c.mask f.padding

/-- The matching loop (ef-exec.c:233-249): the first command that matches becomes done. Result: this command
and all commands; `none` if there is no match. -/
def matchCmds (b : Buf) : List Cmd → Out (Option (Cmd × List Cmd))
  | [] => .ok none
  | c :: cs => do
    if ← cmdMatches b c then .ok (some (c, { c with done := true } :: cs))
    else
      match ← matchCmds b cs with
      | none => .ok none
      | some (m, cs') => .ok (some (m, c :: cs'))

/-- One received frame on a resource (ef-exec.c:197-272). -/
def rxFrame (cfg : Config) (r : Resource) (m : RxMsg) : Out (Resource × List Event) := do
  let d := m.data.take rxBufSize
  if d.length = 0 then .ok (r, [])
  else
    let b ← restoreVlan cfg d m.aux
    match ← matchCmds b r.cmds with
    | some (c, cs) =>
      match c.arg0 with
      | some a => .ok ({ r with cmds := cs }, [.rxOk a b c.name c.mask])
      | none => .ub .nullDeref
    | none => do
      let a ← resArg0 r
      .ok ({ r with rxErrCnt := r.rxErrCnt + 1 }, [.rxErr a b])

/-- Reception on resource `i` (ef-exec.c:179-275). -/
def rxResource (cfg : Config) (s : Step) (i : Nat) (r : Resource) : Out (Resource × List Event) :=
  if hasRx r && s.readable i then
    match s.recv i with
    | none => .ok (r, [])
    | some m => rxFrame cfg r m
  else .ok (r, [])

/-- First loop of `rfds_wfds_process` (ef-exec.c:179-275), from resource `i` on. -/
def rxAll (cfg : Config) (s : Step) : Nat → List Resource → Out (List Resource × List Event)
  | _, [] => .ok ([], [])
  | i, r :: rs => do
    let (r', e) ← rxResource cfg s i r
    let (rs', es) ← rxAll cfg s (i + 1) rs
    .ok (r' :: rs', e ++ es)

/-! ## Transmission -/

/-- Effect of one `send` (ef-exec.c:292-308) on a command: `repeat` is a `uint32_t`. Result: the command,
the events, and whether `tx_done` is cleared. `(size_t)res == b->size` cannot hold for a negative result. -/
def txOne (c : Cmd) (b : Buf) (a : CStr) (res : Int) : Cmd × List Event × Bool :=
  let rep := u32Sub c.rep 1
  if res = (b.length : Int) ∧ rep = 0 then
    ({ c with rep := rep, done := true }, [.send a b res, .txDone a b c.name], false)
  else ({ c with rep := rep }, [.send a b res], rep > 0)

/-- "TX the first not done frame" (ef-exec.c:283-310). `none` if there is none. -/
def txFirst (res : Int) : List Cmd → Out (Option (List Cmd × List Event × Bool))
  | [] => .ok none
  | c :: cs =>
    if c.type = .tx ∧ ¬ c.done then
      match c.buf, c.arg0 with
      | some b, some a =>
        let (c', e, more) := txOne c b a res
        .ok (some (c' :: cs, e, more))
      | _, _ => .ub .nullDeref
    else do
      match ← txFirst res cs with
      | none => .ok none
      | some (cs', e, more) => .ok (some (c :: cs', e, more))

/-- One round over all resources (ef-exec.c:279-311). `w` tells for each resource index whether it is in
`wfds`; `k` counts the `send` calls. Result: resources, `k`, events, and whether another round is needed. -/
def txRound (w : Nat → Bool) (send : Nat → Int) :
    Nat → Nat → List Resource → Out (List Resource × Nat × List Event × Bool)
  | _, k, [] => .ok ([], k, [], false)
  | i, k, r :: rs =>
    if w i then do
      match ← txFirst (send k) r.cmds with
      | none => do
        let (rs', k', es, more) ← txRound w send (i + 1) k rs
        .ok (r :: rs', k', es, more)
      | some (cs, e, m) => do
        let (rs', k', es, more) ← txRound w send (i + 1) (k + 1) rs
        .ok ({ r with cmds := cs } :: rs', k', e ++ es, m || more)
    else do
      let (rs', k', es, more) ← txRound w send (i + 1) k rs
      .ok (r :: rs', k', es, more)

/-- The `while (1)` loop (ef-exec.c:277-314), at most `fuel` rounds. Result: whether the loop ended, the
resources and the events so far. -/
def txLoop (w : Nat → Bool) (send : Nat → Int) :
    Nat → Nat → List Resource → Out (Bool × List Resource × List Event)
  | 0, _, rs => .ok (false, rs, [])
  | fuel + 1, k, rs => do
    let (rs', k', e, more) ← txRound w send 0 k rs
    if more then
      let (fin, rs'', es) ← txLoop w send fuel k' rs'
      .ok (fin, rs'', e ++ es)
    else .ok (true, rs', e)

/-- `wfds` after `select`: a subset of what was asked for. -/
def writeSet (s : Step) (rs : List Resource) (i : Nat) : Bool :=
  match rs[i]? with
  | some r => hasTx r && s.writable i
  | none => false

/-- `rfds_wfds_process` (ef-exec.c:170-317). The write set is what `select` left of the set filled before
reception. -/
def process (cfg : Config) (fuel : Nat) (s : Step) (rs : List Resource) :
    Out (Bool × List Resource × List Event) := do
  let w := writeSet s rs
  let (rs1, e1) ← rxAll cfg s 0 rs
  let (fin, rs2, e2) ← txLoop w s.send fuel 0 rs1
  .ok (fin, rs2, e1 ++ e2)

/-! ## Main loop -/

/-- How the main loop stands after a history. -/
inductive LoopEnd where
  /-- the loop was left -/
  | finished
  /-- still waiting in `select` after the whole history -/
  | waiting
  /-- the transmit loop did not end within the given number of rounds -/
  | sending
  deriving DecidableEq, Repr

/-- The main loop of `exec_cmds` (ef-exec.c:480-500) on a history of operating system answers. `tend` is the
deadline, `left` is `tv_left`, the timeout of the next `select` call. Result: how it ended, the resources and
the events. -/
def mainLoop (cfg : Config) (fuel : Nat) (tend : TimeVal) :
    List Step → TimeVal → List Resource → Out (LoopEnd × List Resource × List Event)
  | hist, left, rs =>
    if ¬ wantsIo rs then .ok (.finished, rs, [])
    else
      match hist with
      | [] => .ok (.waiting, rs, [.wait left])
      | s :: hist' =>
        if timerGt s.now tend then .ok (.finished, rs, [.wait left])
        else if s.res ≤ 0 then .ok (.finished, rs, [.wait left])
        else do
          let (fin, rs', e) ← process cfg fuel s rs
          if fin then
            let (st, rs'', es) ← mainLoop cfg fuel tend hist' (timerSub tend s.now) rs'
            .ok (st, rs'', .wait left :: (e ++ es))
          else .ok (.sending, rs', .wait left :: e)

/-! ## `exec_cmds` -/

/-- "Print inventory of named frames" (ef-exec.c:386-403). -/
def inventory : List Cmd → List Event
  | [] => []
  | c :: cs =>
    if c.type = .name then
      match c.buf, c.name with
      | some b, some n => .named n b c.mask :: inventory cs
      | _, _ => inventory cs
    else inventory cs

/-- `copy_cmd_by_name` (ef-exec.c:319-339): the definition used for a name. -/
def lookupName (n : CStr) : List Cmd → Option Cmd
  | [] => none
  | c :: cs =>
    if c.type = .name ∧ c.buf.isSome ∧ c.name = some n then some c else lookupName n cs

/-- Does the pairing loop look up a name for this command? (ef-exec.c:407-414) -/
def needsName (c : Cmd) : Option CStr :=
  if c.type = .name then none
  else if c.buf.isSome then none
  else c.name

/-- "Pair named frames" (ef-exec.c:405-420). `all` are the commands (only `name` commands are looked up,
and these are not changed by the loop). -/
def pairNames (all : List Cmd) : List Cmd → List Cmd × List Event
  | [] => ([], [])
  | c :: cs =>
    let (cs', es) := pairNames all cs
    match needsName c with
    | none => (c :: cs', es)
    | some n =>
      match lookupName n all with
      | some d => ({ c with frame := d.frame.map frameCopy, buf := bclone d.buf, mask := bclone d.mask } :: cs', es)
      | none => (c :: cs', .noSuchName n :: es)

/-- The `pcap` commands (ef-exec.c:426-431, 342-375). Errors of libpcap are not modelled. -/
def pcapEvents : List Cmd → Out (List Event)
  | [] => .ok []
  | c :: cs =>
    if c.type = .pcap then
      match c.arg0, c.buf with
      | some a, some b => do
        let es ← pcapEvents cs
        .ok (.pcap a b :: es)
      | _, _ => .ub .nullDeref
    else pcapEvents cs

/-- The `pcap` commands exist only with libpcap (ef-exec.c:425-432). -/
def pcapAll (cfg : Config) (cmds : List Cmd) : Out (List Event) :=
  if cfg.hasPcap then pcapEvents cmds else .ok []

/-- "Handle HEX strings" (ef-exec.c:434-450). The mask is printed with the length of the frame. -/
def hexEvents : List Cmd → Out (List Event)
  | [] => .ok []
  | c :: cs =>
    if c.type = .hex then
      match c.buf with
      | none => hexEvents cs
      | some b =>
        match c.mask with
        | none => do
          let es ← hexEvents cs
          .ok (.hex b none :: es)
        | some m =>
          if b.length ≤ m.length then do
            let es ← hexEvents cs
            .ok (.hex b (some (m.take b.length)) :: es)
          else .ub .oobRead
    else hexEvents cs

/-- "Open all resources" (ef-exec.c:462-468): the sockets opened and whether all could be opened. -/
def openAll (canOpen : CStr → Bool) : List Resource → Out (List Event × Bool)
  | [] => .ok ([], true)
  | r :: rs => do
    let a ← resArg0 r
    if canOpen a then
      let (es, ok) ← openAll canOpen rs
      .ok (.opened a :: es, ok)
    else .ok ([], false)

/-- The rx commands of a resource that were not satisfied (ef-exec.c:514-542). -/
def missing (r : Resource) : List Cmd :=
  r.cmds.filter (fun c => c.type == .rx && c.buf.isSome && !c.done)

/-- `NO-RX` output for a command. -/
def noRxEvent (c : Cmd) : List Event :=
  match c.arg0, c.buf with
  | some a, some b => [.noRx a b c.name c.mask]
  | _, _ => []

/-- "check results" (ef-exec.c:510-543). -/
def checkResults : List Resource → Nat × List Event
  | [] => (0, [])
  | r :: rs =>
    let (n, es) := checkResults rs
    (r.rxErrCnt + (missing r).length + n, (missing r).flatMap noRxEvent ++ es)

/-- Everything `exec_cmds` gets from outside. -/
structure Env where
  cfg : Config
  /-- can a raw socket be opened on this interface? -/
  canOpen : CStr → Bool
  /-- clock at the start of listening -/
  begin : TimeVal
  /-- `TIME_OUT_MS` -/
  timeoutMs : Int
  /-- answers of the operating system -/
  hist : List Step
  /-- bound on the rounds of the transmit loop -/
  fuel : Nat

/-- Result of `exec_cmds`. -/
structure ExecRes where
  /-- return value; `none` if the run has not ended (see `status`) -/
  ret : Option Int
  status : LoopEnd
  /-- resources at the end of the main loop -/
  resources : List Resource
  events : List Event

/-- `exec_cmds` after the names have been resolved (ef-exec.c:425-546). -/
def execResolved (env : Env) (cmds : List Cmd) : Out ExecRes := do
  let ep ← pcapAll env.cfg cmds
  let eh ← hexEvents cmds
  let rs ← mapCmds cmds []
  let (eo, ok) ← openAll env.canOpen rs
  if ¬ ok then .ok ⟨some (-1), .finished, rs, ep ++ eh ++ eo⟩
  else
    let tend := timerAdd env.begin (timeoutVal env.timeoutMs)
    let (st, rs', el) ← mainLoop env.cfg env.fuel tend env.hist (timeoutVal env.timeoutMs) rs
    match st with
    | .finished =>
      let (n, en) := checkResults rs'
      .ok ⟨some n, .finished, rs', ep ++ eh ++ eo ++ el ++ en⟩
    | st => .ok ⟨none, st, rs', ep ++ eh ++ eo ++ el⟩

/-- `exec_cmds` (ef-exec.c:378-546). -/
def execCmds (env : Env) (cmds : List Cmd) : Out ExecRes :=
  let (cmds', en) := pairNames cmds cmds
  if en ≠ [] then .ok ⟨some en.length, .finished, [], inventory cmds ++ en⟩
  else do
    let r ← execResolved env cmds'
    .ok { r with events := inventory cmds ++ r.events }

end Ef
