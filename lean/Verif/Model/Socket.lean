import Verif.Model.Basic

/-!
# Raw sockets (ef-exec.c:22-81, 462-468, 502-508)

The system calls of `raw_socket` and of the opening and closing loops of `exec_cmds`. The operating system is a
function that answers a request, which may depend on everything that was asked and answered before. In the model of
`exec_cmds` (`Exec.lean`) only the result of `raw_socket` matters (`Env.canOpen`).

The texts of the error messages are in `SocketMsgs`. Not modelled: the lengths of the structures handed over.
-/

namespace Ef

/-- A request to the operating system. -/
inductive Req where
  /-- `socket(AF_PACKET, SOCK_RAW, htons(ETH_P_ALL))` -/
  | socket
  /-- `if_nametoindex(name)` -/
  | index (name : CStr)
  /-- `bind` to all protocols of the interface with this index -/
  | bind (fd index : Int)
  /-- `setsockopt` `PACKET_ADD_MEMBERSHIP`, `PACKET_MR_PROMISC` for the interface with this index -/
  | promisc (fd index : Int)
  /-- `setsockopt` `PACKET_AUXDATA` -/
  | auxdata (fd : Int)
  /-- `recvmsg` without buffer, `MSG_DONTWAIT` -/
  | discard (fd : Int)
  /-- `close` -/
  | close (fd : Int)
  deriving DecidableEq, Repr

/-- A request with its answer. -/
structure Call where
  req : Req
  answer : Int
  deriving DecidableEq, Repr

/-- The operating system: the answer to a request after a history of calls. -/
def OS := List Call → Req → Int

/-- One call. -/
def ask (os : OS) (h : List Call) (r : Req) : Int × List Call := (os h r, h ++ [⟨r, os h r⟩])

/-- The loop of `raw_socket` that empties the socket (ef-exec.c:73-78); `n` rounds are left. -/
def drain (os : OS) (fd : Int) : Nat → List Call → List Call
  | 0, h => h
  | n + 1, h =>
    let (res, h) := ask os h (.discard fd)
    if res < 0 then h else drain os fd n h

/-- `raw_socket` (ef-exec.c:22-81) with a name: the descriptor or -1, and the calls made. -/
def rawSocket (os : OS) (h : List Call) (name : CStr) : Int × List Call :=
  let (s, h) := ask os h .socket
  if s < 0 then (-1, h)
  else
    let (ifidx, h) := ask os h (.index name)
    let (idx, h) := ask os h (.index name)
    let (res, h) := ask os h (.bind s idx)
    if res < 0 then
      let (_, h) := ask os h (.close s)
      (-1, h)
    else
      let (res, h) := ask os h (.promisc s ifidx)
      if res = -1 then
        let (_, h) := ask os h (.close s)
        (-1, h)
      else
        -- the result is not looked at (ef-exec.c:60-65 tests the old `res`)
        let (_, h) := ask os h (.auxdata s)
        if res = -1 then
          let (_, h) := ask os h (.close s)
          (-1, h)
        else (s, drain os s 10000 h)

/-- "Open all resources" (ef-exec.c:462-468) for the interfaces of the resources: the descriptors, or `none` where
`exec_cmds` returns -1. -/
def openSockets (os : OS) (h : List Call) : List CStr → Option (List Int) × List Call
  | [] => (some [], h)
  | n :: ns =>
    let (fd, h) := rawSocket os h n
    if fd < 0 then (none, h)
    else
      let (fds, h) := openSockets os h ns
      (fds.map (fd :: ·), h)

/-- "close resources" (ef-exec.c:502-508). -/
def closeSockets (os : OS) (h : List Call) : List Int → List Call
  | [] => h
  | fd :: fds =>
    if fd ≥ 0 then closeSockets os (ask os h (.close fd)).2 fds else closeSockets os h fds

/-- The sockets of `exec_cmds`: opened and, after the main loop (which neither opens nor closes any), closed. The result
says whether the main loop was reached. -/
def execSockets (os : OS) (h : List Call) (names : List CStr) : Bool × List Call :=
  match openSockets os h names with
  | (none, h) => (false, h)
  | (some fds, h) => (true, closeSockets os h fds)

end Ef
