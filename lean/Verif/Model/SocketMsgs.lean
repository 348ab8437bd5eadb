import Verif.Model.Socket
import Verif.Model.Output

/-!
# What is printed while the sockets are opened (ef-exec.c:22-81, 462-468)

`__FILE__` (the path given to the compiler) and `%m` (the system's text for `errno`) are parameters.
-/

namespace Ef

/-- A text of `raw_socket`: `__LINE__` and what failed. -/
structure SockMsg where
  line : Nat
  what : CStr
  deriving DecidableEq, Repr

/-- `po("%s:%d <what>: %m\n", __FILE__, __LINE__)` -/
def sockText (file m : CStr) (x : SockMsg) : CStr :=
  file ++ c!":" ++ decStr x.line ++ c!" " ++ x.what ++ c!": " ++ m ++ [10#8]

/-- What `raw_socket` (ef-exec.c:22-81) prints. -/
def rawSocketMsgs (os : OS) (h : List Call) (name : CStr) : List SockMsg :=
  let (s, h) := ask os h .socket
  if s < 0 then [⟨32, c!"socket error"⟩]
  else
    let (ifidx, h) := ask os h (.index name)
    let (idx, h) := ask os h (.index name)
    let (res, h) := ask os h (.bind s idx)
    if res < 0 then [⟨44, c!"bind error"⟩]
    else
      let (res, _) := ask os h (.promisc s ifidx)
      if res = -1 then [⟨53, c!"Failed to set PROMISC"⟩]
      else if res = -1 then [⟨61, c!"Failed to enable AUXDATA"⟩]
      else []

/-- What is printed while all resources are opened (ef-exec.c:462-468). -/
def openMsgs (os : OS) (h : List Call) : List CStr → List SockMsg
  | [] => []
  | n :: ns =>
    rawSocketMsgs os h n ++
      (let (fd, h) := rawSocket os h n
       if fd < 0 then [] else openMsgs os h ns)

end Ef
