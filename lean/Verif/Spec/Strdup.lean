import Verif.Spec.Exhausted

/-!
# What running out of memory may do to names
-/

namespace Ef.Spec

/-- The number of names of a command: of an interface or file, and of a frame. -/
def nameCount (c : Cmd) : Nat := c.arg0.toList.length + c.name.toList.length

/-- The number of names of some commands. -/
def nameCounts (cs : List Cmd) : Nat := (cs.map nameCount).sum

/-- A command whose names are copied beginning with request number `n`: it keeps the names for which memory is granted. -/
def keptNames (as : List Bool) (n : Nat) (c : Cmd) : Cmd :=
  { c with arg0 := if granted as n then c.arg0 else none, name := if granted as (n + c.arg0.toList.length) then c.name else none }

/-- Commands that keep the names for which memory is granted. -/
def KeepNames (as : List Bool) (cs cs' : List Cmd) : Prop :=
  cs'.length = cs.length ∧
  ∀ (k : Nat) (c : Cmd), cs[k]? = some c → cs'[k]? = some (keptNames as (nameCounts (cs.take k)) c)

end Ef.Spec
