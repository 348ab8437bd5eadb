import Verif.Spec.Exhausted
import Verif.Spec.Capture
import Verif.Model.CaptureMemory

/-!
# What running out of memory may do to the option of a capture
-/

namespace Ef.Spec

/-- What memory is requested for: the command with the interface, with the length, and with the kind of time stamps; the name of the file; the
command with the file, and with the number of frames; the entry in the list of captures. -/
inductive Wanted where
  | interface | length | stamps | file | written | number | entry
  deriving DecidableEq, Repr

/-- The requests for an option with the given elements, in their order. -/
def requestsFor (es : List CStr) : List Wanted :=
  [.interface] ++ (elemOf es 1).toList.map (fun _ => .length) ++ (elemOf es 2).toList.map (fun _ => .stamps) ++ [.file, .written] ++
    (elemOf es 4).toList.map (fun _ => .number) ++ [.entry]

/-- The first of some requests that is refused, the first request having number `n`. -/
def refusedFirst (as : List Bool) : Nat → List Wanted → Option Wanted
  | _, [] => none
  | n, w :: ws => if granted as n then refusedFirst as (n + 1) ws else some w

/-- The capture of an option with the given elements is added, and the file deleted. -/
def addedFor (es : List CStr) : AddRes := ⟨[fileOf es], some (joinWith ch!" " (tcpdumpWords es))⟩

/-- The option is refused; the file is deleted all the same. -/
def refusedLate (es : List CStr) : AddRes := ⟨[fileOf es], none⟩

/-- The option is refused and no file is touched. -/
def refusedEarly : AddRes := ⟨[], none⟩

end Ef.Spec
