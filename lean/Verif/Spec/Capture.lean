import Verif.Model.Capture

/-!
# Specification: captures
-/

namespace Ef.Spec

open Ef

/-! ## The option of a capture -/

/-- Texts joined with a separator between each two. -/
def joinWith (sep : Byte) : List CStr → CStr
  | [] => []
  | [s] => s
  | s :: ss => s ++ sep :: joinWith sep ss

/-- Element `i`, unless it is missing or empty. -/
def elemOf (es : List CStr) (i : Nat) : Option CStr := es[i]?.filter (· ≠ [])

/-- The file of a capture: element 3, else the interface and `.pcap`. -/
def fileOf (es : List CStr) : CStr := (elemOf es 3).getD (es.headD [] ++ c!".pcap")

/-- The words of the tcpdump command for the elements of the option. -/
def tcpdumpWords (es : List CStr) : List CStr :=
  [c!"tcpdump", c!"-i", es.headD []] ++
  ((elemOf es 1).map (fun v => [c!"-s", v])).getD [] ++
  ((elemOf es 2).map (fun v => [c!"-j", v])).getD [] ++
  [c!"-w", fileOf es] ++
  ((elemOf es 4).map (fun v => [c!"-c", v])).getD []

/-! ## Stopping captures -/

/-- Process ids reported by `waitpid`. -/
def pidsOf (r : List (Int × ChildStatus)) : List Int := r.map (·.1)

/-- The children reported by a number of polls. -/
def polled (n : Nat) (h : List (List (Int × ChildStatus))) : List Int := (h.take n).flatMap pidsOf

/-- The process ids of the captures that are running, without those in `r`. -/
def alive (cs : List Capture) (r : List Int) : List Int :=
  ((cs.filter (·.running)).map (·.pid)).filter (· ∉ r)

/-- The start of one capture: the result of `fork`, the children reported before and after the process id is
stored. -/
abbrev Fork := Int × List (Int × ChildStatus) × List (Int × ChildStatus)

/-- All process ids reported while the captures are started. -/
def reports (h : List Fork) : List Int := h.flatMap (fun f => pidsOf f.2.1 ++ pidsOf f.2.2)

/-- The process ids of the captures that could be started. -/
def childPids (h : List Fork) : List Int := (h.map (·.1)).filter (0 < ·)

/-- A child is not reported before it exists: the reports before a `fork` do not contain its result. -/
def Causal : List Fork → List Int → Prop
  | [], _ => True
  | f :: h, seen => (0 < f.1 → f.1 ∉ seen) ∧ Causal h (seen ++ pidsOf f.2.1 ++ pidsOf f.2.2)

/-- No child is reported before the program has stored its process id. -/
def NotEarly (h : List Fork) : Prop := ∀ f ∈ h, 0 < f.1 → f.1 ∉ pidsOf f.2.1

end Ef.Spec
