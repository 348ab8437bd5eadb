import Verif.Spec.Command
import Verif.Spec.Descriptors
import Verif.Spec.Match

/-! # Vocabulary: the frames seen in the effects of a run -/

namespace Ef.Spec

open Ef

/-- What can stand in front of a frame. -/
def Fronting (hasPcap : Bool) (hd : List CStr) : Prop := (∃ n, hd = [c!"name", n]) ∨ ∃ c, Head hasPcap hd c

/-- The frame that is printed, saved, sent or missed. -/
def frameShown : Event → Option Buf
  | .named _ b _ => some b
  | .pcap _ b => some b
  | .hex b _ => some b
  | .send _ b _ => some b
  | .txDone _ b _ => some b
  | .noRx _ b _ _ => some b
  | _ => none

/-- The mask that is printed. -/
def maskShown : Event → Option (Option Buf)
  | .named _ _ m => some m
  | .hex _ m => some m
  | .noRx _ _ _ m => some m
  | .rxOk _ _ _ m => some m
  | _ => none

/-- The frame that is received as expected. -/
def frameAccepted : Event → Option Buf
  | .rxOk _ x _ _ => some x
  | _ => none

/-- The same commands, except that the first ones may do something else with the same frame. -/
def SameFrames (o o' : Option (List Cmd)) : Prop :=
  (o = none ∧ o' = none) ∨ ∃ c c' cs, o = some (c :: cs) ∧ o' = some (c' :: cs) ∧
    c.frame = c'.frame ∧ c.buf = c'.buf ∧ c.mask = c'.mask ∧ c.name = c'.name

end Ef.Spec
