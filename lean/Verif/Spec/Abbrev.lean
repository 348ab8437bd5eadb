import Verif.Spec.Command
import Verif.Model.Main

/-!
# Specification: command lines with names written out
-/

namespace Ef.Spec

open Ef

/-- The first of the commands that defines a frame with the name `n` gives it the frame `ws`. -/
def FirstDefinition (n : CStr) (ws : List CStr) (all : List (List CStr)) : Prop :=
  ∃ pre post, all = pre ++ (c!"name" :: n :: ws) :: post ∧ ∀ x ∈ pre, ∀ v, x ≠ c!"name" :: n :: v

/-- The commands of the second list are those of the first one without the definitions of names, and with every
reference to a name replaced by the frame of the first definition of the name among `all`. -/
inductive WrittenOut (hasPcap : Bool) (all : List (List CStr)) : List (List CStr) → List (List CStr) → Prop
  | nil : WrittenOut hasPcap all [] []
  | define (n : CStr) (ws : List CStr) {l l'} : WrittenOut hasPcap all l l' →
      WrittenOut hasPcap all ((c!"name" :: n :: ws) :: l) l'
  | ref {hd c} (n : CStr) (ws : List CStr) {l l'} : Head hasPcap hd c → FirstDefinition n ws all → WrittenOut hasPcap all l l' →
      WrittenOut hasPcap all ((hd ++ [c!"name", n]) :: l) ((hd ++ ws) :: l')
  | same {x l l'} : (∀ n ws, x ≠ c!"name" :: n :: ws) → (∀ hd c n, Head hasPcap hd c → x ≠ hd ++ [c!"name", n]) →
      WrittenOut hasPcap all l l' → WrittenOut hasPcap all (x :: l) (x :: l')

/-- The event without the name of the command. -/
def anonymous : Event → Event
  | .rxOk a b _ m => .rxOk a b none m
  | .txDone a b _ => .txDone a b none
  | .noRx a b _ m => .noRx a b none m
  | e => e

/-- The line of the report that tells about a named frame. -/
def isNamed : Event → Bool
  | .named _ _ _ => true
  | _ => false

/-- What is observed of a run, but for the names. -/
def hideNames (r : RunRes) : RunRes := { r with events := (r.events.filter (fun e => !isNamed e)).map anonymous }

end Ef.Spec
