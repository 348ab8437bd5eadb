import Verif.Model.Main
import Verif.Spec.Run

/-!
# Specification: the tool as a whole

Options on the command line, VLAN tags, and the messages about errors.
-/

namespace Ef.Spec

open Ef

/-! ## VLAN tags -/

/-- A frame with a VLAN tag as the kernel delivers it: the tag (bytes 12 to 15) is cut out and reported beside the frame. -/
def strip (o : Buf) : RxMsg :=
  let byte (i : Nat) : Nat := (o.getD i 0#8).toNat
  { data := o.take 12 ++ o.drop 16
    aux := some { vlanValid := true, tpid := BitVec.ofNat 16 (256 * byte 12 + byte 13),
                  tci := BitVec.ofNat 16 (256 * byte 14 + byte 15) } }

/-- `m` is what the kernel delivers for the frame `o`: the frame itself without information about a tag, or the frame
without its tag. -/
inductive Delivers (o : Buf) : RxMsg → Prop
  | plain (aux : Option Aux) : (∀ x, aux = some x → x.vlanValid = false) → Delivers o ⟨o, aux⟩
  | stripped : 16 ≤ o.length → Delivers o (strip o)

/-- Byte pair at position `i`. -/
def pairAt (o : Buf) (i : Nat) : List Byte := (o.drop i).take 2

/-! ## Errors -/

/-- A message about an error: a frame nobody waited for, a frame that never came, or an unknown name. -/
def isProblem : Event → Bool
  | .rxErr _ _ => true
  | .noRx _ _ _ _ => true
  | .noSuchName _ => true
  | _ => false

/-! ## Options -/

/-- A part of a command line with options in between. -/
inductive Item where
  /-- a word that is no option -/
  | word (w : CStr)
  /-- `-t VAL` as two words, or `-tVAL` -/
  | timeout (v : CStr) (joined : Bool)
  /-- `-c VAL` as two words, or `-cVAL` -/
  | capture (v : CStr) (joined : Bool)

/-- No option: it does not start with a dash, or is only a dash. -/
def PlainWord (w : CStr) : Prop := w.head? ≠ some ch!"-" ∨ w = c!"-"

/-- An option joined with its value needs a non-empty value. -/
def Item.Valid : Item → Prop
  | .word w => PlainWord w
  | .timeout v j => j = true → v ≠ []
  | .capture v j => j = true → v ≠ []

/-- The words of the item on the command line. -/
def Item.words : Item → List CStr
  | .word w => [w]
  | .timeout v j => if j then [c!"-t" ++ v] else [c!"-t", v]
  | .capture v j => if j then [c!"-c" ++ v] else [c!"-c", v]

/-- The words that are no options, in order. -/
def plainWords (l : List Item) : List CStr := l.filterMap (fun
  | .word w => some w
  | _ => none)

/-- The timeouts given, in order. -/
def timeouts (l : List Item) : List CStr := l.filterMap (fun
  | .timeout v _ => some v
  | _ => none)

/-- The captures given, in order. -/
def captures (l : List Item) : List CStr := l.filterMap (fun
  | .capture v _ => some v
  | _ => none)

end Ef.Spec
