import Verif.Model.Tables

/-!
# Field assignments on the command line

Only the data types of the model and the table of header templates are used.
-/

namespace Ef.Spec

open Ef

/-- The words `F1 V1 F2 V2 ...`. -/
def asgnWords : List (CStr × CStr) → List CStr
  | [] => []
  | (n, v) :: as => n :: v :: asgnWords as

/-- The text assigned last to the field `n`. -/
def lastOf (as : List (CStr × CStr)) (n : CStr) : Option CStr := (as.reverse.find? (fun a => a.1 == n)).map (·.2)

/-- Of several assignments of a field only the last one is kept. -/
def keepLast : List (CStr × CStr) → List (CStr × CStr)
  | [] => []
  | a :: as => if a.1 ∈ as.map (·.1) then keepLast as else a :: keepLast as

/-- The word stands for "ignore". -/
def IgnWord (w : CStr) : Prop := w = c!"ign" ∨ w = c!"ignore"

instance (w : CStr) : Decidable (IgnWord w) := inferInstanceAs (Decidable (_ ∨ _))

/-- `n` is a field of `t` of fixed size (not the CoAP token, the PROFINET data, or a list of payload segments), and
not itself called "ignore" (a field of `profinet-rtc`). -/
def PlainField (t : Hdr) (n : CStr) : Prop :=
  ¬ IgnWord n ∧ ∃ f, t.fields.find? (fun f => f.name == n) = some f ∧ f.multi = .none ∧ f.parser ≠ .coapToken ∧
    f.parser ≠ .profinetData

/-- All assigned fields are plain. -/
def PlainFields (t : Hdr) (as : List (CStr × CStr)) : Prop := ∀ a ∈ as, PlainField t a.1

/-- The words of a frame so far end with a header that has no field called `w`. -/
def NotField (f : Frame) (w : CStr) : Prop := ∀ h, f.stack.getLast? = some h → ∀ g ∈ h.fields, g.name ≠ w

/-- The header takes a list of payload segments (`hex ...`, `ascii ...`, `pattern ...`, ...). -/
def TakesSegments (h : Hdr) : Prop := h.parser = .payload ∨ ∃ g ∈ h.fields, g.multi ≠ .none

/-- Words that introduce a payload segment. -/
def segKeywords : List CStr := [c!"help", c!"hex", c!"ascii", c!"ascii0", c!"repeat", c!"pattern"]

/-- `w` cannot continue the frame `f`: it is no header name, no field of the last header, no "help" or "ignore", and no
payload segment if the last header takes these. -/
def EndsFrame (f : Frame) (w : CStr) : Prop :=
  w ≠ c!"help" ∧ ¬ IgnWord w ∧ (∀ t ∈ hdrTmpls, t.name ≠ w) ∧ NotField f w ∧
    ∀ h, f.stack.getLast? = some h → TakesSegments h → w ∉ segKeywords

end Ef.Spec
