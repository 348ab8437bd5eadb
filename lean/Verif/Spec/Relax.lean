import Verif.Spec.Built
import Verif.Spec.Text

/-!
# Words of an expectation which ignores some fields of a sent frame
-/

namespace Ef.Spec

open Ef

/-- Neither the name of a header nor a word that starts a piece of payload, nor `ignore`. -/
def FieldWord (n : CStr) : Prop := (∀ t ∈ hdrTmpls, t.name ≠ n) ∧ n ∉ segmentWords ∧ n ≠ c!"ignore"

instance (n : CStr) : Decidable (FieldWord n) := inferInstanceAs (Decidable (_ ∧ _))

/-- A word which is no name at all. -/
def ValueWord (v : CStr) : Prop := FieldWord v ∧ ∀ t ∈ hdrTmpls, ∀ f ∈ t.fields, f.name ≠ v

instance (v : CStr) : Decidable (ValueWord v) := inferInstanceAs (Decidable (_ ∧ _))

/-- The second list consists of the words of the first one, except that some values are replaced by `ign` and some
pairs `FIELD ign` are added. The long form `ignore` is not used, as there is a field of that name. -/
inductive Relaxed : List CStr → List CStr → Prop
  | nil : Relaxed [] []
  | word {a b} (w : CStr) : w ≠ c!"ignore" → Relaxed a b → Relaxed (w :: a) (w :: b)
  | value {a b n v} : FieldWord n → ValueWord v → Relaxed a b → Relaxed (n :: v :: a) (n :: c!"ign" :: b)
  | extra {a b n} : FieldWord n → Relaxed a b → Relaxed a (n :: c!"ign" :: b)

/-- The checksum of the header is given by the user, or it is ignored. -/
def Settled (x : Hdr) : Prop := ∃ q ∈ x.fields.find? (fun f => f.name == c!"chksum"), q.rxSkip = true ∨ q.val ≠ none

instance (x : Hdr) : Decidable (Settled x) :=
  match h : x.fields.find? (fun f => f.name == c!"chksum") with
  | none => isFalse (by unfold Settled; simp [h])
  | some q => decidable_of_iff (q.rxSkip = true ∨ q.val ≠ none) (by unfold Settled; simp [h])

/-- Nothing that goes into the checksum of a header (`x` in the sent frame, `x'` in the expectation) differs, or the
checksum is settled. `pre` and `post` are the headers before and after it. The checksum of `icmp` has to be given in
both frames or in none of them, as the header has another protocol number if its checksum is computed behind `ipv6`. -/
structure ChecksumSafe (pre : List Hdr) (x : Hdr) (post pre' : List Hdr) (x' : Hdr) (post' : List Hdr) : Prop where
  ipv4 : x'.name = c!"ipv4" → Settled x' ∨ x = x'
  l4 : x'.name = c!"udp" ∨ x'.name = c!"tcp" ∨ x'.name = c!"icmp" →
    Settled x' ∨ (pre.getLast? = pre'.getLast? ∧ x = x' ∧ post = post')
  icmp : x'.name = c!"icmp" → (given x c!"chksum" = none ↔ given x' c!"chksum" = none)

/-- Header kinds whose size depends on the values given in them. -/
def flexible : List CStr := [c!"igmp", c!"mld", c!"sv", c!"coap", c!"coap-opt", c!"coap-parms", c!"profinet-rtc"]

end Ef.Spec
