import Verif.Spec.Built
import Verif.Spec.Assign

/-!
# A header and its assignments inside the words of a frame
-/

namespace Ef.Spec

open Ef

/-- The words `argv` consist of the words `pre` of an accepted frame `f0`, the name of the header template `t`, possibly
the word "ignore" (`lead`), the assignments `as` of fields of `t`, and `rest`, which does not continue the assignments. -/
structure Assigned (argv pre : List CStr) (f0 : Frame) (t : Hdr) (lead : List CStr) (as : List (CStr × CStr))
    (rest : List CStr) : Prop where
  words : argv = pre ++ t.name :: (lead ++ (asgnWords as ++ rest))
  pre : argcFrame pre = .ok (some (pre.length, f0))
  tmpl : t ∈ hdrTmpls
  kind : t.parser = .fields
  fresh : NotField f0 t.name
  lead : lead = [] ∨ ∃ w, IgnWord w ∧ lead = [w]
  plain : PlainFields t as
  stop : ∀ x tl, rest = x :: tl → ∀ g ∈ t.fields, g.name ≠ x

/-- `k` bytes of the number `n`, least significant first. -/
def leBytes (k n : Nat) : Buf := (beBytes k n).reverse

end Ef.Spec
