import Verif.Spec.Frame

/-!
# Specification: MLD headers whose checksum cannot be computed
-/

namespace Ef.Spec

open Ef

/-- What a header needs of the headers before it and does not find: an IPv6 header, its source address, its destination
address. Only the first IPv6 header counts. -/
inductive Lack where
  | header
  | source
  | destination
  deriving DecidableEq, Repr

def lack (before : List Hdr) : Option Lack :=
  match before.find? (fun y => decide (y.name = c!"ipv6")) with
  | none => some .header
  | some ip =>
    if given ip c!"sip" = none then some .source
    else if given ip c!"dip" = none then some .destination
    else none

/-- An `mld` header without explicit checksum behind these headers, and what it lacks. -/
def Stuck (before : List Hdr) (x : Hdr) (r : Lack) : Prop :=
  x.name = c!"mld" ∧ given x c!"chksum" = none ∧ lack before = some r

instance (before : List Hdr) (x : Hdr) (r : Lack) : Decidable (Stuck before x r) := inferInstanceAs (Decidable (_ ∧ _))

/-- The last stuck header of a frame and what it lacks. -/
def LastStuck (hs : List Hdr) (r : Lack) : Prop :=
  ∃ pre x post, hs = pre ++ x :: post ∧ Stuck pre x r ∧ ∀ p y q s, post = p ++ y :: q → ¬ Stuck (pre ++ x :: p) y s

/-- The line that tells what is missing; `nil` is the text of a null pointer. -/
def lackText (nil : CStr) : Lack → CStr
  | .header => c!"Error: MLD fields must be preceded by an IPv6 header (sip = " ++ nil ++ c!", dip = " ++ nil ++ c!")\n"
  | .source => c!"Error: IPv6 header's SIP is not set or its size is not 16 bytes\n"
  | .destination => c!"Error: IPv6 header's DIP is not set or its size is not 16 bytes\n"

end Ef.Spec
