import Verif.Spec.Frame

/-!
# The two header kinds whose size can end up inconsistent

`sv` gets 8 bytes shorter if its second TLV is not used, but its last TLV stays where it was. `mld` has room either
for the query fields or for the report fields, not for both.
-/

namespace Ef.Spec

open Ef

/-- Some of the named fields were given by the user. -/
def Uses (h : Hdr) (ns : List CStr) : Prop := ∃ n ∈ ns, given h n ≠ none

instance (h : Hdr) (ns : List CStr) : Decidable (Uses h ns) := inferInstanceAs (Decidable (∃ n ∈ ns, _))

/-- The fields of an IGMP/MLD query. -/
def queryNames : List CStr := [c!"qresv", c!"s", c!"qrv", c!"qqic", c!"ns"]

/-- The fields of an IGMPv3/MLDv2 report. -/
def reportNames : List CStr := [c!"rresv", c!"ng"]

/-- An `sv` header whose last TLV is given has its second TLV given too; no `mld` header is both a query and a
report. -/
def Tame (h : Hdr) : Prop :=
  (h.name = c!"sv" → Uses h [c!"tlv0_type", c!"tlv0_len"] → Uses h [c!"tlv2_type", c!"tlv2_len", c!"tlv2_mac"]) ∧
  (h.name = c!"mld" → ¬ (Uses h queryNames ∧ Uses h reportNames))

instance (h : Hdr) : Decidable (Tame h) := inferInstanceAs (Decidable (_ ∧ _))

/-- Words are shorter than 4 GiB. -/
def ShortWords (argv : List CStr) : Prop := ∀ w ∈ argv, w.length < 2 ^ 32

instance (argv : List CStr) : Decidable (ShortWords argv) := inferInstanceAs (Decidable (∀ w ∈ argv, _))

end Ef.Spec
