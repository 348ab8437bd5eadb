import Verif.Spec.Bits

/-! # Vocabulary for the memory of a run -/

namespace Ef.Spec

/-- The word after `token` is at most 16 characters long and the word after `meg_id` at most 96: the hex digits of the
8 bytes and 48 bytes these fields have. -/
def ShortHex (words : List CStr) : Prop :=
  ∀ pre v post, (words = pre ++ c!"token" :: v :: post → v.length ≤ 16) ∧
    (words = pre ++ c!"meg_id" :: v :: post → v.length ≤ 96)

end Ef.Spec
