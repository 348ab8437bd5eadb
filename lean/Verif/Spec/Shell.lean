import Verif.Spec.Capture

/-!
# Specification: what a shell makes of a simple line

Assumed about `bash -c LINE` for lines without characters that mean something special to it: the line is split at
blanks, and the first word is the program, started with all words as `argv`.
-/

namespace Ef.Spec

open Ef

/-- A character that stands for itself. -/
def plainChar (c : Byte) : Bool :=
  (ch!"a".toNat ≤ c.toNat && c.toNat ≤ ch!"z".toNat) || (ch!"A".toNat ≤ c.toNat && c.toNat ≤ ch!"Z".toNat) ||
    (ch!"0".toNat ≤ c.toNat && c.toNat ≤ ch!"9".toNat) || c!"-_./:@%+=".contains c

/-- A blank: space or tab. -/
def blankChar (c : Byte) : Bool := c == ch!" " || c == 0x09#8

/-- A line that a shell only has to split. -/
def SimpleLine (s : CStr) : Prop := ∀ c ∈ s, plainChar c = true ∨ blankChar c = true

/-- The pieces between the blanks. -/
def pieces : CStr → List CStr
  | [] => [[]]
  | c :: s =>
    if blankChar c then [] :: pieces s
    else
      match pieces s with
      | [] => [[c]]
      | w :: ws => (c :: w) :: ws

/-- The words of a simple line. -/
def shellWords (s : CStr) : List CStr := (pieces s).filter (· ≠ [])

end Ef.Spec
