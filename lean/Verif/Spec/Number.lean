import Verif.Spec.Text

/-!
# Numbers at the beginning of a text
-/

namespace Ef.Spec

/-- White space: blank, tab, line feed, vertical tab, form feed, carriage return. -/
def whites : List Byte := [32#8, 9#8, 10#8, 11#8, 12#8, 13#8]

/-- The decimal digits. -/
def digits : List Byte := c!"0123456789"

/-- A sign, or none. -/
inductive Sign : CStr → Int → Prop
  | none : Sign [] 1
  | plus : Sign c!"+" 1
  | minus : Sign c!"-" (-1)

/-- The text begins with the number `v`, after white space. Without a digit it is 0. -/
def BeginsWith (s : CStr) (v : Int) : Prop :=
  ∃ sp sg ds rest σ n, s = sp ++ sg ++ ds ++ rest ∧ (∀ c ∈ sp, c ∈ whites) ∧ Sign sg σ ∧ Numeral 10 ds n ∧ v = σ * (n : Nat) ∧
    ∀ c, rest.head? = some c → c ∉ digits ∧ (sg = [] → ds = [] → c ∉ whites ∧ c ≠ ch!"+" ∧ c ≠ ch!"-")

/-- The number as an `int`: its low 32 bits, after numbers without a place in 64 bits have become the nearest one which has. -/
def asInt (v : Int) : Int :=
  if 2 ^ 63 ≤ v then -1 else if v < -(2 ^ 63) then 0 else (v + 2 ^ 31) % 2 ^ 32 - 2 ^ 31

end Ef.Spec
