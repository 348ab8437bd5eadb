import Verif.Spec.Text

/-!
# Specification: the texts which stand for a field value

Written without reference to the model of the parser.
-/

namespace Ef.Spec

open Ef

/-! ## MAC addresses -/

/-- A MAC address as everybody writes it: six elements, or fewer with one double colon which stands for the
missing ones. -/
inductive ProperMac : CStr → Buf → Prop
  | full {A : List CStr} {bs : Buf} : AllRel MacElem A bs → A.length = 6 → ProperMac (joinColon A) bs
  | split {A B : List CStr} {as bs : Buf} : AllRel MacElem A as → AllRel MacElem B bs → A.length + B.length ≤ 5 →
      ProperMac (joinColon A ++ c!"::" ++ joinColon B) (as ++ zeros (6 - as.length - bs.length) ++ bs)

/-- Nothing, or a single colon. -/
def Stray (p : CStr) : Prop := p = [] ∨ p = c!":"

/-- The texts with a colon which this tool takes for a MAC address: a single stray colon is allowed at each
end, and six or fewer elements without a double colon are the last bytes of the address. -/
inductive MacText : CStr → Buf → Prop
  | plain {p q : CStr} {A : List CStr} {bs : Buf} : Stray p → Stray q → AllRel MacElem A bs → A.length ≤ 6 →
      MacText (p ++ joinColon A ++ q) (zeros (6 - bs.length) ++ bs)
  | split {p q : CStr} {A B : List CStr} {as bs : Buf} : Stray p → Stray q → (A = [] → p = []) → (B = [] → q = []) →
      AllRel MacElem A as → AllRel MacElem B bs → A.length + B.length ≤ 5 →
      MacText (p ++ joinColon A ++ c!"::" ++ joinColon B ++ q) (as ++ zeros (6 - as.length - bs.length) ++ bs)

/-! ## IPv6 addresses -/

/-- The last part of an IPv6 address: groups, of which the last two may be written as a dotted quad. -/
inductive Ip6Tail : CStr → Buf → Prop
  | groups {A : List CStr} {gs : List Buf} : AllRel Ip6Group A gs → Ip6Tail (joinColon A) gs.flatten
  | quad {A : List CStr} {gs : List Buf} {a b c d : Nat} : AllRel Ip6Group A gs → a < 256 → b < 256 → c < 256 → d < 256 →
      Ip6Tail (joinColon (A ++ [quadText a b c d]))
        (gs.flatten ++ [BitVec.ofNat 8 a, BitVec.ofNat 8 b, BitVec.ofNat 8 c, BitVec.ofNat 8 d])

/-- An IPv6 address as in RFC 4291, section 2.2: 16 bytes in groups, or one double colon which stands for at
least one group of zeros. -/
inductive Ip6Text : CStr → Buf → Prop
  | full {s : CStr} {b : Buf} : Ip6Tail s b → b.length = 16 → Ip6Text s b
  | split {A : List CStr} {gs : List Buf} {t : CStr} {b : Buf} : AllRel Ip6Group A gs → Ip6Tail t b →
      gs.flatten.length + b.length ≤ 14 →
      Ip6Text (joinColon A ++ c!"::" ++ t) (gs.flatten ++ zeros (16 - gs.flatten.length - b.length) ++ b)

/-! ## All texts -/

/-- The text `s` stands for the value `v` of a field of `n` bytes. -/
inductive Value (n : Nat) : CStr → Buf → Prop
  | number {s : CStr} {k : Nat} : n ≤ 8 → Literal s k → k < 2 ^ 64 → Value n s (beBytes n k)
  | hex {s : CStr} {k : Nat} : 8 < n → Numeral 16 s k → s ≠ [] → s.length % 2 = 0 → s.length / 2 ≤ n →
      Value n (c!"0x" ++ s) (beBytes n k)
  | bin {s : CStr} {k : Nat} : 8 < n → Numeral 2 s k → s ≠ [] → s.length % 8 = 0 → s.length / 8 ≤ n →
      Value n (c!"0b" ++ s) (beBytes n k)
  | quad {a b c d : Nat} : n = 4 → a < 256 → b < 256 → c < 256 → d < 256 →
      Value n (quadText a b c d) [BitVec.ofNat 8 a, BitVec.ofNat 8 b, BitVec.ofNat 8 c, BitVec.ofNat 8 d]
  | mac {s : CStr} {v : Buf} : n = 6 → MacText s v → ch!":" ∈ s → s.take 2 ≠ c!"0b" → Value n s v
  | ip6 {s : CStr} {v : Buf} : n = 16 → Ip6Text s v → ch!":" ∈ s → s.take 2 ≠ c!"0b" → Value n s v

/-- The text is a hexadecimal or binary number with more digits than the (long) field has room for. -/
def TooLong (s : CStr) (n : Nat) : Prop :=
  8 < n ∧ ((∃ d k, Numeral 16 d k ∧ s = c!"0x" ++ d ∧ d.length % 2 = 0 ∧ n < d.length / 2) ∨
    (∃ d k, Numeral 2 d k ∧ s = c!"0b" ++ d ∧ d.length % 8 = 0 ∧ n < d.length / 8))

end Ef.Spec
