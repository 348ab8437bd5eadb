import Verif.Spec.Bits

/-!
# Specification: texts for numbers, addresses and byte strings

Written without reference to the model of the parser.
-/

namespace Ef.Spec

open Ef

/-- Character `c` is the digit with value `d` (upper or lower case). -/
inductive Digit : Byte → Nat → Prop
  | dec (d : Nat) : d < 10 → Digit (BitVec.ofNat 8 (48 + d)) d
  | lower (d : Nat) : 10 ≤ d → d < 16 → Digit (BitVec.ofNat 8 (87 + d)) d
  | upper (d : Nat) : 10 ≤ d → d < 16 → Digit (BitVec.ofNat 8 (55 + d)) d

/-- The digit string `s` in base `base` denotes `n`; the empty string denotes 0. -/
inductive Numeral (base : Nat) : CStr → Nat → Prop
  | nil : Numeral base [] 0
  | snoc (s : CStr) (n : Nat) (c : Byte) (d : Nat) : Numeral base s n → Digit c d → d < base →
      Numeral base (s ++ [c]) (n * base + d)

/-- The text `s` is a decimal, `0x`, `0o` or `0b` literal for `n`. -/
inductive Literal : CStr → Nat → Prop
  | dec (s : CStr) (n : Nat) : Numeral 10 s n → Literal s n
  | hex (s : CStr) (n : Nat) : Numeral 16 s n → Literal (c!"0x" ++ s) n
  | oct (s : CStr) (n : Nat) : Numeral 8 s n → Literal (c!"0o" ++ s) n
  | bin (s : CStr) (n : Nat) : Numeral 2 s n → Literal (c!"0b" ++ s) n

/-- The usual decimal text of a number below 256. -/
def octetText (n : Nat) : CStr :=
  if n < 10 then [BitVec.ofNat 8 (48 + n)]
  else if n < 100 then [BitVec.ofNat 8 (48 + n / 10), BitVec.ofNat 8 (48 + n % 10)]
  else [BitVec.ofNat 8 (48 + n / 100), BitVec.ofNat 8 (48 + n / 10 % 10), BitVec.ofNat 8 (48 + n % 10)]

/-- `a.b.c.d`. -/
def quadText (a b c d : Nat) : CStr :=
  octetText a ++ c!"." ++ octetText b ++ c!"." ++ octetText c ++ c!"." ++ octetText d

/-- Texts joined with a colon between each two. -/
def joinColon : List CStr → CStr
  | [] => []
  | [s] => s
  | s :: ss => s ++ c!":" ++ joinColon ss

/-- An element of a MAC address: one or two hexadecimal digits, and its byte. -/
def MacElem (s : CStr) (b : Byte) : Prop :=
  ∃ n, Numeral 16 s n ∧ 1 ≤ s.length ∧ s.length ≤ 2 ∧ b = BitVec.ofNat 8 n

/-- A group of an IPv6 address: one to four hexadecimal digits, and its two bytes. -/
def Ip6Group (s : CStr) (b : Buf) : Prop :=
  ∃ n, Numeral 16 s n ∧ 1 ≤ s.length ∧ s.length ≤ 4 ∧ b = beBytes 2 n

/-- Two lists are related element by element. -/
inductive AllRel {α β : Type} (R : α → β → Prop) : List α → List β → Prop
  | nil : AllRel R [] []
  | cons {a b as bs} : R a b → AllRel R as bs → AllRel R (a :: as) (b :: bs)

/-- `. : - _` -/
def Delim (c : Byte) : Prop := c = ch!"." ∨ c = ch!":" ∨ c = ch!"-" ∨ c = ch!"_"

/-- The string consists of digit pairs and delimiters; these are its bytes. -/
inductive HexText : CStr → Buf → Prop
  | nil : HexText [] []
  | delim {c s b} : Delim c → HexText s b → HexText (c :: s) b
  | pair {c1 c2 h l s b} : Digit c1 h → Digit c2 l → HexText s b →
      HexText (c1 :: c2 :: s) (BitVec.ofNat 8 (16 * h + l) :: b)

/-- The words of one payload segment and the bytes it stands for. -/
inductive Segment : List CStr → Buf → Prop
  | hex {s b} : HexText s b → b ≠ [] → Segment [c!"hex", s] b
  | ascii (s : CStr) : Segment [c!"ascii", s] s
  | ascii0 (s : CStr) : Segment [c!"ascii0", s] (s ++ [0#8])
  | repeat {cnt val n v} : Literal cnt n → n < 2 ^ 32 → Literal val v → v < 2 ^ 64 →
      Segment [c!"repeat", cnt, val] (List.replicate n (BitVec.ofNat 8 v))
  | cnt {len n} : Literal len n → n < 2 ^ 32 →
      Segment [c!"pattern", c!"cnt", len] ((List.range n).map (BitVec.ofNat 8))
  | zero {len n} : Literal len n → n < 2 ^ 32 → Segment [c!"pattern", c!"zero", len] (List.replicate n 0#8)
  | ones {len n} : Literal len n → n < 2 ^ 32 → Segment [c!"pattern", c!"ones", len] (List.replicate n 0xff#8)

/-- The words that start a payload segment. -/
def segmentWords : List CStr := [c!"hex", c!"ascii", c!"ascii0", c!"repeat", c!"pattern", c!"help"]

/-- A text that is certainly not a number: behind a possible two character prefix there is a character
which is neither a hexadecimal digit nor a dot or colon. -/
def NoNumber (s : CStr) : Prop := ∃ c ∈ s.drop 2, (∀ d, ¬ Digit c d) ∧ c ≠ ch!"." ∧ c ≠ ch!":"

/-- The words start like a payload segment but cannot be one. -/
inductive BadSegment : List CStr → Prop
  | help (ws : List CStr) : BadSegment (c!"help" :: ws)
  | missing1 {w} : w = c!"hex" ∨ w = c!"ascii" ∨ w = c!"ascii0" → BadSegment [w]
  | missing2 {w ws} : w = c!"repeat" ∨ w = c!"pattern" → ws.length ≤ 1 → BadSegment (w :: ws)
  | hex {s ws} : (¬ ∃ b, b ≠ [] ∧ HexText s b) → BadSegment (c!"hex" :: s :: ws)
  | count {w cnt ws} : w = c!"repeat" → NoNumber cnt → ws ≠ [] → BadSegment (w :: cnt :: ws)
  | value {cnt n val ws} : Literal cnt n → n < 2 ^ 32 → NoNumber val → BadSegment (c!"repeat" :: cnt :: val :: ws)
  | big {cnt n ws} : Literal cnt n → 2 ^ 64 ≤ n → ws ≠ [] → BadSegment (c!"repeat" :: cnt :: ws)
  | length {pat len ws} : NoNumber len → BadSegment (c!"pattern" :: pat :: len :: ws)
  | bigLength {pat len n ws} : Literal len n → 2 ^ 64 ≤ n → BadSegment (c!"pattern" :: pat :: len :: ws)
  | pattern {pat len n ws} : Literal len n → n < 2 ^ 32 → pat ≠ c!"cnt" → pat ≠ c!"zero" → pat ≠ c!"ones" →
      BadSegment (c!"pattern" :: pat :: len :: ws)

end Ef.Spec
