import Verif.Spec.Report
import Verif.Spec.Text

/-!
# Reading the help texts

How a reader of the printed help finds the header names, and the place of a field in its header.
-/

namespace Ef.Spec

open Ef

/-- A decimal number, and what follows it. -/
def readDec (s : CStr) : Option (Nat × CStr) :=
  let isDigit := fun c : Byte => 48 ≤ c.toNat && c.toNat ≤ 57
  match s.takeWhile isDigit with
  | [] => none
  | ds => some (ds.foldl (fun n c => 10 * n + (c.toNat - 48)) 0, s.dropWhile isDigit)

/-- Without leading blanks. -/
def skipBlanks (s : CStr) : CStr := s.dropWhile (· == ch!" ")

/-- The text up to the first blank or plus sign, and the rest. -/
def readWord (s : CStr) : CStr × CStr :=
  let inWord := fun c : Byte => c != ch!" " && c != ch!"+"
  (s.takeWhile inWord, s.dropWhile inWord)

/-- A field in the help: its name, its first bit in the header, its number of bits. -/
structure HelpField where
  name : CStr
  bit : Nat
  bits : Nat
  deriving DecidableEq, Repr

/-- Read `NAME +BIT:BITS TEXT`, with blanks in front of the numbers. -/
def readField (l : CStr) : Option HelpField := do
  let (name, r) := readWord l
  let r ← after c!"+" (skipBlanks r)
  let (bit, r) ← readDec (skipBlanks r)
  let r ← after c!":" r
  let (bits, r) ← readDec (skipBlanks r)
  let _ ← after c!" " r
  if name = [] then none else some ⟨name, bit, bits⟩

/-- The fields in the help of a header: lines that start with two blanks. -/
def readFields (s : CStr) : List HelpField := (linesOf s).filterMap (fun l => (after c!"  " l).bind readField)

/-- A header in the list of headers: `  NAME TEXT`. -/
def readHeader (l : CStr) : Option CStr := do
  let r ← after c!"  " l
  let (name, r) := readWord r
  let r ← after c!" " r
  if name = [] ∨ skipBlanks r = [] then none else some name

/-- The header names in the list of headers. -/
def readHeaders (s : CStr) : List CStr := (linesOf s).filterMap readHeader

/-- The two fields have a bit in common. -/
def HelpField.Overlaps (a b : HelpField) : Prop := a.bit < b.bit + b.bits ∧ b.bit < a.bit + a.bits ∧ 0 < a.bits ∧ 0 < b.bits

/-- Fields with a syntax of their own: numbers with the least significant byte first, text that is not a number, or a value of
variable length. -/
def ownSyntax : List (CStr × CStr) := [(c!"opc-ua", c!"pub-id"), (c!"opc-ua", c!"wg-id"), (c!"oam-ccm", c!"meg_id"),
  (c!"profinet-rtc", c!"data"), (c!"coap", c!"code"), (c!"coap", c!"token")]

/-- A hexadecimal digit. -/
def HexDigit (c : Byte) : Prop := ∃ d, Digit c d

/-- The text looks like an address of `n` bytes: an IPv4 address (4 bytes), a MAC address (6 bytes) or an IPv6 address (16 bytes). Texts
that start with `0b` are not counted. -/
def AddressLike (n : Nat) (s : CStr) : Prop :=
  s.take 2 ≠ c!"0b" ∧
    ((n = 4 ∧ ch!"." ∈ s ∧ ∀ c ∈ s, HexDigit c ∨ c = ch!".") ∨
     (n = 6 ∧ ch!":" ∈ s ∧ ∀ c ∈ s, HexDigit c ∨ c = ch!":") ∨
     (n = 16 ∧ ch!":" ∈ s ∧ ∀ c ∈ s, HexDigit c ∨ c = ch!":" ∨ c = ch!"."))

/-- The text is `0x` with hexadecimal digits or `0b` with binary digits, for a value of more than 8 bytes. -/
def LongLiteral (n : Nat) (s : CStr) : Prop :=
  8 < n ∧ ((∃ d, s = c!"0x" ++ d ∧ ∀ c ∈ d, HexDigit c) ∨ ∃ d, s = c!"0b" ++ d ∧ ∀ c ∈ d, c = ch!"0" ∨ c = ch!"1")

/-- A number in hexadecimal digits. -/
def readHex (s : CStr) : Option Nat :=
  s.foldl (fun n c => do
    let n ← n
    let d := c.toNat
    if 48 ≤ d ∧ d ≤ 57 then some (16 * n + (d - 48)) else if 97 ≤ d ∧ d ≤ 102 then some (16 * n + (d - 87)) else none) (some 0)

/-- The pieces of the text between the colons. -/
def atColons : CStr → List CStr
  | [] => [[]]
  | c :: cs =>
    if c = ch!":" then [] :: atColons cs
    else
      match atColons cs with
      | [] => [[c]]
      | l :: ls => (c :: l) :: ls

/-- A value as written in the help: `0x` and hexadecimal digits, bytes between colons, or a decimal number. -/
def readValue (s : CStr) : Option Nat :=
  match after c!"0x" s with
  | some d => readHex d
  | none =>
    if ch!":" ∈ s then (atColons s).foldl (fun n b => do some (256 * (← n) + (← readHex b))) (some 0)
    else (readDec s).map (·.1)

/-- The value the help text announces: the one behind `Default`, `default` or `Defaults to`. -/
def statedDefault : CStr → Option Nat
  | [] => none
  | c :: cs =>
    match (after c!"efaults to " (c :: cs)).or (after c!"efault " (c :: cs)) with
    | some r => readValue (r.takeWhile (fun c => c != ch!" " && c != ch!"," && c != ch!")"))
    | none => statedDefault cs

/-- The words of a line, which are separated by blanks. -/
def wordsOf (s : CStr) : List CStr :=
  let cons := fun (w : CStr) (ws : List CStr) => if w = [] then ws else w :: ws
  let r := s.foldr (fun c (w, ws) => if c = ch!" " then ([], cons w ws) else (c :: w, ws)) ([], [])
  cons r.1 r.2

/-- Lines joined with the next one if they end with a backslash. -/
def joined : List CStr → List CStr
  | [] => []
  | l :: ls =>
    match joined ls with
    | [] => [l]
    | m :: ms => if l.getLast? = some 92#8 then (l.dropLast ++ c!" " ++ m) :: ms else l :: m :: ms

/-- The examples in the top level help: the command lines behind `ef`. (`Usage: ef` is none, and no example has an option.) -/
def readExamples (s : CStr) : List (List CStr) :=
  (joined (linesOf s)).filterMap (fun l => match wordsOf l with
    | w :: ws => if w = c!"ef" then some ws else none
    | [] => none)

/-- The words behind the first `e.g.` of a line. -/
def readEg (l : CStr) : List CStr :=
  match (wordsOf l).dropWhile (· != c!"e.g.") with
  | _ :: ws => ws
  | [] => []

end Ef.Spec
