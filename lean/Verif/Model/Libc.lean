import Verif.Model.Basic

/-!
# Library functions used by the code

These are not part of `/repo`; they are written down from the C standard / POSIX and glibc.
-/

namespace Ef

/-- Value of a digit in bases up to 36 (`strtoull`). -/
def digitVal (c : Byte) : Option Nat :=
  let n := c.toNat
  if 48 ≤ n ∧ n ≤ 57 then some (n - 48)
  else if 97 ≤ n ∧ n ≤ 122 then some (n - 97 + 10)
  else if 65 ≤ n ∧ n ≤ 90 then some (n - 65 + 10)
  else none

/-- The digit loop of `strtoull`: the accumulated (unbounded) value and the unread rest. -/
def strtoullLoop (base : Nat) : CStr → Nat → Nat × CStr
  | [], acc => (acc, [])
  | c :: cs, acc =>
    match digitVal c with
    | some d => if d < base then strtoullLoop base cs (acc * base + d) else (acc, c :: cs)
    | none => (acc, c :: cs)

/-- `strtoull(s, &endptr, base)` with `errno` cleared before: the value and the rest at `endptr`, or
`none` in the value position for `ERANGE` (value does not fit into 64 bits).
Simplification: leading white space, signs and `0x` prefixes are not handled, because the only caller
(ef-parse-bytes.c:260) has checked before that there are only digits. -/
def strtoull (s : CStr) (base : Nat) : Option Nat × CStr :=
  let r := strtoullLoop base s 0
  (if r.1 < 2 ^ 64 then some r.1 else none, r.2)

/-- State of glibc `inet_pton4`: the octets finished or in progress, most recent first. -/
structure Pton4 where
  /-- number of octets started -/
  octets : Nat
  sawDigit : Bool
  /-- current octet `*tp` -/
  cur : Nat
  /-- finished octets, in order -/
  fin : List Nat

/-- One character of glibc `inet_pton4`. -/
def pton4Step (st : Pton4) (ch : Byte) : Option Pton4 :=
  let n := ch.toNat
  if 48 ≤ n ∧ n ≤ 57 then
    let new := st.cur * 10 + (n - 48)
    if st.sawDigit ∧ st.cur = 0 then none
    else if new > 255 then none
    else if st.sawDigit then some { st with cur := new }
    else if st.octets + 1 > 4 then none
    else some { st with cur := new, octets := st.octets + 1, sawDigit := true }
  else if n = 46 ∧ st.sawDigit then
    if st.octets = 4 then none
    else some { st with fin := st.fin ++ [st.cur], cur := 0, sawDigit := false }
  else none

/-- `inet_pton(AF_INET, s, buf)` (glibc `inet_pton4`): `none` if it does not return 1. -/
def inetPton4 (s : CStr) : Option Buf :=
  match s.foldlM pton4Step { octets := 0, sawDigit := false, cur := 0, fin := [] } with
  | none => none
  | some st => if st.octets < 4 then none else some ((st.fin ++ [st.cur]).map (BitVec.ofNat 8))

/-- glibc `hex_digit_value`. -/
def hexDigit (c : Byte) : Option Nat :=
  let n := c.toNat
  if 48 ≤ n ∧ n ≤ 57 then some (n - 48)
  else if 97 ≤ n ∧ n ≤ 102 then some (n - 97 + 10)
  else if 65 ≤ n ∧ n ≤ 70 then some (n - 65 + 10)
  else none

/-- State of glibc `inet_pton6`. -/
structure Pton6 where
  /-- bytes written so far (`tp - tmp` is its length) -/
  out : List Byte
  /-- position of `::` if seen -/
  colonp : Option Nat
  xdigits : Nat
  val : Nat

/-- The two bytes of a group. -/
def group6 (v : Nat) : List Byte := [BitVec.ofNat 8 (v / 256), BitVec.ofNat 8 v]

/-- Main loop of glibc `inet_pton6`; `curtok` is the text from the start of the current group. -/
def pton6Loop (curtok : CStr) : CStr → Pton6 → Option Pton6
  | [], st => some st
  | ch :: src, st =>
    match hexDigit ch with
    | some d =>
      if st.xdigits = 4 then none
      else if st.val * 16 + d > 0xffff then none
      else pton6Loop curtok src { st with val := st.val * 16 + d, xdigits := st.xdigits + 1 }
    | none =>
      if ch = ch!":" then
        if st.xdigits = 0 then
          if st.colonp.isSome then none
          else pton6Loop src src { st with colonp := some st.out.length }
        else if src = [] then none
        else if st.out.length + 2 > 16 then none
        else pton6Loop src src { st with out := st.out ++ group6 st.val, xdigits := 0, val := 0 }
      else if ch = ch!"." ∧ st.out.length + 4 ≤ 16 then
        match inetPton4 curtok with
        | some q => some { st with out := st.out ++ q, xdigits := 0 }
        | none => none
      else none

/-- End of glibc `inet_pton6`: flush the last group and expand `::`. -/
def pton6Finish (st : Pton6) : Option Buf :=
  let flushed : Option (List Byte) :=
    if st.xdigits > 0 then
      if st.out.length + 2 > 16 then none else some (st.out ++ group6 st.val)
    else some st.out
  match flushed with
  | none => none
  | some out =>
    match st.colonp with
    | some p =>
      if out.length = 16 then none
      else some (out.take p ++ List.replicate (16 - out.length) 0#8 ++ out.drop p)
    | none => if out.length = 16 then some out else none

/-- Start of glibc `inet_pton6`: a leading colon must be a double colon, and one of the two is skipped. -/
def pton6Start (s : CStr) : Option CStr :=
  match s with
  | [] => none
  | c :: cs =>
    if c = ch!":" then
      match cs with
      | [] => none
      | d :: _ => if d = ch!":" then some cs else none
    else some s

/-- `inet_pton(AF_INET6, s, buf)` (glibc `inet_pton6`). -/
def inetPton6 (s : CStr) : Option Buf :=
  match pton6Start s with
  | none => none
  | some src =>
    match pton6Loop src src { out := [], colonp := none, xdigits := 0, val := 0 } with
    | none => none
    | some st => pton6Finish st

/-- Decimal digits of a number, most significant first (`printf("%d")` for values below 2^31,
`printf("%u")`). Used with fuel `n + 1`, which is always enough. -/
def decLoop : Nat → Nat → CStr → CStr
  | 0, _, acc => acc
  | fuel + 1, n, acc =>
    let acc := BitVec.ofNat 8 (48 + n % 10) :: acc
    if n < 10 then acc else decLoop fuel (n / 10) acc

/-- `snprintf(buf, 16, "%d", n)` for `0 <= n < 2^31`. -/
def decStr (n : Nat) : CStr := decLoop (n + 1) n []

/-- `snprintf(buf, 16, "%d", n)` for an `int`. -/
def decStrInt (n : Int) : CStr :=
  if n < 0 then ch!"-" :: decStr n.natAbs else decStr n.toNat

/-- Lower case hexadecimal digit. -/
def hexChar (d : Nat) : Byte := if d < 10 then BitVec.ofNat 8 (48 + d) else BitVec.ofNat 8 (87 + d)

/-- `printf("%x")`. -/
def hexLoop : Nat → Nat → CStr → CStr
  | 0, _, acc => acc
  | fuel + 1, n, acc =>
    let acc := hexChar (n % 16) :: acc
    if n < 16 then acc else hexLoop fuel (n / 16) acc

/-- `snprintf(buf, 16, "0x%x", n)` for `n < 2^32`. -/
def hexStr (n : Nat) : CStr := c!"0x" ++ hexLoop (n + 1) n []

end Ef
