import Verif.Model.Exhausted
import Verif.Model.ParseBytes

/-!
# Payloads when memory runs out (ef-parse-bytes.c:54-806)

The answers of the allocator are a list as in `Exhausted`; a request may be refused because of its size. Where the code uses the result of
`balloc` without a check, NULL is used.
-/

namespace Ef

/-- A parser that asks for memory when it has found a value, and returns NULL if the memory is refused. -/
def checkedA (o : Out (Option Buf)) (as : List Bool) : Out (Option Buf × List Bool) := do
  match ← o with
  | none => .ok (none, as)
  | some b => .ok (if (grant as).1 then some b else none, (grant as).2)

/-- A parser that asks for memory unless the text is wrong, and uses the result without a check. -/
def uncheckedA (o : Out (Option Buf)) (as : List Bool) : Out (Option Buf × List Bool) :=
  match o with
  | .ok none => .ok (none, as)
  | o =>
    if (grant as).1 then do
      let b ← o
      .ok (b, (grant as).2)
    else .ub .nullDeref

/-- `parse_bytes(s, bytes)` (ef-parse-bytes.c:194-482): only the long hexadecimal and binary numbers are without a check
(ef-parse-bytes.c:87, 156). -/
def parseBytesA (s : CStr) (bytes : Nat) (as : List Bool) : Out (Option Buf × List Bool) :=
  if numBase (splitPrefix s).1 (splitPrefix s).2 ≠ 0 ∧ bytes ≤ 8 then checkedA (parseBytes s bytes) as
  else if numBase (splitPrefix s).1 (splitPrefix s).2 = 16 ∨ numBase (splitPrefix s).1 (splitPrefix s).2 = 2 then
    uncheckedA (parseBytes s bytes) as
  else checkedA (parseBytes s bytes) as

/-- `parse_uint8` (ef-parse-bytes.c:610-620). -/
def parseUint8A (s : CStr) (as : List Bool) : Out (Option Byte × List Bool) := do
  match ← parseBytesA s 1 as with
  | (none, as) => .ok (none, as)
  | (some (x :: _), as) => .ok (some x, as)
  | (some [], _) => .ub .oobRead

/-- `parse_uint32` (ef-parse-bytes.c:622-634). -/
def parseUint32A (s : CStr) (as : List Bool) : Out (Option Nat × List Bool) := do
  match ← parseBytesA s 4 as with
  | (none, as) => .ok (none, as)
  | (some (a :: b :: c :: d :: _), as) => .ok (some (be32 a b c d), as)
  | (some _, _) => .ub .oobRead

/-- `parse_var_bytes_repeat` (ef-parse-bytes.c:636-656). -/
def parseVarBytesRepeatA (cnt val : CStr) (as : List Bool) : Out (Option Buf × List Bool) := do
  match ← parseUint32A cnt as with
  | (none, as) => .ok (none, as)
  | (some n, as) => do
    match ← parseUint8A val as with
    | (none, as) => .ok (none, as)
    | (some v, as) => checkedA (.ok (some (List.replicate n v))) as

/-- The bytes of a pattern (ef-parse-bytes.c:671-685). -/
def patternBytes (pat : CStr) (n : Nat) : Option Buf :=
  if pat = c!"cnt" then some (cntPattern n 0#8)
  else if pat = c!"zero" then some (List.replicate n 0#8)
  else if pat = c!"ones" then some (List.replicate n 0xff#8)
  else none

/-- `parse_var_bytes_pattern` (ef-parse-bytes.c:658-688): the memory is requested before the pattern is looked at. -/
def parseVarBytesPatternA (pat len : CStr) (as : List Bool) : Out (Option Buf × List Bool) := do
  match ← parseUint32A len as with
  | (none, as) => .ok (none, as)
  | (some n, as) => .ok (if (grant as).1 then patternBytes pat n else none, (grant as).2)

/-- The end of `parse_var_bytes_` (ef-parse-bytes.c:752-759). -/
def segA (used : Nat) (o : Out (Option Buf × List Bool)) : Out (Seg × List Bool) := do
  let x ← o
  .ok (Seg.ofOpt used x.1, x.2)

/-- `parse_var_bytes_` (ef-parse-bytes.c:692-760). -/
def parseVarBytes1A (argv : List CStr) (as : List Bool) : Out (Seg × List Bool) :=
  match argv with
  | [] => .ok (.stop, as)
  | w :: rest =>
    if w = c!"help" then .ok (.err, as)
    else if w = c!"hex" then
      match rest with
      | a :: _ => segA 2 (uncheckedA (parseVarBytesHex a 0) as)
      | [] => .ok (.err, as)
    else if w = c!"ascii" then
      match rest with
      | a :: _ => segA 2 (uncheckedA (.ok (some (parseVarBytesAscii a))) as)
      | [] => .ok (.err, as)
    else if w = c!"ascii0" then
      match rest with
      | a :: _ => segA 2 (uncheckedA (.ok (some (parseVarBytesAscii0 a))) as)
      | [] => .ok (.err, as)
    else if w = c!"repeat" then
      match rest with
      | a :: b :: _ => segA 3 (parseVarBytesRepeatA a b as)
      | _ => .ok (.err, as)
    else if w = c!"pattern" then
      match rest with
      | a :: b :: _ => segA 3 (parseVarBytesPatternA a b as)
      | _ => .ok (.err, as)
    else .ok (.stop, as)

/-- Joining a segment to the payload so far (ef-parse-bytes.c:773-791): nothing stands for `return -1`. -/
def joinA (acc : Option Buf) (b : Buf) (as : List Bool) : Out (Option Buf × List Bool) :=
  match acc with
  | some r => checkedA (.ok (some (r ++ b))) as
  | none => .ok (some b, as)

/-- Loop of `parse_var_bytes` (ef-parse-bytes.c:767-800). -/
def parseVarBytesLoopA : Nat → List CStr → Nat → Option Buf → List Bool → Out (Option (Nat × Option Buf) × List Bool)
  | 0, _, i, acc, as => .ok (some (i, acc), as)
  | fuel + 1, argv, i, acc, as =>
    if argv = [] then .ok (some (i, acc), as)
    else do
      match ← parseVarBytes1A argv as with
      | (.err, as) => .ok (none, as)
      | (.stop, as) => .ok (some (i, acc), as)
      | (.seg b used, as) => do
        match ← joinA acc b as with
        | (none, as) => .ok (none, as)
        | (some r, as) => parseVarBytesLoopA fuel (argv.drop used) (i + used) (some r) as

/-- `parse_var_bytes` (ef-parse-bytes.c:762-806). -/
def parseVarBytesA (argv : List CStr) (as : List Bool) : Out (Option (Nat × Option Buf) × List Bool) :=
  parseVarBytesLoopA argv.length argv 0 none as

end Ef
