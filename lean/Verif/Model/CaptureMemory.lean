import Verif.Model.Exhausted
import Verif.Model.Main

/-!
# Adding a capture when memory runs out (ef-capture.c:51-142)

The answers of the allocator are a list as in `Exhausted`. NULL is used where the code uses a result of `bprintf` without a check.
-/

namespace Ef

/-- What `capture_add` did: the files it deleted, and the command of the new capture, or nothing for the result -1. -/
structure AddRes where
  deleted : List CStr
  cmd : Option CStr
  deriving DecidableEq, Repr

/-- `bprintf` (ef-buf.c:255-274) for the given text: NULL if the memory is not granted. -/
def bprintfA (s : CStr) (as : List Bool) : Option CStr × List Bool := (if (grant as).1 then some s else none, (grant as).2)

/-- Adding an option to the command (ef-capture.c:77-84, 87-94, 116-123): nothing stands for `return -1`. Without a value the command,
which may be NULL, is left as it is. -/
def addOptA (b : Option CStr) (opt : CStr) (v : Option CStr) (as : List Bool) : Out (Option (Option CStr) × List Bool) :=
  match v with
  | none => .ok (some b, as)
  | some v =>
    match b with
    | none => .ub .nullDeref
    | some t =>
      match bprintfA (t ++ opt ++ v) as with
      | (none, as) => .ok (none, as)
      | (some t', as) => .ok (some (some t'), as)

/-- The end of `capture_add` (ef-capture.c:115-141). -/
def addEndA (es : List CStr) (file : CStr) (t : CStr) (as : List Bool) : Out AddRes := do
  match ← addOptA (some t) c!" -c " (elemGiven es 4) as with
  | (none, _) => .ok ⟨[file], none⟩
  | (some none, _) => .ub .nullDeref
  | (some (some t), as) => if (grant as).1 then .ok ⟨[file], some t⟩ else .ok ⟨[file], none⟩

/-- The name of the file (ef-capture.c:97-101). -/
def addName (es : List CStr) : CStr :=
  match elemGiven es 3 with
  | some f => f
  | none => (es[0]?).getD [] ++ c!".pcap"

/-- The file of the capture (ef-capture.c:96-113): its name is used without a check, and so is the command so far. -/
def addFileA (es : List CStr) (b : Option CStr) (as : List Bool) : Out AddRes :=
  match bprintfA (addName es) as with
  | (none, _) => .ub .nullDeref
  | (some f, as) =>
    match b with
    | none => .ub .nullDeref
    | some t =>
      match bprintfA (t ++ c!" -w " ++ f) as with
      | (none, _) => .ok ⟨[f], none⟩
      | (some t', as) => addEndA es f t' as

/-- `capture_add` (ef-capture.c:51-142). -/
def captureAddA (s : CStr) (as : List Bool) : Out AddRes := do
  let es := captureElems 5 s
  let (b, as) := bprintfA (c!"tcpdump -i " ++ (es[0]?).getD []) as
  match ← addOptA b c!" -s " (elemGiven es 1) as with
  | (none, _) => .ok ⟨[], none⟩
  | (some b, as) => do
    match ← addOptA b c!" -j " (elemGiven es 2) as with
    | (none, _) => .ok ⟨[], none⟩
    | (some b, as) => addFileA es b as

/-- The option loop of `main_` (ef-args.c:333-358) with the answers of the allocator for each capture option; what is missing is granted.
`caps` are the captures added so far, `del` the files deleted so far. The message of a refusal (ef-args.c:349) is left out. The commands that
are started are taken from `captureCmd`; by `C135_added_partial` they are those of the captures added. -/
def mainLoopOptsC (w : World) (argv : List CStr) : List Opt → Int → List CStr → List CStr → List (List Bool) → Out RunRes
  | [], ms, caps, del, _ => do
    let r ← argcCmds w ms caps argv
    .ok { r with deleted := del }
  | .version :: _, _, _, del, _ => .ok { ret := some 0, version := true, deleted := del }
  | .help :: _, _, _, del, _ => .ok { ret := some (-1), help := true, deleted := del }
  | .bad :: _, _, _, del, _ => .ok { ret := some (-1), help := true, deleted := del }
  | .timeout a :: os, _, caps, del, ass => mainLoopOptsC w argv os (atoi a) caps del ass
  | .capture a :: os, ms, caps, del, ass => do
    let r ← captureAddA a (ass.headD [])
    match r.cmd with
    | none => .ok { ret := some (-1), deleted := del ++ r.deleted }
    | some _ => mainLoopOptsC w argv os ms (caps ++ [a]) (del ++ r.deleted) ass.tail

/-- `main_` (ef-args.c:328-361) with the answers of the allocator for each capture option. -/
def mainC (w : World) (ass : List (List Bool)) (argv : List CStr) : Out RunRes :=
  let (os, words) := getopt w.posix argv
  mainLoopOptsC w words os 100 [] [] ass

end Ef
