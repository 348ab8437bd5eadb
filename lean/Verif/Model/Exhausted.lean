import Verif.Model.Exec

/-!
# Copies when memory runs out (ef-buf.c:14-40, ef.h:82-99, ef.c:56-121, ef-exec.c:319-339, 405-420)

The answers of `calloc` and `malloc` are a list; after its end every request is granted. Only the requests of the copying functions
are taken from it. Simplification: requests of the parser, of serialisation and of `strdup` are granted.
-/

namespace Ef

/-- One request for memory. -/
def grant : List Bool → Bool × List Bool
  | [] => (true, [])
  | a :: as => (a, as)

/-- `bclone` with `balloc` (ef-buf.c:14-40): NULL if the memory is not granted. -/
def bcloneA : Option Buf → List Bool → Option Buf × List Bool
  | none, as => (none, as)
  | some b, as => (if (grant as).1 then some b else none, (grant as).2)

/-- The loop of `hdr_copy` with `field_copy` (ef.c:90-93, 56-64): failures are not looked at. -/
def fieldsCopyA : List Field → List Bool → List Field × List Bool
  | [], as => ([], as)
  | f :: fs, as =>
    let (v, as) := bcloneA f.val as
    let (d, as) := bcloneA f.dflt as
    let (fs', as) := fieldsCopyA fs as
    ({ f with val := v, dflt := d } :: fs', as)

/-- `hdr_clone` (ef.h:88-99) with `hdr_copy` (ef.c:82-98). -/
def hdrCloneA (src : Hdr) (as : List Bool) : Option Hdr × List Bool :=
  let (self, as) := grant as
  if self = false then (none, as)
  else
    let (arr, as) := if src.fields = [] then (true, as) else grant as
    if arr = false then (none, as)
    else
      let (fs, as) := fieldsCopyA src.fields as
      (some { src with fields := fs }, as)

/-- The loop of `frame_copy` (ef.c:114-118): a header that could not be cloned is a NULL in the stack. -/
def hdrsCloneA : List Hdr → List Bool → List (Option Hdr) × List Bool
  | [], as => ([], as)
  | h :: hs, as =>
    let (h', as) := hdrCloneA h as
    let (hs', as) := hdrsCloneA hs as
    (h' :: hs', as)

/-- `frame_clone` (ef.h:88-99) with `frame_copy` (ef.c:110-121). Of a clone only `padding_len` is read later, so the NULLs of the
stack are left out. -/
def frameCloneA (src : Frame) (as : List Bool) : Option Frame × List Bool :=
  let (self, as) := grant as
  if self = false then (none, as)
  else
    let (st, as) := hdrsCloneA src.stack as
    (some { src with stack := st.filterMap id }, as)

/-- `copy_cmd_by_name` for the definition found (ef-exec.c:332-335): it returns 0 in any case. -/
def copyCmdA (d c : Cmd) (as : List Bool) : Cmd × List Bool :=
  let (f, as) :=
    match d.frame with
    | none => (none, as)
    | some f => frameCloneA f as
  let (b, as) := bcloneA d.buf as
  let (m, as) := bcloneA d.mask as
  ({ c with frame := f, buf := b, mask := m }, as)

/-- "Pair named frames" (ef-exec.c:405-420). -/
def pairNamesA (all : List Cmd) : List Cmd → List Bool → List Cmd × List Event
  | [], _ => ([], [])
  | c :: cs, as =>
    match needsName c with
    | none =>
      let (cs', es) := pairNamesA all cs as
      (c :: cs', es)
    | some n =>
      match lookupName n all with
      | some d =>
        let (c', as) := copyCmdA d c as
        let (cs', es) := pairNamesA all cs as
        (c' :: cs', es)
      | none =>
        let (cs', es) := pairNamesA all cs as
        (c :: cs', .noSuchName n :: es)

/-- `exec_cmds` (ef-exec.c:378-546) with the answers of the allocator. -/
def execCmdsA (env : Env) (as : List Bool) (cmds : List Cmd) : Out ExecRes :=
  let (cmds', en) := pairNamesA cmds cmds as
  if en ≠ [] then .ok ⟨some en.length, .finished, [], inventory cmds ++ en⟩
  else do
    let r ← execResolved env cmds'
    .ok { r with events := inventory cmds ++ r.events }

end Ef
