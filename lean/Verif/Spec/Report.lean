import Verif.Model.Exec
import Verif.Spec.Text

/-!
# Reading the printed report

A reader for the text that a run prints: it takes the text apart into lines, and the lines into what they tell. It
knows the labels, nothing about how the text is produced.
-/

namespace Ef.Spec

/-- The frame a line speaks about: its name or its bytes. -/
inductive Told where
  | name (n : CStr)
  | bytes (b : Buf)
  deriving DecidableEq, Repr

/-- What kind of message it is. -/
inductive Note.Kind where
  /-- a frame was given a name -/
  | named
  /-- output of the `hex` command -/
  | data
  /-- an expected frame was received -/
  | received
  /-- a frame was received that nobody expected -/
  | unexpected
  /-- a frame was transmitted -/
  | transmitted
  /-- an expected frame was not received -/
  | missing
  /-- a name was used that nobody defined -/
  | unknownName
  deriving DecidableEq, Repr

/-- One message of the report: its kind, the interface or name it is about, the frame, and the mask (the bits that
are compared). -/
structure Note where
  kind : Note.Kind
  subject : CStr
  frame : Told
  mask : Option Buf := none
  deriving DecidableEq, Repr

/-- The lines of a text. -/
def linesOf : CStr → List CStr
  | [] => []
  | c :: cs =>
    if c = 10#8 then [] :: linesOf cs
    else
      match linesOf cs with
      | [] => [[c]]
      | l :: ls => (c :: l) :: ls

/-- The value of a hexadecimal digit in lower case. -/
def hexVal (c : Byte) : Option Nat :=
  if ch!"0" ≤ c ∧ c ≤ ch!"9" then some (c.toNat - 48)
  else if ch!"a" ≤ c ∧ c ≤ ch!"f" then some (c.toNat - 87)
  else none

/-- The bytes written as pairs of hexadecimal digits. -/
def unhex : CStr → Option Buf
  | [] => some []
  | x :: y :: s =>
    match hexVal x, hexVal y, unhex s with
    | some a, some b, some r => some (BitVec.ofNat 8 (16 * a + b) :: r)
    | _, _, _ => none
  | _ => none

/-- What follows the label `p`. -/
def after (p s : CStr) : Option CStr := if s.take p.length = p then some (s.drop p.length) else none

/-- `SUBJECT: FRAME`, with blanks before it; the frame is `name N` or hexadecimal digits. -/
def readBody (k : Note.Kind) (s : CStr) : Option Note :=
  let s := s.dropWhile (· == ch!" ")
  let subject := s.takeWhile (· != ch!":")
  match after c!": " (s.drop subject.length) with
  | none => none
  | some t =>
    match after c!"name " t with
    | some n => some ⟨k, subject, .name n, none⟩
    | none => (unhex t).map (fun b => ⟨k, subject, .bytes b, none⟩)

/-- The labels of the messages about an interface or a name. -/
def labels : List (CStr × Note.Kind) := [(c!"NAME:  ", .named), (c!"RX-OK  ", .received), (c!"RX-ERR ", .unexpected),
  (c!"TX     ", .transmitted), (c!"NO-RX  ", .missing)]

/-- The labels of the lines with the mask. -/
def maskLabel : Note.Kind → CStr
  | .named => c!"NAME MASK:               "
  | .data => c!"MASK: "
  | .received => c!"RX-OK MASK:              "
  | .missing => c!"NO-RX MASK:              "
  | _ => c!"?"

/-- A line with a message. -/
def readNote (l : CStr) : Option Note :=
  match labels.find? (fun p => (after p.1 l).isSome) with
  | some p => (after p.1 l).bind (readBody p.2)
  | none =>
    match after c!"No frame in inventory called " l with
    | some n => some ⟨.unknownName, n, .name n, none⟩
    | none =>
      match after c!"DATA: " l with
      | some t => (unhex t).map (fun b => ⟨.data, [], .bytes b, none⟩)
      | none => (unhex l).map (fun b => ⟨.data, [], .bytes b, none⟩)

/-- The line with the mask of a message. -/
def readMask (k : Note.Kind) (l : CStr) : Option Buf := (after (maskLabel k) l).bind unhex

/-- Messages, each with the mask if it is on the next line; empty lines do not matter. -/
def readLines : List CStr → Option (List Note)
  | [] => some []
  | [l] => if l = [] then some [] else (readNote l).map (fun n => [n])
  | l :: m :: ls =>
    if l = [] then readLines (m :: ls)
    else
      match readNote l with
      | none => none
      | some n =>
        match readMask n.kind m with
        | some b => (readLines ls).map (fun ns => { n with mask := some b } :: ns)
        | none => (readLines (m :: ls)).map (fun ns => n :: ns)

/-- The messages in a text; `none` if a line cannot be understood. -/
def readReport (s : CStr) : Option (List Note) := readLines (linesOf s)

/-! ## What is to be told -/

/-- The name of the frame if it has one, otherwise its bytes and mask. -/
def telling (k : Note.Kind) (a : CStr) (name : Option CStr) (b : Buf) (m : Option Buf) : Note :=
  match name with
  | some n => ⟨k, a, .name n, none⟩
  | none => ⟨k, a, .bytes b, m⟩

/-- The messages on standard output. -/
def outNote : Event → Option Note
  | .named n b m => some ⟨.named, n, .bytes b, m⟩
  | .hex b m => some ⟨.data, [], .bytes b, m⟩
  | .rxOk a b n m => some (telling .received a n b m)
  | .txDone a b n => some (telling .transmitted a n b none)
  | _ => none

/-- The messages on standard error. -/
def errNote : Event → Option Note
  | .noSuchName n => some ⟨.unknownName, n, .name n, none⟩
  | .rxErr a b => some ⟨.unexpected, a, .bytes b, none⟩
  | .noRx a b n m => some (telling .missing a n b m)
  | _ => none

/-- A text without a newline. -/
def OneLine (s : CStr) : Prop := 10#8 ∉ s

/-- The name of an interface (or of a frame) that can be told from the text around it: one line, no colon, and no blank
at the beginning. Linux allows neither blanks nor colons in the name of an interface. -/
def Readable (s : CStr) : Prop := OneLine s ∧ ch!":" ∉ s ∧ s.head? ≠ some ch!" "

/-- The commands use readable names. -/
def ReadableCmd (c : Cmd) : Prop :=
  (∀ a, (c.type = .rx ∨ c.type = .tx) → c.arg0 = some a → Readable a) ∧ (∀ n, c.name = some n → Readable n)

end Ef.Spec
