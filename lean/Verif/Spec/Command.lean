import Verif.Model.Args
import Verif.Spec.Assign

/-!
# Specification: the commands of a command line

`argcFrame`, `frameToBuf` and `frameMaskToBuf` (parsing and serialisation of one frame) are described by other
properties.
-/

namespace Ef.Spec

open Ef

/-- All the words `ws` (at least one) describe the frame which completed is `f`, with bytes `b` and mask `m`. -/
def FrameWords (ws : List CStr) (f : Frame) (b : Buf) (m : Option Buf) : Prop :=
  ws ≠ [] ∧ ∃ f0, argcFrame ws = .ok (some (ws.length, f0)) ∧ frameToBuf f0 = .ok (f, b) ∧
    ((f.hasMask = false ∧ m = none) ∨ (f.hasMask = true ∧ ∃ x, m = some x ∧ frameMaskToBuf f = .ok x))

/-- The beginning of a command which is followed by a frame or the name of a frame. -/
inductive Head (hasPcap : Bool) : List CStr → Cmd → Prop
  | hex : Head hasPcap [c!"hex"] { type := .hex }
  | pcap (file : CStr) : hasPcap = true → Head hasPcap [c!"pcap", file] { type := .pcap, arg0 := some file }
  | rx (ifc : CStr) : Head hasPcap [c!"rx", ifc] { type := .rx, arg0 := some ifc }
  | tx (ifc : CStr) : Head hasPcap [c!"tx", ifc] { type := .tx, arg0 := some ifc, rep := 1 }
  | txRep (ifc w k : CStr) : w = c!"rep" ∨ w = c!"repeat" →
      Head hasPcap [c!"tx", ifc, w, k] { type := .tx, arg0 := some ifc, rep := (atoi k % 2 ^ 32).toNat }

/-- The words of one command. -/
inductive Command (hasPcap : Bool) : List CStr → Cmd → Prop
  /-- `name NAME FRAME` -/
  | define (n : CStr) {ws f b m} : FrameWords ws f b m →
      Command hasPcap (c!"name" :: n :: ws) { type := .name, name := some n, frame := some f, buf := some b, mask := m }
  /-- `... FRAME` -/
  | frame {hd c ws f b m} : Head hasPcap hd c → FrameWords ws f b m →
      Command hasPcap (hd ++ ws) { c with frame := some f, buf := some b, mask := m }
  /-- `... name NAME` -/
  | ref {hd c} (n : CStr) : Head hasPcap hd c → Command hasPcap (hd ++ [c!"name", n]) { c with name := some n }
  /-- `rx IF` -/
  | listen (ifc : CStr) : Command hasPcap [c!"rx", ifc] { type := .rx, arg0 := some ifc }

/-- The words of the command end with a frame whose last header takes payload segments. -/
def EndsWithPayload (hasPcap : Bool) (ws : List CStr) : Prop :=
  ∃ hd fw f h, ws = hd ++ fw ∧ ((∃ c, Head hasPcap hd c) ∨ ∃ n, hd = [c!"name", n]) ∧
    argcFrame fw = .ok (some (fw.length, f)) ∧ f.stack.getLast? = some h ∧ TakesSegments h

/-- The command `ws` may be followed by a command starting with the word `w`: a payload not by `hex` (which would be
another segment) and `rx IF` not by `name` (which would be the name of the expected frame). -/
def MayPrecede (hasPcap : Bool) (ws : List CStr) (w : CStr) : Prop :=
  (EndsWithPayload hasPcap ws → w ≠ c!"hex") ∧ ((∃ ifc, ws = [c!"rx", ifc]) → w ≠ c!"name")

/-- The commands of a line may follow each other. -/
def Separated (hasPcap : Bool) : List (List CStr × Cmd) → Prop
  | [] => True
  | [_] => True
  | p :: q :: l => (∀ w, q.1.head? = some w → MayPrecede hasPcap p.1 w) ∧ Separated hasPcap (q :: l)

/-- All words of the commands. -/
def allWords (l : List (List CStr × Cmd)) : List CStr := l.flatMap (·.1)

end Ef.Spec
