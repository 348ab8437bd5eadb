import Verif.Model.Main
import Verif.Spec.Command

/-!
# Specification: other names for interfaces, files and frames
-/

namespace Ef.Spec

open Ef

/-- Other names: for interfaces, for files and for frames. -/
structure Names where
  iface : CStr → CStr
  file : CStr → CStr
  frame : CStr → CStr

/-- Different interfaces and different frames keep different names. -/
structure Names.Distinct (ρ : Names) : Prop where
  iface : ∀ a b, ρ.iface a = ρ.iface b → a = b
  frame : ∀ a b, ρ.frame a = ρ.frame b → a = b

/-- A command with the other names. -/
def rnCmd (ρ : Names) (c : Cmd) : Cmd :=
  { c with
    name := c.name.map ρ.frame
    arg0 := match c.type with
      | .rx => c.arg0.map ρ.iface
      | .tx => c.arg0.map ρ.iface
      | .pcap => c.arg0.map ρ.file
      | _ => c.arg0 }

/-- What is observed, with the other names. -/
def Names.event (ρ : Names) : Event → Event
  | .named n b m => .named (ρ.frame n) b m
  | .noSuchName n => .noSuchName (ρ.frame n)
  | .pcap f b => .pcap (ρ.file f) b
  | .hex b m => .hex b m
  | .opened a => .opened (ρ.iface a)
  | .wait t => .wait t
  | .rxOk a b n m => .rxOk (ρ.iface a) b (n.map ρ.frame) m
  | .rxErr a b => .rxErr (ρ.iface a) b
  | .send a b r => .send (ρ.iface a) b r
  | .txDone a b n => .txDone (ρ.iface a) b (n.map ρ.frame)
  | .noRx a b n m => .noRx (ρ.iface a) b (n.map ρ.frame) m

/-- The result of a run, with the other names. -/
def Names.run (ρ : Names) (r : RunRes) : RunRes := { r with events := r.events.map ρ.event }

/-- The beginning of a command with the other names. -/
inductive HeadRenamed (ρ : Names) (hasPcap : Bool) : List CStr → List CStr → Prop
  | hex : HeadRenamed ρ hasPcap [c!"hex"] [c!"hex"]
  | pcap (f : CStr) : hasPcap = true → HeadRenamed ρ hasPcap [c!"pcap", f] [c!"pcap", ρ.file f]
  | rx (a : CStr) : HeadRenamed ρ hasPcap [c!"rx", a] [c!"rx", ρ.iface a]
  | tx (a : CStr) : HeadRenamed ρ hasPcap [c!"tx", a] [c!"tx", ρ.iface a]
  | txRep (a w k : CStr) : w = c!"rep" ∨ w = c!"repeat" → HeadRenamed ρ hasPcap [c!"tx", a, w, k] [c!"tx", ρ.iface a, w, k]

/-- The words of a command with the other names. -/
inductive Renamed (ρ : Names) (hasPcap : Bool) : List CStr → List CStr → Prop
  | define (n : CStr) {ws f b m} : FrameWords ws f b m → Renamed ρ hasPcap (c!"name" :: n :: ws) (c!"name" :: ρ.frame n :: ws)
  | frame {hd hd' ws f b m} : HeadRenamed ρ hasPcap hd hd' → FrameWords ws f b m → Renamed ρ hasPcap (hd ++ ws) (hd' ++ ws)
  | ref {hd hd'} (n : CStr) : HeadRenamed ρ hasPcap hd hd' → Renamed ρ hasPcap (hd ++ [c!"name", n]) (hd' ++ [c!"name", ρ.frame n])
  | listen (a : CStr) : Renamed ρ hasPcap [c!"rx", a] [c!"rx", ρ.iface a]

/-- The commands of a line with the other names. -/
inductive RenamedAll (ρ : Names) (hasPcap : Bool) : List (List CStr) → List (List CStr) → Prop
  | nil : RenamedAll ρ hasPcap [] []
  | cons {ws ws' l l'} : Renamed ρ hasPcap ws ws' → RenamedAll ρ hasPcap l l' → RenamedAll ρ hasPcap (ws :: l) (ws' :: l')

end Ef.Spec
