import Verif.Spec.Abbrev
import Verif.Spec.Match

/-!
# Specification: which words an effect comes from
-/

namespace Ef.Spec

open Ef

/-- The beginning of a command that transmits on the interface. -/
def TxHead (a : CStr) (hd : List CStr) : Prop :=
  hd = [c!"tx", a] ∨ ∃ w k, (w = c!"rep" ∨ w = c!"repeat") ∧ hd = [c!"tx", a, w, k]

/-- The beginning of a command that expects a frame on the interface. -/
def RxHead (a : CStr) (hd : List CStr) : Prop := hd = [c!"rx", a]

/-- One of the commands of the line is `hd` followed by the frame `fw`, or by a name which the line gives to this frame. -/
def Orders (line : List (List CStr)) (hd fw : List CStr) : Prop :=
  hd ++ fw ∈ line ∨ ∃ n, hd ++ [c!"name", n] ∈ line ∧ FirstDefinition n fw line

/-- A command of the line starts with these words. -/
def Begins (line : List (List CStr)) (hd : List CStr) : Prop := ∃ ws ∈ line, ∃ r, ws = hd ++ r

/-- The words of the line that ask for an effect. -/
def AskedBy (line : List (List CStr)) : Event → Prop
  | .named n b m => ∃ fw f, c!"name" :: n :: fw ∈ line ∧ FrameWords fw f b m
  | .pcap file b => ∃ fw f m, Orders line [c!"pcap", file] fw ∧ FrameWords fw f b m
  | .hex b m => ∃ fw f, Orders line [c!"hex"] fw ∧ FrameWords fw f b m
  | .send a b _ => ∃ hd fw f m, TxHead a hd ∧ Orders line hd fw ∧ FrameWords fw f b m
  | .txDone a b _ => ∃ hd fw f m, TxHead a hd ∧ Orders line hd fw ∧ FrameWords fw f b m
  | .noRx a b _ m => ∃ fw f, Orders line [c!"rx", a] fw ∧ FrameWords fw f b m
  | .rxOk a x _ m => ∃ hd fw f b, (RxHead a hd ∨ TxHead a hd) ∧ Orders line hd fw ∧ FrameWords fw f b m ∧
      bequalMask (some x) (some b) m f.padding = .ok true
  | .rxErr a _ => Begins line [c!"rx", a] ∨ Begins line [c!"tx", a]
  | .opened a => Begins line [c!"rx", a] ∨ Begins line [c!"tx", a]
  | .noSuchName n => ∃ hd, hd ++ [c!"name", n] ∈ line
  | .wait _ => ∃ a, Begins line [c!"rx", a] ∨ Begins line [c!"tx", a]

end Ef.Spec
