import Verif.Spec.Tame
import Verif.Spec.Text
import Verif.Spec.Value
import Verif.Spec.Compared
import Verif.Model.Frame
import Verif.Model.Args

/-!
# Command lines on which the tool does not crash
-/

namespace Ef.Spec

open Ef

/-- The computation ended with a result, or the program ended by calling `exit`. -/
def EndsWell {α : Type} (o : Out α) : Prop := (∃ a, o = .ok a) ∨ ∃ c, o = .exit c

/-- A hexadecimal or binary literal does not have more digits than a field of `w` bits has room for. -/
def RoomFor (v : CStr) (w : Nat) : Prop :=
  (∀ d, v = c!"0x" ++ d → 4 * d.length ≤ w) ∧ ∀ d, v = c!"0b" ++ d → d.length ≤ w

/-- What may follow the word `par`: nothing, `ign`, `help`, or well-formed payload segments. -/
def ParmsText (ws : List CStr) : Prop :=
  ∀ w tl, ws = w :: tl → w = c!"ign" ∨ w = c!"ignore" ∨ w = c!"help" ∨
    ∃ (segs : List (List CStr × Buf)) (tail : List CStr), segs ≠ [] ∧ (∀ p ∈ segs, Segment p.1 p.2) ∧
      ws = (segs.map (·.1)).flatten ++ tail ∧ ∀ u ∈ tail.head?, u ∉ segmentWords

/-- Command lines without the known ways to crash the tool. All conditions are about the words only. -/
structure Sane (argv : List CStr) : Prop where
  short : ShortWords argv
  /-- long literals are only given to fields which have room for them -/
  literals : ∀ n v rest, (n :: v :: rest) <:+ argv → ∀ t ∈ hdrTmpls, ∀ f ∈ t.fields, f.name = n → f.parser = .none →
    64 < f.width → RoomFor v f.width
  /-- CoAP payload is well-formed -/
  parms : ∀ rest, (c!"par" :: rest) <:+ argv → ParmsText rest
  /-- `tx IF` and `tx IF rep` are followed by something -/
  tx : ∀ a, ¬ [c!"tx", a] <:+ argv
  rep : ∀ a r, r = c!"rep" ∨ r = c!"repeat" → ¬ [c!"tx", a, r] <:+ argv
  /-- no last TLV in supervision frames -/
  sv : c!"sv" ∈ argv → c!"tlv0_type" ∉ argv ∧ c!"tlv0_len" ∉ argv
  /-- no MLD message that is both a query and a report -/
  mld : c!"mld" ∈ argv → (∀ n ∈ queryNames, n ∉ argv) ∨ ∀ n ∈ reportNames, n ∉ argv
  /-- no `ign` together with headers which shrink -/
  mask : c!"ign" ∈ argv ∨ c!"ignore" ∈ argv → c!"igmp" ∉ argv ∧ c!"mld" ∉ argv ∧ c!"sv" ∉ argv

theorem Sane.suffix {a b : List CStr} (h : Sane b) (hs : a <:+ b) : Sane a where
  short := fun w hw => h.short w (hs.subset hw)
  literals := fun n v rest hn => h.literals n v rest (hn.trans hs)
  parms := fun rest hr => h.parms rest (hr.trans hs)
  tx := fun x hx => h.tx x (hx.trans hs)
  rep := fun x r hr hx => h.rep x r hr (hx.trans hs)
  sv := fun hx => ⟨fun hy => (h.sv (hs.subset hx)).1 (hs.subset hy), fun hy => (h.sv (hs.subset hx)).2 (hs.subset hy)⟩
  mld := fun hx => (h.mld (hs.subset hx)).imp (fun g n hn hy => g n hn (hs.subset hy)) fun g n hn hy => g n hn (hs.subset hy)
  mask := fun hx =>
    have g := h.mask (hx.imp (fun y => hs.subset y) fun y => hs.subset y)
    ⟨fun y => g.1 (hs.subset y), fun y => g.2.1 (hs.subset y), fun y => g.2.2 (hs.subset y)⟩

/-- The words of the command line do not make the parser crash. -/
structure SafeWords (argv : List CStr) : Prop where
  short : ShortWords argv
  /-- no literal is too long for a field of that name -/
  literals : ∀ n v rest, (n :: v :: rest) <:+ argv → ∀ t ∈ hdrTmpls, ∀ f ∈ t.fields, f.name = n → f.parser = .none →
    ¬ TooLong v (bitToByte f.width)
  /-- CoAP payload is well-formed -/
  parms : ∀ rest, (c!"par" :: rest) <:+ argv → ParmsText rest

theorem SafeWords.suffix {a b : List CStr} (h : SafeWords b) (hs : a <:+ b) : SafeWords a where
  short := fun w hw => h.short w (hs.subset hw)
  literals := fun n v rest hn => h.literals n v rest (hn.trans hs)
  parms := fun rest hr => h.parms rest (hr.trans hs)

/-- Command lines on which the tool does not crash. In contrast to `Sane` the words `ign`, `tlv0_type` and the like may be
used as long as the frames come out right. -/
structure Safe (argv : List CStr) : Prop where
  words : SafeWords argv
  /-- `tx IF` and `tx IF rep` are followed by something -/
  tx : ∀ a, ¬ [c!"tx", a] <:+ argv
  rep : ∀ a r, r = c!"rep" ∨ r = c!"repeat" → ¬ [c!"tx", a, r] <:+ argv
  /-- no header of a frame ends up inconsistent -/
  tame : ∀ ws, ws <:+ argv → ∀ n f, argcFrame ws = .ok (some (n, f)) → ∀ x ∈ f.stack, Tame x
  /-- the compared fields of a frame with a mask end inside the frame -/
  mask : ∀ ws, ws <:+ argv → ∀ n f, argcFrame ws = .ok (some (n, f)) → ∀ f' b, frameToBuf f = .ok (f', b) →
    f'.hasMask = true → ComparedInside f'.stack

theorem Safe.suffix {a b : List CStr} (h : Safe b) (hs : a <:+ b) : Safe a where
  words := h.words.suffix hs
  tx := fun x hx => h.tx x (hx.trans hs)
  rep := fun x r hr hx => h.rep x r hr (hx.trans hs)
  tame := fun ws hw => h.tame ws (hw.trans hs)
  mask := fun ws hw => h.mask ws (hw.trans hs)

end Ef.Spec
