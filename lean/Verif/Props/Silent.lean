import Verif.Lemmas.Silent
import Verif.Props.Messages

/-!
# Property C81: exactly which words are rejected without a message
-/

namespace Ef.Props

open Ef Spec

/-- **C81, which lines are rejected without a word**: only those that end with a payload or padding which is incomplete or contains a
text without value (`Mute`); for all others something is printed. -/
theorem C81_silent (hp : Bool) (file : CStr) (argv : List CStr) (h : parseCmds hp argv = .ok none) :
    printed hp file argv ≠ [] ∨ ∃ ws tail, argv = ws ++ tail ∧ Mute tail := by
  by_cases hm : parseMsgs hp argv = []
  · exact Or.inr (parse_mute h hm)
  · exact Or.inl (printed_ne hm)

theorem silent_line {hp : Bool} {hd : List CStr} (hl : LeadWords hp hd) {w : CStr} {tail : List CStr} {t : Hdr} (ht : findTmpl w = some t)
    (hw : w = c!"data" ∨ w = c!"padding") (hlen : tail.length < 100) (hr : runHdrParser t 0 false tail = .ok none)
    (hm : hdrMsgs (findHelp w) t tail = []) (file : CStr) :
    parseCmds hp (hd ++ w :: tail) = .ok none ∧ printed hp file (hd ++ w :: tail) = [] := by
  have hs : FrameStart (w :: tail) := by
    refine ⟨by simp, ?_⟩
    intro x hx
    cases hx
    rcases hw with rfl | rfl <;> decide
  have hne : w ≠ c!"help" := by rcases hw with rfl | rfl <;> decide
  have hlen' : ¬ (w :: tail).length > frameStackMax := by
    simp only [List.length_cons, frameStackMax]; omega
  have e1 : argcFrame (w :: tail) = .ok none := by
    unfold argcFrame
    rw [if_neg hlen', List.length_cons, argcFrameLoop.eq_def]
    simp only [if_neg hne, ht]
    rw [show pushHdr frameStackMax {} t = .ok { stack := [hdrCopy t] } from rfl, Out.ok_bind, hdrCopy_eq]
    rw [hr, Out.ok_bind]
  have e2 : argcFrameMsgs (w :: tail) = [] := by
    unfold argcFrameMsgs
    rw [if_neg hlen', List.length_cons, frameMsgs_step hne ht]
    rw [show ({} : Frame).padding = 0 from rfl, show ({} : Frame).hasMask = false from rfl, hr, hm]
    rfl
  obtain ⟨h1, h2⟩ := parseMsgs_rejected hl hs e1
  refine ⟨h1, ?_⟩
  unfold printed
  rw [h2, e2]
  rfl

/-- **C81, these lines are rejected without a word**: a command with such a payload or padding (here as the first header of its frame). -/
theorem C81_silent_lines {hp : Bool} {hd : List CStr} (hl : LeadWords hp hd) (file : CStr) {tail : List CStr} (hlen : tail.length < 100) :
    (MuteSegment tail → parseCmds hp (hd ++ c!"data" :: tail) = .ok none ∧ printed hp file (hd ++ c!"data" :: tail) = []) ∧
    (Mute (c!"padding" :: tail) → parseCmds hp (hd ++ c!"padding" :: tail) = .ok none ∧ printed hp file (hd ++ c!"padding" :: tail) = []) := by
  constructor
  · intro h
    obtain ⟨h1, h2, h3⟩ := mute_segment h
    have hv : parseVarBytes tail = .ok none := by
      unfold parseVarBytes
      cases tail with
      | nil => exact absurd rfl h3
      | cons x xs => rw [List.length_cons, parseVarBytesLoop, if_neg (by simp), h1, Out.ok_bind]
    refine silent_line hl (t := HDR_PAYLOAD) (by decide +kernel) (Or.inl rfl) hlen ?_ ?_ file
    · show (do match ← payloadParser HDR_PAYLOAD tail with
          | none => .ok none
          | some (n, h) => .ok (some (n, h, (0 : Int), false))) = _
      unfold payloadParser
      rw [hv]
      rfl
    · show varBytesMsgs tail.length tail = []
      cases tail with
      | nil => exact absurd rfl h3
      | cons x xs => rw [List.length_cons, varBytesMsgs, if_neg (by simp), h1, h2]; rfl
  · intro h
    generalize hq : c!"padding" :: tail = q at h
    cases h with
    | data h => exact absurd (List.cons.inj hq).1 (by decide)
    | missing =>
      obtain ⟨_, rfl⟩ := List.cons.inj hq
      exact silent_line hl (t := HDR_PADDING) (by decide +kernel) (Or.inr rfl) hlen rfl rfl file
    | padding hw =>
      rename_i w ws
      obtain ⟨_, rfl⟩ := List.cons.inj hq
      refine silent_line hl (t := HDR_PADDING) (by decide +kernel) (Or.inr rfl) hlen ?_ ?_ file
      · show (do match ← paddingParser (w :: ws) with
            | none => .ok none
            | some p => .ok (some (1, HDR_PADDING, p, false))) = _
        rcases uint32_cases w with ⟨e, _⟩ | ⟨_, hv⟩
        · unfold paddingParser
          simp only
          rw [e]
          rfl
        · exact absurd hv hw.1
      · show parseBytesMsgs w 4 = []
        exact (msgs4_nil hw.1).2 hw.2

/-- Non-vacuity: `data repeat 3` and `data pattern foo 4` are rejected without a word, `data hex 1` is not. -/
example : MuteSegment [c!"repeat", c!"3"] ∧ MuteSegment [c!"pattern", c!"foo", c!"4"] ∧
    parseCmds false [c!"hex", c!"eth", c!"data", c!"hex", c!"1"] = .ok none ∧ printed false [] [c!"hex", c!"eth", c!"data", c!"hex", c!"1"] ≠ [] := by
  refine ⟨.missing2 (Or.inl rfl) (by decide), .pattern ⟨[0, 0, 0, 4], (parseBytes_iff _ _ _).1 (by decide +kernel)⟩ (by decide) (by decide) (by decide),
    by decide +kernel, by decide +kernel⟩

end Ef.Props
