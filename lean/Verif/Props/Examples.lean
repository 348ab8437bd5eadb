import Verif.Props.Messages

/-!
# Property C84: the examples in the help
-/

namespace Ef.Props

open Ef Spec

/-- **C84, full statement**: the examples of the top level help are accepted without any message; and if the list of headers gives an
example for a header, the example is an accepted frame starting with that header. -/
def C84_statement : Prop :=
  (∀ (hp : Bool) (file : CStr), ∀ ws ∈ readExamples usageText, (∃ cs, parseCmds hp ws = .ok (some cs)) ∧ printed hp file ws = []) ∧
  ∀ (hp : Bool) (file : CStr) (hd : List CStr), LeadWords hp hd → ∀ l ∈ linesOf (printed hp file (hd ++ [c!"help"])), ∀ h, readHeader l = some h →
    (readEg l).head? = some h → ∃ f, argcFrame (readEg l) = .ok (some ((readEg l).length, f)) ∧ HeaderAt f 0 h

theorem list_text {hp : Bool} {hd : List CStr} (h : LeadWords hp hd) (file : CStr) :
    printed hp file (hd ++ [c!"help"]) = hdrListText := by
  have hs : FrameStart [c!"help"] := by
    refine ⟨by simp, ?_⟩
    intro w hw
    cases hw
    decide
  unfold printed
  rw [(parseMsgs_rejected h hs rfl).2]
  show (argcFrameMsgs [c!"help"]).flatMap _ = _
  rw [show argcFrameMsgs [c!"help"] = [.hdrList] from rfl]
  simp [msgText]

def exampleOk (hp : Bool) (ws : List CStr) : Bool :=
  (match parseCmds hp ws with
    | .ok (some _) => true
    | _ => false) && (parseMsgs hp ws).isEmpty

theorem examples_ok : ∀ hp : Bool, (readExamples usageText).all (exampleOk hp) = true := by decide +kernel

/-- A line of the list of headers whose example, if there is one, is an accepted frame. -/
def egOk (l : CStr) : Bool :=
  match readHeader l with
  | none => true
  | some h =>
    (readEg l).head? != some h ||
      match argcFrame (readEg l) with
      | .ok (some (n, f)) => n == (readEg l).length && (f.stack[0]?).any (fun x => x.name == h)
      | _ => false

theorem eg_ok : (linesOf hdrListText).all (fun l => readHeader l == some c!"ipv4" || egOk l) = true := by decide +kernel

/-- The line about `ipv4`. -/
def ipv4Line : CStr := c!"  ipv4             Internet Protocol version 4, e.g. ipv4 sa 10.10.10.1 da 10.10.10.2"

/-- **C84, the part that holds**: the examples of the top level help are accepted without any message, and so are the examples for
headers, except the one for `ipv4`. -/
theorem C84_examples_partial :
    (∀ (hp : Bool) (file : CStr), ∀ ws ∈ readExamples usageText, (∃ cs, parseCmds hp ws = .ok (some cs)) ∧ printed hp file ws = []) ∧
    ∀ (hp : Bool) (file : CStr) (hd : List CStr), LeadWords hp hd → ∀ l ∈ linesOf (printed hp file (hd ++ [c!"help"])), ∀ h,
      readHeader l = some h → h ≠ c!"ipv4" → (readEg l).head? = some h →
      ∃ f, argcFrame (readEg l) = .ok (some ((readEg l).length, f)) ∧ HeaderAt f 0 h := by
  refine ⟨fun hp file ws hw => ?_, fun hp file hd hl l hm h hr hne he => ?_⟩
  · have := List.all_eq_true.1 (examples_ok hp) ws hw
    unfold exampleOk at this
    rw [Bool.and_eq_true] at this
    obtain ⟨h1, h2⟩ := this
    refine ⟨?_, ?_⟩
    · split at h1
      · rename_i cs hcs
        exact ⟨cs, hcs⟩
      · simp at h1
    · unfold printed
      rw [List.isEmpty_iff.1 h2]
      rfl
  · rw [list_text hl file] at hm
    have := List.all_eq_true.1 eg_ok l hm
    unfold egOk at this
    rw [hr] at this
    have hne' : (some h == some c!"ipv4") = false := by simpa using hne
    rw [hne', Bool.false_or] at this
    simp only [he, bne_self_eq_false, Bool.false_or] at this
    split at this
    · rename_i n f hf
      simp only [Bool.and_eq_true, beq_iff_eq, Option.any_eq_true] at this
      obtain ⟨rfl, x, hx, hxn⟩ := this
      exact ⟨f, hf, x, hx, hxn⟩
    · simp at this

/-- **C84 is false**: the example for `ipv4` uses fields which do not exist. -/
theorem C84_false : ¬ C84_statement := by
  intro h
  have hl : LeadWords false [c!"hex"] := Or.inl ⟨_, Head.hex⟩
  have hm : ipv4Line ∈ linesOf (printed false [] ([c!"hex"] ++ [c!"help"])) := by
    rw [list_text hl]
    decide +kernel
  obtain ⟨f, hf, _⟩ := h.2 false [] _ hl ipv4Line hm c!"ipv4" (by decide +kernel) (by decide +kernel)
  have key : (match argcFrame (readEg ipv4Line) with
      | .ok (some (n, _)) => n == (readEg ipv4Line).length
      | _ => false) = false := by decide +kernel
  rw [hf] at key
  simp at key

-- There are six examples in the top level help, and examples for `eth`, `arp`, `ipv4` and `ipv6`.
example : (readExamples usageText).length = 6 ∧
    [c!"name", c!"f1", c!"eth", c!"dmac", c!"ff:ff:ff:ff:ff:ff", c!"smac", c!"::1", c!"rx", c!"eth0", c!"name", c!"f1", c!"tx", c!"eth1",
      c!"name", c!"f1"] ∈ readExamples usageText ∧
    (linesOf hdrListText).filterMap (fun l => (readHeader l).bind (fun h => if (readEg l).head? = some h then some h else none)) =
      [c!"eth", c!"arp", c!"ipv4", c!"ipv6"] := by
  refine ⟨?_, ?_, ?_⟩ <;> decide +kernel

end Ef.Props
