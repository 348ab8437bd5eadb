import Verif.Lemmas.Defined
import Verif.Props.NoCrash
import Verif.Spec.Defined

/-!
# C16, C119: the bytes of every frame, and no access outside of a buffer
-/

namespace Ef.Props

open Ef Ef.Spec

/-- **C16, for all frames**: after the default computation there are bytes exactly if no field with a value reaches behind
the end of the frame, and otherwise an assertion fails. Every bit is that of the last field written at this place, and 0
where no field is written. -/
theorem C16_exactly (argv : List CStr) (n : Nat) (f : Frame) (hs' : List Hdr) (hs : ShortWords argv)
    (h1 : argcFrame argv = .ok (some (n, f))) (h2 : fillStack [] f.stack = .ok hs') :
    (WrittenInside hs' → ∃ b, frameToBuf f = .ok ({ f with stack := hs' }, b) ∧ b.length = max 60 (totalSize hs') ∧
      ∀ i, bit b i = writtenBit false (writtenFields 0 hs') i) ∧
    (¬ WrittenInside hs' → frameToBuf f = .abort) := by
  have hl := argcFrame_len h1
  have hr := fillStack_roomy (below := []) (by simp) (fun x hx => argcFrame_inst hs h1 x hx) (by omega) h2
  have hb : (balloc (frameSize hs')).length = max 60 (totalSize hs') := by
    rw [totalSize_eq]
    simp only [balloc, List.length_replicate, frameSize]
    split <;> omega
  obtain ⟨k1, k2⟩ := copyHdrs_written hs' 0 (balloc (frameSize hs')) hr (by rw [hb, totalSize_eq]; omega)
  rw [hb] at k1 k2
  unfold frameToBuf
  rw [h2, Out.ok_bind]
  constructor
  · intro h
    obtain ⟨b, e1, e2, e3⟩ := k1 h
    refine ⟨b, by rw [e1]; rfl, e2, fun i => ?_⟩
    rw [e3 i]
    have : bit (balloc (frameSize hs')) i = false := bit_zeros _ _
    rw [this]
  · intro h
    rw [k2 h]
    rfl

/-- **C119** Whatever frame the words describe, its serialisation ends with bytes, or with a failed assertion, or (only if
there is an `mld` header) with `exit(-1)`; the same holds for the mask. There is no access outside of a buffer, no null
pointer and no uninitialised value. -/
theorem C119_frames (argv : List CStr) (n : Nat) (f : Frame) (hs : ShortWords argv)
    (h1 : argcFrame argv = .ok (some (n, f))) :
    ((∃ f' b, frameToBuf f = .ok (f', b) ∧ ((∃ m, frameMaskToBuf f' = .ok m) ∨ frameMaskToBuf f' = .abort)) ∨
      frameToBuf f = .abort ∨ (frameToBuf f = .exit (-1) ∧ ∃ x ∈ f.stack, x.name = c!"mld")) := by
  have hl := argcFrame_len h1
  rcases fillStack_ends (below := []) (by simp) (fun x hx => argcFrame_inst hs h1 x hx) (by omega) with ⟨hs', h2⟩ | h2 | ⟨h2, h3⟩
  · obtain ⟨k1, k2⟩ := C16_exactly argv n f hs' hs h1 h2
    by_cases hw : WrittenInside hs'
    · obtain ⟨b, e, _⟩ := k1 hw
      refine .inl ⟨_, b, e, ?_⟩
      obtain ⟨m1, m2⟩ := C20_parsed argv n f _ b hs h1 e
      by_cases hc : ComparedInside hs'
      · obtain ⟨m, e, _⟩ := m1 hc
        exact .inl ⟨m, e⟩
      · exact .inr (m2 hc)
    · exact .inr (.inl (k2 hw))
  · right; left
    unfold frameToBuf
    rw [h2]; rfl
  · right; right
    refine ⟨?_, h3⟩
    unfold frameToBuf
    rw [h2, Out.exit_bind]

theorem _root_.Ef.Spec.Defined.bind {α β : Type} {x : Out α} {g : α → Out β} (h : Defined x) (hg : ∀ a, x = .ok a → Defined (g a)) :
    Defined (x >>= g) := by
  cases x with
  | ok a => exact hg a rfl
  | ub u => exact absurd rfl (h u)
  | abort => intro u h; cases h
  | exit c => intro u h; cases h

theorem _root_.Ef.Spec.Defined.ok {α : Type} (a : α) : Defined (.ok a) := fun u h => by cases h

theorem _root_.Ef.Spec.Plain.suffix {a b : List CStr} (h : Plain b) (hs : a <:+ b) : Plain a where
  words := h.words.suffix hs
  tx := fun x hx => h.tx x (hx.trans hs)
  rep := fun x r hr hx => h.rep x r hr (hx.trans hs)

theorem argcCmdFrame_defined {c : Cmd} {i : Nat} {argv : List CStr} (hs : Plain argv) : Defined (argcCmdFrame c i argv) := by
  unfold argcCmdFrame
  obtain ⟨r, hr⟩ := argcFrame_ends hs.words
  rw [hr, Out.ok_bind]
  cases r with
  | none => exact Defined.ok _
  | some p =>
    obtain ⟨n, f⟩ := p
    simp only
    split
    · split <;> exact Defined.ok _
    · rcases C119_frames argv n f hs.words.short hr with ⟨f', b, h1, h2⟩ | h1 | ⟨h1, _⟩
      · rw [h1, Out.ok_bind]
        simp only
        split
        · rcases h2 with ⟨m, h2⟩ | h2
          · rw [h2]; exact Defined.ok _
          · rw [h2]; intro u h; cases h
        · exact Defined.ok _
      · rw [h1]; intro u h; cases h
      · rw [h1]; intro u h; cases h

theorem argcCmdRest_defined {c : Cmd} {i : Nat} {argv : List CStr} (hs : Plain argv) : Defined (argcCmdRest c i argv) := by
  unfold argcCmdRest
  split
  · split
    · exact Defined.ok _
    · exact argcCmdFrame_defined hs
  · exact argcCmdFrame_defined hs

theorem argcCmd_defined (p : Bool) {argv : List CStr} (hs : Plain argv) : Defined (argcCmd p argv) := by
  unfold argcCmd
  split
  · exact Defined.ok _
  · rename_i w rest
    have s1 : Plain rest := hs.suffix (List.suffix_cons _ _)
    split
    · exact Defined.ok _
    · exact Defined.ok _
    · rename_i t hw
      split
      · exact Defined.ok _
      · rename_i a rest'
        have s2 : Plain rest' := s1.suffix (List.suffix_cons _ _)
        split
        · exact argcCmdRest_defined s2
        · exact argcCmdRest_defined s1
        · exact argcCmdRest_defined s2
        · exact argcCmdRest_defined s2
        · have := cmdWord_tx hw
          subst this
          split
          · exact absurd List.suffix_rfl (hs.tx a)
          · rename_i r rest''
            have s3 : Plain rest'' := s2.suffix (List.suffix_cons _ _)
            split
            · rename_i hr
              split
              · exact absurd List.suffix_rfl (hs.rep a r hr)
              · exact argcCmdRest_defined (s3.suffix (List.suffix_cons _ _))
            · exact argcCmdRest_defined s2

/-- **C119** for whole command lines: if no literal is too long, CoAP payload is well-formed and something follows `tx IF`
and `tx IF rep`, then whatever the frames look like (last TLV of a supervision header, query and report at once, masks
of headers that shrink) reading the commands and building the frames has no undefined behaviour; at worst an assertion
ends the program. -/
theorem C119_lines (hasPcap : Bool) (argv : List CStr) (hs : Plain argv) : ∀ u, parseCmds hasPcap argv ≠ .ub u := by
  have loop : ∀ (k : Nat) (argv : List CStr), Plain argv → Defined (argcCmdsLoop hasPcap k argv) := by
    intro k
    induction k with
    | zero => intro argv _; exact Defined.ok _
    | succ k ih =>
      intro argv hs
      unfold argcCmdsLoop
      split
      · exact Defined.ok _
      · refine (argcCmd_defined hasPcap hs).bind fun r _ => ?_
        cases r with
        | err => exact Defined.ok _
        | stop => exact Defined.ok _
        | cmd c used =>
          refine (ih _ (hs.suffix (List.drop_suffix _ _))).bind fun r _ => ?_
          cases r <;> exact Defined.ok _
  unfold parseCmds
  refine (loop 100 argv hs).bind fun r _ => ?_
  cases r with
  | none => exact Defined.ok _
  | some p =>
    simp only
    split <;> exact Defined.ok _

/-- Non-vacuity of `C16_exactly`: the last TLV of `eth sv tlv0_type 255 ipv4` reaches into the IPv4 header: its
8 bits stand at byte 34, which is byte 6 of the IPv4 header. -/
example : (match argcFrame svWords with
    | .ok (some (_, f)) => match fillStack [] f.stack with
      | .ok hs => decide (WrittenInside hs ∧ (∃ p ∈ writtenFields 0 hs, p.1 = 8 * 34 ∧ p.2.1 = 8) ∧
          writtenBit false (writtenFields 0 hs) (8 * 34) = true)
      | _ => false
    | _ => false) = true := by decide +kernel

/-- Behind the end of the frame the same TLV makes an assertion fail, and the words are plain. -/
def svEnd : List CStr := [c!"hex", c!"data", c!"pattern", c!"zero", c!"46", c!"sv", c!"tlv0_type", c!"1"]

example : Plain svEnd ∧ crash (parseCmds false svEnd) = some none := by
  refine ⟨⟨⟨by unfold ShortWords; decide +kernel, fun n v rest hs _ _ _ _ _ _ => ?_, fun rest hs => ?_⟩, fun a hs => ?_,
    fun a r hr hs => ?_⟩, by decide +kernel⟩
  · have hv : v ∈ svEnd := hs.subset (by simp)
    have k : ∀ v ∈ svEnd, v.take 2 ≠ c!"0x" ∧ v.take 2 ≠ c!"0b" := by decide +kernel
    rintro ⟨_, ⟨d, _, _, e, _⟩ | ⟨d, _, _, e, _⟩⟩
    · exact (k v hv).1 (by rw [e]; rfl)
    · exact (k v hv).2 (by rw [e]; rfl)
  · exact absurd (hs.subset (List.mem_cons_self ..)) (by decide +kernel)
  · have := List.suffix_iff_eq_drop.mp hs
    revert this
    simp [svEnd]
  · have := List.suffix_iff_eq_drop.mp hs
    revert this
    simp [svEnd]

end Ef.Props
