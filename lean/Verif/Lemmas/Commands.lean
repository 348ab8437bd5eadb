import Verif.Spec.Command
import Verif.Props.Words
import Verif.Lemmas.ParseCmds

/-! # Command lines as lists of commands -/

namespace Ef

open Spec Props

/-- The words commands start with. -/
def cmdWords : List CStr := [c!"name", c!"pcap", c!"hex", c!"rx", c!"tx"]

theorem cmdWords_tmpl : ∀ t ∈ hdrTmpls, t.name ∉ cmdWords ∧ (t.parser = .fields → ∀ g ∈ t.fields, g.name ∉ cmdWords) := by
  decide +kernel

theorem tmpl_not_rep : ∀ t ∈ hdrTmpls, t.name ≠ c!"rep" ∧ t.name ≠ c!"repeat" := by decide +kernel

theorem afl_sig {cap fuel : Nat} {f g : Frame} {i n : Nat} {argv : List CStr}
    (hf : ∀ x ∈ f.stack, ∃ t ∈ hdrTmpls, sig x = sig t)
    (h : argcFrameLoop cap fuel f i argv = .ok (some (n, g))) : ∀ x ∈ g.stack, ∃ t ∈ hdrTmpls, sig x = sig t := by
  induction fuel generalizing f i argv with
  | zero =>
    simp only [argcFrameLoop, Out.ok.injEq, Option.some.injEq, Prod.mk.injEq] at h
    obtain ⟨_, rfl⟩ := h
    exact hf
  | succ fuel ih =>
    cases argv with
    | nil =>
      rw [afl_nil] at h
      simp only [Out.ok.injEq, Option.some.injEq, Prod.mk.injEq] at h
      obtain ⟨_, rfl⟩ := h
      exact hf
    | cons w rest =>
      rw [afl_step] at h
      split at h
      · simp at h
      · split at h
        · simp only [Out.ok.injEq, Option.some.injEq, Prod.mk.injEq] at h
          obtain ⟨_, rfl⟩ := h
          exact hf
        · rename_i t ht
          rw [Out.bind_eq_ok] at h; obtain ⟨_, _, h⟩ := h
          rw [Out.bind_eq_ok] at h; obtain ⟨o, h1, h⟩ := h
          cases o with
          | none => simp at h
          | some p =>
            obtain ⟨k, hh, pad, m⟩ := p
            refine ih (f := ⟨f.stack ++ [hh], pad, m⟩) ?_ h
            intro x hx
            simp only [List.mem_append, List.mem_singleton] at hx
            rcases hx with hx | rfl
            · exact hf x hx
            · exact ⟨t, List.mem_of_find?_eq_some ht, (runHdrParser_mono h1).2⟩

theorem argcFrame_sig {argv : List CStr} {n : Nat} {f : Frame} (h : argcFrame argv = .ok (some (n, f))) :
    ∀ x ∈ f.stack, ∃ t ∈ hdrTmpls, sig x = sig t := by
  unfold argcFrame at h
  split at h
  · simp at h
  · exact afl_sig (by simp) h

/-- The words of a frame, followed by a word that starts a command. -/
theorem argcFrame_then {fw r : List CStr} {f : Frame} (h : argcFrame fw = .ok (some (fw.length, f)))
    (hr : Starts (fun w => w ∈ cmdWords ∧ ((∃ x, f.stack.getLast? = some x ∧ TakesSegments x) → w ≠ c!"hex")) r)
    (hl : fw.length + r.length ≤ 100) : argcFrame (fw ++ r) = .ok (some (fw.length, f)) := by
  have hsig := argcFrame_sig h
  unfold argcFrame at h ⊢
  split at h
  · simp at h
  · rw [if_neg (by rw [List.length_append]; unfold frameStackMax; omega)]
    refine afl_swap (a := fw) (r := []) (fuel := fw.length) (by rw [List.append_nil]; exact h) (by omega) (by simp)
      (by rw [List.length_append]; exact Nat.le_refl _) ?_
    intro w tl e
    obtain ⟨hw, hx⟩ := hr w tl e
    have hhelp : w ≠ c!"help" := by rintro rfl; revert hw; decide
    have hign : isIgn w = false := not_isIgn (by rintro (rfl | rfl) <;> (revert hw; decide))
    have hseg : (∃ x, f.stack.getLast? = some x ∧ TakesSegments x) → w ∉ segWords := by
      intro hp
      have := hx hp
      simp only [cmdWords, List.mem_cons, List.not_mem_nil, or_false] at hw
      rcases hw with rfl | rfl | rfl | rfl | rfl
      · decide
      · decide
      · exact absurd rfl this
      · decide
      · decide
    refine ⟨hhelp, findTmpl_none (fun t ht e => (cmdWords_tmpl t ht).1 (e ▸ hw)), ?_⟩
    intro x hl
    obtain ⟨t, ht, hs⟩ := hsig x (List.mem_of_mem_getLast? hl)
    refine ⟨fun hp => ⟨hhelp, hign, ?_, fun hs => hseg ⟨x, hl, takes_of_sig hs⟩⟩, fun hp => hseg ⟨x, hl, Or.inl hp⟩⟩
    refine findField_sig hs (findField_none (fun g hg e => ?_))
    exact (cmdWords_tmpl t ht).2 (by rw [← sig_parser hs]; exact hp) g hg (e ▸ hw)

/-- The first word of a frame names a header. -/
theorem frame_first {ws : List CStr} {f : Frame} (h : argcFrame ws = .ok (some (ws.length, f))) (hne : ws ≠ []) :
    ∃ t ∈ hdrTmpls, ws.head? = some t.name := by
  cases ws with
  | nil => exact absurd rfl hne
  | cons w tl =>
    unfold argcFrame at h
    split at h
    · simp at h
    · rw [List.length_cons, afl_step] at h
      split at h
      · simp at h
      · split at h
        · simp at h
        · rename_i t ht
          refine ⟨t, List.mem_of_find?_eq_some ht, ?_⟩
          have := List.find?_some ht
          simp only [beq_iff_eq] at this
          simp [this]

theorem argcCmdFrame_words {c : Cmd} (hc : c.mask = none) {i : Nat} {ws r : List CStr} {f b m} (hw : FrameWords ws f b m)
    (hr : ∀ f0, argcFrame ws = .ok (some (ws.length, f0)) →
      Starts (fun w => w ∈ cmdWords ∧ ((∃ x, f0.stack.getLast? = some x ∧ TakesSegments x) → w ≠ c!"hex")) r)
    (hl : ws.length + r.length ≤ 100) :
    argcCmdFrame c i (ws ++ r) = .ok (.cmd { c with frame := some f, buf := some b, mask := m } (i + ws.length)) := by
  obtain ⟨hne, f0, h1, h2, h3⟩ := hw
  unfold argcCmdFrame
  rw [argcFrame_then h1 (hr f0 h1) hl, Out.ok_bind]
  simp only
  rw [if_neg (by simpa using hne), h2, Out.ok_bind]
  simp only
  rcases h3 with ⟨h3, rfl⟩ | ⟨h3, x, rfl, h4⟩
  · rw [if_neg (by simp [h3])]
    simp only [← hc]
  · rw [if_pos h3, h4, Out.ok_bind]

theorem argcCmdRest_words {c : Cmd} (hc : c.mask = none) {i : Nat} {ws r : List CStr} {f b m} (hw : FrameWords ws f b m)
    (hr : ∀ f0, argcFrame ws = .ok (some (ws.length, f0)) →
      Starts (fun w => w ∈ cmdWords ∧ ((∃ x, f0.stack.getLast? = some x ∧ TakesSegments x) → w ≠ c!"hex")) r)
    (hl : ws.length + r.length ≤ 100) :
    argcCmdRest c i (ws ++ r) = .ok (.cmd { c with frame := some f, buf := some b, mask := m } (i + ws.length)) := by
  rw [← argcCmdFrame_words hc hw hr hl]
  obtain ⟨hne, f0, h1, _, _⟩ := hw
  obtain ⟨t, ht, hh⟩ := frame_first h1 hne
  unfold argcCmdRest
  split
  · rename_i w n tl e
    rw [if_neg]
    rintro ⟨rfl, _⟩
    cases ws with
    | nil => simp at hh
    | cons x xs =>
      simp only [List.head?_cons, Option.some.injEq] at hh
      simp only [List.cons_append, List.cons.injEq] at e
      refine (cmdWords_tmpl t ht).1 ?_
      rw [← hh, e.1]
      decide
  · rfl

theorem argcCmd_head {hp hd c} (h : Head hp hd c) {r : List CStr} (hne : r ≠ [])
    (hrep : ∀ w, r.head? = some w → w ≠ c!"rep" ∧ w ≠ c!"repeat") :
    argcCmd hp (hd ++ r) = argcCmdRest c hd.length r := by
  cases r with
  | nil => exact absurd rfl hne
  | cons w tl =>
    cases h with
    | hex => cases hp <;> rfl
    | pcap file e => subst e; rfl
    | rx ifc => cases hp <;> rfl
    | tx ifc =>
      obtain ⟨h1, h2⟩ := hrep w rfl
      cases hp <;> exact if_neg (by simp [h1, h2])
    | txRep ifc x k hx =>
      have : argcCmd hp ([c!"tx", ifc, x, k] ++ w :: tl) = (if x = c!"rep" ∨ x = c!"repeat" then
                argcCmdRest { type := .tx, arg0 := some ifc, rep := (atoi k % 2 ^ 32).toNat } 4 (w :: tl)
            else argcCmdRest { type := .tx, arg0 := some ifc, rep := 1 } 2 (x :: k :: w :: tl)) := by cases hp <;> rfl
      rw [this, if_pos hx]
      rfl

theorem Spec.Head.base {hp hd c} (h : Head hp hd c) : c.mask = none ∧ c.type ≠ .name ∧ hd ≠ [] ∧ ∀ w, hd.head? = some w → w ∈ cmdWords := by
  cases h <;> refine ⟨rfl, by simp, by simp, ?_⟩ <;> (simp only [List.head?_cons, Option.some.injEq]; rintro _ rfl; decide)

/-- The words of a command are understood as this command. -/
theorem argcCmd_command {hp ws c} (h : Command hp ws c) {r : List CStr}
    (hr : Starts (fun w => w ∈ cmdWords ∧ MayPrecede hp ws w) r) (hl : ws.length + r.length ≤ 101) :
    argcCmd hp (ws ++ r) = .ok (.cmd c ws.length) := by
  cases h with
  | define n hw =>
    rename_i fw f b m
    have e : argcCmd hp (c!"name" :: n :: fw ++ r) = argcCmdRest { type := .name, name := some n } 2 (fw ++ r) := by
      cases hp <;> rfl
    rw [e, argcCmdRest_words rfl hw ?_ (by simp only [List.length_cons] at hl; omega)]
    · simp only [List.length_cons]
      congr 2; omega
    · intro f0 h0 w tl e
      obtain ⟨h1, h2⟩ := hr w tl e
      refine ⟨h1, fun ⟨x, hx, ht⟩ => h2.1 ⟨[c!"name", n], fw, f0, x, rfl, Or.inr ⟨n, rfl⟩, h0, hx, ht⟩⟩
  | frame hh hw =>
    rename_i hd c fw f b m
    obtain ⟨hm, hn, hne, _⟩ := hh.base
    have hw' := hw
    obtain ⟨hne2, f0, h1, _, _⟩ := hw'
    obtain ⟨t, ht, hhd⟩ := frame_first h1 hne2
    rw [List.append_assoc, argcCmd_head hh, argcCmdRest_words hm hw, List.length_append]
    · intro f0 h0 w tl e
      obtain ⟨h1, h2⟩ := hr w tl e
      refine ⟨h1, fun ⟨x, hx, ht⟩ => h2.1 ⟨hd, fw, f0, x, rfl, Or.inl ⟨_, hh⟩, h0, hx, ht⟩⟩
    · have : 0 < hd.length := List.length_pos_iff.2 hne
      rw [List.length_append] at hl
      omega
    · simp [hne2]
    · intro w hw
      cases fw with
      | nil => exact absurd rfl hne2
      | cons x xs =>
        simp only [List.cons_append, List.head?_cons, Option.some.injEq] at hw hhd
        rw [← hw, hhd]
        exact tmpl_not_rep t ht
  | ref n hh =>
    rename_i hd c
    obtain ⟨hm, hn, hne, _⟩ := hh.base
    rw [List.append_assoc, argcCmd_head hh (by simp) (by simp)]
    have : argcCmdRest c hd.length ([c!"name", n] ++ r) = (if c!"name" = c!"name" ∧ c.type ≠ .name then
        .ok (.cmd { c with name := some n } (hd.length + 2)) else argcCmdFrame c hd.length ([c!"name", n] ++ r)) := rfl
    rw [this, if_pos ⟨rfl, hn⟩, List.length_append]
    rfl
  | listen ifc =>
    have e : argcCmd hp ([c!"rx", ifc] ++ r) = argcCmdRest { type := .rx, arg0 := some ifc } 2 r := by
      cases hp <;> rfl
    rw [e]
    have e2 : argcCmdRest { type := .rx, arg0 := some ifc } 2 r = argcCmdFrame { type := .rx, arg0 := some ifc } 2 r := by
      unfold argcCmdRest
      split
      · rename_i w n tl
        rw [if_neg]
        rintro ⟨rfl, _⟩
        exact (hr _ _ rfl).2.2 ⟨ifc, rfl⟩ rfl
      · rfl
    rw [e2]
    unfold argcCmdFrame
    have e3 : argcFrame r = .ok (some (0, {})) := by
      have := argcFrame_then (fw := []) (r := r) (f := {}) (by rfl) (by
        intro w tl e
        refine ⟨(hr w tl e).1, ?_⟩
        rintro ⟨x, hx, _⟩
        simp at hx) (by simp only [List.length_cons, List.length_nil] at hl ⊢; omega)
      simpa using this
    rw [e3]
    rfl

/-! ## What was read as a command is one -/

theorem argcFrame_take {argv : List CStr} {n : Nat} {f : Frame} (h : argcFrame argv = .ok (some (n, f))) :
    argcFrame (argv.take n) = .ok (some ((argv.take n).length, f)) := by
  have h1 := (C46_consumed h).1
  have h2 : n ≤ 100 := by
    unfold argcFrame at h
    split at h
    · simp at h
    · rename_i hl
      unfold frameStackMax at hl
      omega
  have h3 := C46_prefix h [] (by simp) (by simpa using h2)
  rw [List.append_nil] at h3
  rw [h3, List.length_take, Nat.min_eq_left h1]

theorem argcCmdFrame_conv {c c' : Cmd} (hb : c.mask = none) {i n argv} (h : argcCmdFrame c i argv = .ok (.cmd c' n)) :
    (c.type = .rx ∧ c' = c ∧ n = i) ∨ ∃ k f b m, n = i + k ∧ k ≤ argv.length ∧ FrameWords (argv.take k) f b m ∧
      c' = { c with frame := some f, buf := some b, mask := m } := by
  unfold argcCmdFrame at h
  rw [Out.bind_eq_ok] at h
  obtain ⟨o, ho, h⟩ := h
  cases o with
  | none => simp at h
  | some p =>
    obtain ⟨k, f⟩ := p
    simp only at h
    split at h
    · split at h
      · rename_i ht
        simp only [Out.ok.injEq, CmdRes.cmd.injEq] at h
        exact Or.inl ⟨ht, h.1.symm, h.2.symm⟩
      · simp at h
    · rename_i hk
      rw [Out.bind_eq_ok] at h
      obtain ⟨⟨f', b⟩, hfb, h⟩ := h
      simp only at h
      have hle := (C46_consumed ho).1
      have hne : argv.take k ≠ [] := by
        intro e
        have := congrArg List.length e
        rw [List.length_take, List.length_nil] at this
        omega
      split at h
      · rename_i hm
        rw [Out.bind_eq_ok] at h
        obtain ⟨m, hmb, h⟩ := h
        simp only [Out.ok.injEq, CmdRes.cmd.injEq] at h
        exact Or.inr ⟨k, f', b, some m, h.2.symm, hle, ⟨hne, f, argcFrame_take ho, hfb, Or.inr ⟨hm, m, rfl, hmb⟩⟩, h.1.symm⟩
      · rename_i hm
        simp only [Out.ok.injEq, CmdRes.cmd.injEq] at h
        refine Or.inr ⟨k, f', b, none, h.2.symm, hle, ⟨hne, f, argcFrame_take ho, hfb, Or.inl ⟨by simpa using hm, rfl⟩⟩, ?_⟩
        rw [← h.1, ← hb]

theorem argcCmdRest_conv {hp hd c} (hh : Head hp hd c) {c' n argv}
    (h : argcCmdRest c hd.length argv = .ok (.cmd c' n)) :
    n ≤ (hd ++ argv).length ∧ Command hp ((hd ++ argv).take n) c' := by
  have key : argcCmdFrame c hd.length argv = .ok (.cmd c' n) →
      n ≤ (hd ++ argv).length ∧ Command hp ((hd ++ argv).take n) c' := by
    intro h
    rcases argcCmdFrame_conv hh.base.1 h with ⟨ht, rfl, rfl⟩ | ⟨k, f, b, m, rfl, hk, hw, rfl⟩
    · refine ⟨by simp, ?_⟩
      rw [List.take_left]
      cases hh with
      | rx ifc => exact .listen ifc
      | _ => simp at ht
    · refine ⟨by rw [List.length_append]; omega, ?_⟩
      rw [List.take_length_add_append]
      exact .frame hh hw
  unfold argcCmdRest at h
  split at h
  · rename_i w nm tl
    split at h
    · rename_i hw
      simp only [Out.ok.injEq, CmdRes.cmd.injEq] at h
      obtain ⟨rfl, rfl⟩ := h
      obtain ⟨rfl, _⟩ := hw
      refine ⟨by simp, ?_⟩
      rw [List.take_length_add_append]
      exact .ref nm hh
    · exact key h
  · exact key h

theorem argcCmd_conv {hp argv c n} (h : argcCmd hp argv = .ok (.cmd c n)) :
    n ≤ argv.length ∧ Command hp (argv.take n) c := by
  unfold argcCmd at h
  split at h
  · simp at h
  · rename_i w rest
    split at h
    · simp at h
    · simp at h
    · rename_i t ht
      have hw : (t = .name ∧ w = c!"name") ∨ (t = .pcap ∧ w = c!"pcap" ∧ hp = true) ∨ (t = .hex ∧ w = c!"hex") ∨
          (t = .rx ∧ w = c!"rx") ∨ (t = .tx ∧ w = c!"tx") := by
        unfold cmdWord at ht
        split at ht
        · rename_i e; simp only [CmdWord.cmd.injEq] at ht; exact Or.inl ⟨ht.symm, e⟩
        · split at ht
          · rename_i e; simp only [CmdWord.cmd.injEq] at ht; exact Or.inr (Or.inl ⟨ht.symm, e.2, e.1⟩)
          · split at ht
            · rename_i e; simp only [CmdWord.cmd.injEq] at ht; exact Or.inr (Or.inr (Or.inl ⟨ht.symm, e⟩))
            · split at ht
              · rename_i e; simp only [CmdWord.cmd.injEq] at ht; exact Or.inr (Or.inr (Or.inr (Or.inl ⟨ht.symm, e⟩)))
              · split at ht
                · rename_i e; simp only [CmdWord.cmd.injEq] at ht; exact Or.inr (Or.inr (Or.inr (Or.inr ⟨ht.symm, e⟩)))
                · split at ht <;> simp at ht
      split at h
      · simp at h
      · rename_i a rest'
        rcases hw with ⟨rfl, rfl⟩ | ⟨rfl, rfl, rfl⟩ | ⟨rfl, rfl⟩ | ⟨rfl, rfl⟩ | ⟨rfl, rfl⟩
        · simp only at h
          have h2 : argcCmdFrame { type := .name, name := some a } 2 rest' = .ok (.cmd c n) := by
            rw [← h]
            unfold argcCmdRest
            split
            · rw [if_neg]
              simp
            · rfl
          rcases argcCmdFrame_conv rfl h2 with ⟨ht, _⟩ | ⟨k, f, b, m, rfl, hk, hw, rfl⟩
          · simp at ht
          · refine ⟨by simp only [List.length_cons]; omega, ?_⟩
            rw [Nat.add_comm 2 k]
            exact .define a hw
        · exact argcCmdRest_conv (.pcap a rfl) h
        · exact argcCmdRest_conv (hd := [c!"hex"]) .hex h
        · exact argcCmdRest_conv (.rx a) h
        · simp only at h
          split at h
          · simp at h
          · rename_i r rest''
            split at h
            · rename_i hr
              split at h
              · simp at h
              · rename_i k rest3
                exact argcCmdRest_conv (.txRep a r k hr) h
            · exact argcCmdRest_conv (.tx a) h

theorem argcCmdsLoop_conv {hp slots argv cs rest} (h : argcCmdsLoop hp slots argv = .ok (some (cs, rest))) :
    ∃ l : List (List CStr × Cmd), argv = allWords l ++ rest ∧ cs = l.map (·.2) ∧ l.length ≤ slots ∧
      ∀ p ∈ l, Command hp p.1 p.2 := by
  induction slots generalizing argv cs rest with
  | zero =>
    simp only [argcCmdsLoop, Out.ok.injEq, Option.some.injEq, Prod.mk.injEq] at h
    obtain ⟨rfl, rfl⟩ := h
    exact ⟨[], rfl, rfl, by simp, by simp⟩
  | succ slots ih =>
    rw [argcCmdsLoop] at h
    split at h
    · simp only [Out.ok.injEq, Option.some.injEq, Prod.mk.injEq] at h
      obtain ⟨rfl, rfl⟩ := h
      exact ⟨[], rfl, rfl, by simp, by simp⟩
    · rw [Out.bind_eq_ok] at h
      obtain ⟨r, hr, h⟩ := h
      cases r with
      | err => simp at h
      | stop =>
        simp only [Out.ok.injEq, Option.some.injEq, Prod.mk.injEq] at h
        obtain ⟨rfl, rfl⟩ := h
        exact ⟨[], rfl, rfl, by simp, by simp⟩
      | cmd c used =>
        simp only [Out.bind_eq_ok] at h
        obtain ⟨o, ho, h⟩ := h
        cases o with
        | none => simp at h
        | some p =>
          obtain ⟨cs', rest'⟩ := p
          simp only [Out.ok.injEq, Option.some.injEq, Prod.mk.injEq] at h
          obtain ⟨rfl, rfl⟩ := h
          obtain ⟨l, h1, h2, h3, h4⟩ := ih ho
          refine ⟨(argv.take used, c) :: l, ?_, by rw [h2]; rfl, by simp only [List.length_cons]; omega, ?_⟩
          · have : allWords ((argv.take used, c) :: l) = argv.take used ++ allWords l := rfl
            rw [this, List.append_assoc, ← h1, List.take_append_drop]
          · intro p hp
            simp only [List.mem_cons] at hp
            rcases hp with rfl | hp
            · exact (argcCmd_conv hr).2
            · exact h4 p hp

theorem Spec.Command.first {hp ws c} (h : Command hp ws c) : 2 ≤ ws.length ∧ ∀ w, ws.head? = some w → w ∈ cmdWords := by
  cases h with
  | define n hw =>
    refine ⟨by simp, ?_⟩
    simp only [List.head?_cons, Option.some.injEq]; rintro _ rfl; decide
  | frame hh hw =>
    rename_i hd c fw f b m
    obtain ⟨hne2, _⟩ := hw
    obtain ⟨_, _, hne, hw⟩ := hh.base
    have h1 : 0 < hd.length := List.length_pos_iff.2 hne
    have h2 : 0 < fw.length := List.length_pos_iff.2 hne2
    refine ⟨by rw [List.length_append]; omega, ?_⟩
    intro w e
    cases hd with
    | nil => exact absurd rfl hne
    | cons x xs => exact hw w (by simpa using e)
  | ref n hh =>
    rename_i hd c
    obtain ⟨_, _, hne, hw⟩ := hh.base
    have h1 : 0 < hd.length := List.length_pos_iff.2 hne
    refine ⟨by rw [List.length_append, List.length_cons]; omega, ?_⟩
    intro w e
    cases hd with
    | nil => exact absurd rfl hne
    | cons x xs => exact hw w (by simpa using e)
  | listen ifc =>
    refine ⟨by simp, ?_⟩
    simp only [List.head?_cons, Option.some.injEq]; rintro _ rfl; decide

theorem argcCmdsLoop_split {hp slots} {l : List (List CStr × Cmd)} (hc : ∀ p ∈ l, Command hp p.1 p.2) (hs : Separated hp l)
    (hn : l.length ≤ slots) (hl : (allWords l).length ≤ 101) :
    argcCmdsLoop hp slots (allWords l) = .ok (some (l.map (·.2), [])) := by
  induction slots generalizing l with
  | zero =>
    have : l = [] := List.eq_nil_of_length_eq_zero (by omega)
    subst this; rfl
  | succ slots ih =>
    cases l with
    | nil => rfl
    | cons p l =>
      have e : allWords (p :: l) = p.1 ++ allWords l := rfl
      have hp1 := hc p (by simp)
      have hf := hp1.first
      rw [e] at hl ⊢
      have hcmd : argcCmd hp (p.1 ++ allWords l) = .ok (.cmd p.2 p.1.length) := by
        refine argcCmd_command hp1 ?_ (by rw [List.length_append] at hl; omega)
        intro w tl ew
        cases l with
        | nil => simp [allWords] at ew
        | cons q l =>
          have hq := (hc q (by simp)).first
          have hw : q.1.head? = some w := by
            have e2 : allWords (q :: l) = q.1 ++ allWords l := rfl
            rw [e2] at ew
            cases hq1 : q.1 with
            | nil => rw [hq1] at hq; simp at hq
            | cons x xs => rw [hq1] at ew; simp only [List.cons_append, List.cons.injEq] at ew; simp [ew.1]
          exact ⟨hq.2 w hw, hs.1 w hw⟩
      rw [argcCmdsLoop, if_neg, hcmd, Out.ok_bind]
      · simp only [List.drop_left]
        rw [ih (fun q hq => hc q (by simp [hq])) (by cases l with | nil => trivial | cons q l => exact hs.2)
          (by simp only [List.length_cons] at hn; omega) (by rw [List.length_append] at hl; omega)]
        rfl
      · intro e3
        have := congrArg List.length e3
        rw [List.length_append, List.length_nil] at this
        omega

end Ef
