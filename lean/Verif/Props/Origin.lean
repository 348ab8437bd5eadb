import Verif.Lemmas.Origin
import Verif.Props.Abbrev

/-!
# C115: nothing happens that was not asked for
-/

namespace Ef.Props

open Ef Ef.Spec

/-- The definition that is used is the first one in the line. -/
theorem find_definition {hp : Bool} {n : CStr} {l : List (List CStr × Cmd)} (hc : ∀ p ∈ l, Command hp p.1 p.2) {d : Cmd}
    (h : (l.map (·.2)).find? (defines n) = some d) :
    ∃ fw f b m, FirstDefinition n fw (l.map (·.1)) ∧ FrameWords fw f b m ∧ d.frame = some f ∧ d.buf = some b ∧ d.mask = m := by
  obtain ⟨hd, pre, post, he, hpre⟩ := List.find?_eq_some_iff_append.mp h
  obtain ⟨lp, lr, rfl, hp1, hr⟩ := List.map_eq_append_iff.mp he
  obtain ⟨p, lq, rfl, hp2, hq⟩ := List.map_eq_cons_iff.mp hr
  have hcp := hc p (by simp)
  simp only [defines, Bool.and_eq_true, beq_iff_eq] at hd
  obtain ⟨⟨h1, h2⟩, h3⟩ := hd
  rw [← hp2] at h1 h3
  obtain ⟨n', v, e1, e2⟩ := command_type_name hcp h1
  rw [h3] at e2
  have hn : n = n' := Option.some.inj e2
  subst hn
  rw [e1] at hcp
  obtain ⟨f, b, m, hw, hd'⟩ := command_define hcp
  rw [hp2] at hd'
  refine ⟨v, f, b, m, ⟨lp.map (·.1), lq.map (·.1), by simp [e1], ?_⟩, hw, by rw [hd'], by rw [hd'], by rw [hd']⟩
  intro x hx v' e
  obtain ⟨q, hq', rfl⟩ := List.mem_map.mp hx
  have hcq := hc q (by simp [hq'])
  rw [e] at hcq
  obtain ⟨f', b', m', _, hd''⟩ := command_define hcq
  have := hpre q.2 (by rw [← hp1]; exact List.mem_map_of_mem hq')
  rw [hd''] at this
  simp [defines] at this

theorem head_tx {hp : Bool} {hd : List CStr} {c : Cmd} (h : Head hp hd c) {a : CStr} (ht : c.type = .tx) (ha : c.arg0 = some a) : TxHead a hd := by
  cases h with
  | hex | pcap _ _ | rx _ => simp at ht
  | tx x => simp only [Option.some.injEq] at ha; subst ha; exact Or.inl rfl
  | txRep x w k hw => simp only [Option.some.injEq] at ha; subst ha; exact Or.inr ⟨w, k, hw, rfl⟩

theorem head_rx {hp : Bool} {hd : List CStr} {c : Cmd} (h : Head hp hd c) {a : CStr} (ht : c.type = .rx) (ha : c.arg0 = some a) :
    hd = [c!"rx", a] := by
  cases h with
  | hex | pcap _ _ | tx _ | txRep _ _ _ _ => simp at ht
  | rx x => simp only [Option.some.injEq] at ha; subst ha; rfl

theorem head_pcap {hp : Bool} {hd : List CStr} {c : Cmd} (h : Head hp hd c) {a : CStr} (ht : c.type = .pcap) (ha : c.arg0 = some a) :
    hd = [c!"pcap", a] := by
  cases h with
  | hex | rx _ | tx _ | txRep _ _ _ _ => simp at ht
  | pcap x _ => simp only [Option.some.injEq] at ha; subst ha; rfl

theorem head_hex {hp : Bool} {hd : List CStr} {c : Cmd} (h : Head hp hd c) (ht : c.type = .hex) : hd = [c!"hex"] := by
  cases h with
  | pcap _ _ | rx _ | tx _ | txRep _ _ _ _ => simp at ht
  | hex => rfl

/-- A command with the frame of its name, if it has a frame, in words. -/
theorem resolved_words {hp : Bool} {l : List (List CStr × Cmd)} (hc : ∀ p ∈ l, Command hp p.1 p.2) {d : Cmd}
    (hd : d ∈ (l.map (·.2)).map (resolve (l.map (·.2)))) (ht : d.type ≠ .name) {b : Buf} (hb : d.buf = some b) :
    ∃ hw c fw f, Head hp hw c ∧ c.type = d.type ∧ c.arg0 = d.arg0 ∧ Orders (l.map (·.1)) hw fw ∧ FrameWords fw f b d.mask ∧ d.frame = some f := by
  obtain ⟨x, hx, rfl⟩ := List.mem_map.mp hd
  obtain ⟨p, hp', rfl⟩ := List.mem_map.mp hx
  have hcp := hc p hp'
  have hmem : p.1 ∈ l.map (·.1) := List.mem_map_of_mem hp'
  generalize p.1 = ws at hcp hmem
  generalize p.2 = c0 at hcp hb ht
  cases hcp with
  | define n hw => simp [resolve, refersTo] at ht
  | frame hh hw =>
    rename_i hd' c fw f b' m
    have e : resolve (l.map (·.2)) { c with frame := some f, buf := some b', mask := m } = { c with frame := some f, buf := some b', mask := m } := by
      unfold resolve refersTo
      simp
    rw [e] at hb ⊢
    simp only [Option.some.injEq] at hb
    subst hb
    exact ⟨_, c, fw, f, hh, rfl, rfl, Or.inl hmem, hw, rfl⟩
  | ref n hh =>
    rename_i hd' c
    obtain ⟨g1, g2, g3⟩ := head_fresh hh
    have hr : refersTo { c with name := some n } = some n := by
      unfold refersTo
      rw [if_pos ⟨g3, g2⟩]
    cases hf : (l.map (·.2)).find? (defines n) with
    | none =>
      have e : resolve (l.map (·.2)) { c with name := some n } = { c with name := some n } := by
        unfold resolve
        rw [hr]
        simp only [hf]
      rw [e] at hb
      rw [show ({ c with name := some n } : Cmd).buf = c.buf from rfl, g2] at hb
      simp at hb
    | some d =>
      have e : resolve (l.map (·.2)) { c with name := some n } = { c with name := some n, frame := d.frame, buf := d.buf, mask := d.mask } := by
        unfold resolve
        rw [hr]
        simp only [hf]
      rw [e] at hb ⊢
      obtain ⟨fw, f, b', m, h1, h2, h3, h4, h5⟩ := find_definition hc hf
      have hb' : d.buf = some b := hb
      rw [h4] at hb'
      simp only [Option.some.injEq] at hb'
      subst hb'
      refine ⟨_, c, fw, f, hh, rfl, rfl, Or.inr ⟨n, hmem, h1⟩, ?_, h3⟩
      show FrameWords fw f b' d.mask
      rw [h5]
      exact h2
  | listen a => simp [resolve, refersTo] at hb

/-- A command of an interface begins with `rx` or `tx` and the interface. -/
theorem io_begins {hp : Bool} {l : List (List CStr × Cmd)} (hc : ∀ p ∈ l, Command hp p.1 p.2) {d : Cmd}
    (hd : d ∈ (l.map (·.2)).map (resolve (l.map (·.2)))) (ht : d.type = .rx ∨ d.type = .tx) :
    ∃ a, d.arg0 = some a ∧ (Begins (l.map (·.1)) [c!"rx", a] ∨ Begins (l.map (·.1)) [c!"tx", a]) := by
  obtain ⟨x, hx, rfl⟩ := List.mem_map.mp hd
  obtain ⟨p, hp', rfl⟩ := List.mem_map.mp hx
  have hcp := hc p hp'
  have hmem : p.1 ∈ l.map (·.1) := List.mem_map_of_mem hp'
  have ea : (resolve (l.map (·.2)) p.2).arg0 = p.2.arg0 := by
    unfold resolve
    split
    · split <;> rfl
    · rfl
  have et : (resolve (l.map (·.2)) p.2).type = p.2.type := by
    unfold resolve
    split
    · split <;> rfl
    · rfl
  rw [ea]
  rw [et] at ht
  clear ea et hd hx
  generalize p.1 = ws at hcp hmem
  generalize p.2 = c0 at hcp ht
  have headed : ∀ {hd : List CStr} {c : Cmd} {r : List CStr}, Head hp hd c → (c.type = .rx ∨ c.type = .tx) → hd ++ r ∈ l.map (·.1) →
      ∃ a, c.arg0 = some a ∧ (Begins (l.map (·.1)) [c!"rx", a] ∨ Begins (l.map (·.1)) [c!"tx", a]) := by
    intro hd c r hh ht hm
    cases hh with
    | hex | pcap _ _ => simp at ht
    | rx a => exact ⟨a, rfl, Or.inl ⟨_, hm, r, rfl⟩⟩
    | tx a => exact ⟨a, rfl, Or.inr ⟨_, hm, r, rfl⟩⟩
    | txRep a w k _ => exact ⟨a, rfl, Or.inr ⟨_, hm, w :: k :: r, rfl⟩⟩
  cases hcp with
  | define n hw => simp at ht
  | frame hh hw =>
    have := headed hh ht hmem
    exact this
  | ref n hh =>
    have := headed hh ht hmem
    exact this
  | listen a => exact ⟨a, rfl, Or.inl ⟨_, hmem, [], rfl⟩⟩

theorem mask_whole {fw : List CStr} {f : Frame} {b x : Buf} (h : FrameWords fw f b (some x)) : x.take b.length = x := by
  obtain ⟨_, f0, _, h1, h2⟩ := h
  rcases h2 with ⟨_, h2⟩ | ⟨_, y, h2, h3⟩
  · simp at h2
  · simp only [Option.some.injEq] at h2
    subst h2
    have := C19_mask_length f0 f b x h1 h3
    rw [List.take_of_length_le (by omega)]

/-- **C115**: a run with any effect is the run of a line of commands, and everything that is sent, saved, printed, opened, reported or
waited for was asked for by words of the line: the bytes and masks are those of the frame written in the command or of the first
definition of the name given there. -/
theorem C115_asked {w : World} {ms : Int} {caps argv : List CStr} {r : RunRes} (h : argcCmds w ms caps argv = .ok r) (hne : r.events ≠ []) :
    ∃ line : List (List CStr), argv = line.flatten ∧ (∀ ws ∈ line, ∃ c, Command w.env.cfg.hasPcap ws c) ∧ ∀ e ∈ r.events, AskedBy line e := by
  rcases C51_all_or_nothing h with ⟨l, h1, _, hc, x, hx, _, he⟩ | ⟨_, h2, _⟩
  · refine ⟨l.map (·.1), by rw [h1, allWords, List.flatMap_def], ?_, ?_⟩
    · intro ws hws
      obtain ⟨p, hp, rfl⟩ := List.mem_map.mp hws
      exact ⟨_, hc p hp⟩
    · intro e hmem
      rw [he] at hmem
      have hf := execCmds_from hx e hmem
      cases e with
      | named n b m =>
        obtain ⟨d, hd, g1, g2, g3, g4⟩ := hf
        obtain ⟨c, hc', e⟩ := List.mem_map.mp hd
        obtain ⟨p, hp, rfl⟩ := List.mem_map.mp hc'
        have et : (resolve (l.map (·.2)) p.2).type = p.2.type := by
          unfold resolve
          split
          · split <;> rfl
          · rfl
        have ht : p.2.type = .name := by rw [← et, e]; exact g1
        have er : resolve (l.map (·.2)) p.2 = p.2 := by
          unfold resolve refersTo
          simp [ht]
        rw [er] at e
        subst e
        obtain ⟨n', v, e1, e2⟩ := command_type_name (hc p hp) ht
        rw [g2] at e2
        have hn : n = n' := Option.some.inj e2
        subst hn
        have hcp := hc p hp
        rw [e1] at hcp
        obtain ⟨f, b', m', hw, hd'⟩ := command_define hcp
        rw [hd'] at g3 g4
        simp only [Option.some.injEq] at g3 g4
        subst g3; subst g4
        exact ⟨v, f, List.mem_map.mpr ⟨p, hp, e1⟩, hw⟩
      | pcap file b =>
        obtain ⟨d, hd, g1, g2, g3⟩ := hf
        obtain ⟨hw, c, fw, f, k1, k2, k3, k4, k5, _⟩ := resolved_words hc hd (by simp [g1]) g3
        rw [head_pcap k1 (k2.trans g1) (k3.trans g2)] at k4
        exact ⟨fw, f, _, k4, k5⟩
      | hex b m =>
        obtain ⟨d, hd, g1, g2, g3⟩ := hf
        obtain ⟨hw, c, fw, f, k1, k2, k3, k4, k5, _⟩ := resolved_words hc hd (by simp [g1]) g2
        rw [head_hex k1 (k2.trans g1)] at k4
        refine ⟨fw, f, k4, ?_⟩
        rcases g3 with ⟨g3, rfl⟩ | ⟨y, g3, rfl⟩
        · rw [g3] at k5; exact k5
        · rw [g3] at k5; rw [mask_whole k5]; exact k5
      | send a b res =>
        obtain ⟨d, hd, g1, g2, g3⟩ := hf
        obtain ⟨hw, c, fw, f, k1, k2, k3, k4, k5, _⟩ := resolved_words hc hd (by simp [g1]) g3
        exact ⟨hw, fw, f, _, head_tx k1 (k2.trans g1) (k3.trans g2), k4, k5⟩
      | txDone a b n =>
        obtain ⟨d, hd, g1, g2, g3, _⟩ := hf
        obtain ⟨hw, c, fw, f, k1, k2, k3, k4, k5, _⟩ := resolved_words hc hd (by simp [g1]) g3
        exact ⟨hw, fw, f, _, head_tx k1 (k2.trans g1) (k3.trans g2), k4, k5⟩
      | noRx a b n m =>
        obtain ⟨d, hd, g1, g2, g3, _, g4⟩ := hf
        obtain ⟨hw, c, fw, f, k1, k2, k3, k4, k5, _⟩ := resolved_words hc hd (by simp [g1]) g3
        rw [head_rx k1 (k2.trans g1) (k3.trans g2)] at k4
        rw [g4] at k5
        exact ⟨fw, f, k4, k5⟩
      | rxOk a y n m =>
        obtain ⟨d, hd, g1, g2, _, g4, b, f, g5, g6, g7⟩ := hf
        obtain ⟨hw, c, fw, f', k1, k2, k3, k4, k5, k6⟩ := resolved_words hc hd (by rcases g1 with g1 | g1 <;> simp [g1]) g5
        rw [g6] at k6
        have hff : f = f' := Option.some.inj k6
        subst hff
        rw [g4] at k5
        refine ⟨hw, fw, f, b, ?_, k4, k5, g7⟩
        rcases g1 with g1 | g1
        · exact Or.inl (head_rx k1 (k2.trans g1) (k3.trans g2))
        · exact Or.inr (head_tx k1 (k2.trans g1) (k3.trans g2))
      | rxErr a y =>
        obtain ⟨d, hd, g1, g2⟩ := hf
        obtain ⟨a', e, hb⟩ := io_begins hc hd g1
        rw [g2] at e
        have : a = a' := Option.some.inj e
        subst this
        exact hb
      | opened a =>
        obtain ⟨d, hd, g1, g2⟩ := hf
        obtain ⟨a', e, hb⟩ := io_begins hc hd g1
        rw [g2] at e
        have : a = a' := Option.some.inj e
        subst this
        exact hb
      | noSuchName n =>
        obtain ⟨d, hd, g1, g2⟩ := hf
        obtain ⟨c, hc', e⟩ := List.mem_map.mp hd
        obtain ⟨p, hp, rfl⟩ := List.mem_map.mp hc'
        have et : (resolve (l.map (·.2)) p.2).type = p.2.type := by
          unfold resolve
          split
          · split <;> rfl
          · rfl
        have en : (resolve (l.map (·.2)) p.2).name = p.2.name := by
          unfold resolve
          split
          · split <;> rfl
          · rfl
        have hin : p.1 ∈ l.map (·.1) := List.mem_map_of_mem hp
        rw [← e, et] at g1
        rw [← e, en] at g2
        have hcp := hc p hp
        generalize p.1 = ws at hcp hin
        generalize p.2 = c0 at hcp g1 g2
        cases hcp with
        | define n' hw => simp at g1
        | frame hh hw => rw [show ∀ c : Cmd, ∀ f b m, ({ c with frame := f, buf := b, mask := m } : Cmd).name = c.name from fun _ _ _ _ => rfl, (head_fresh hh).1] at g2; simp at g2
        | ref n' hh =>
          simp only [Option.some.injEq] at g2
          subst g2
          exact ⟨_, hin⟩
        | listen a => simp at g2
      | wait t =>
        obtain ⟨d, hd, g1⟩ := hf
        obtain ⟨a, _, hb⟩ := io_begins hc hd g1
        exact ⟨a, hb⟩
  · exact absurd h2 hne

/-- **C115, the whole tool**. -/
theorem C115_whole_tool {w : World} {argv : List CStr} {r : RunRes} (h : main_ w argv = .ok r) (hne : r.events ≠ []) :
    ∃ line : List (List CStr), (getopt w.posix argv).2 = line.flatten ∧ ∀ e ∈ r.events, AskedBy line e := by
  unfold main_ at h
  simp only at h
  rcases mainLoopOpts_conv h with ⟨ms, caps, r', h1, e1, e2, e3, e4⟩ | ⟨_, e2, e3, e4⟩
  · rw [e2] at hne ⊢
    obtain ⟨line, h2, _, h3⟩ := C115_asked h1 hne
    exact ⟨line, h2, h3⟩
  · exact absurd e2 hne

/-- Non-vacuity: there are effects, and this line asks for nothing to be sent. -/
example : (toolResult (world (listening [])) [c!"hex", c!"eth"]).events.length = 1 ∧
    ¬ AskedBy [[c!"hex", c!"eth"]] (.send c!"hex" [] 1) := by
  refine ⟨by decide +kernel, ?_⟩
  rintro ⟨hd, fw, f, m, h1, h2, _⟩
  rcases h2 with h2 | ⟨n, h2, _⟩
  all_goals
    rcases h1 with rfl | ⟨w, k, _, rfl⟩ <;> simp at h2

end Ef.Props
