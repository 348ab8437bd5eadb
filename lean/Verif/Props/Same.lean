import Verif.Spec.Same
import Verif.Lemmas.Descriptors
import Verif.Props.Origin
import Verif.Props.Overread
import Verif.Props.Padding
import Verif.Props.Separate

/-!
# C118: the same words mean the same frame in every command
-/

namespace Ef.Props

open Ef Ef.Spec

/-- A line with one command that contains a frame. -/
theorem lead_cmd {hp : Bool} {hd ws : List CStr} {f0 : Frame} (hl : Fronting hp hd) (hne : ws ≠ [])
    (hw : argcFrame ws = .ok (some (ws.length, f0))) {o : Option (List Cmd)} (h : parseCmds hp (hd ++ ws) = .ok o) :
    ∃ f b m c, FrameWords ws f b m ∧ o = some [c] ∧ resolve [c] c = c ∧ c.frame = some f ∧ c.buf = some b ∧ c.mask = m := by
  have hlen : ws.length ≤ 100 := by
    unfold argcFrame at hw
    split at hw
    · simp at hw
    · rename_i h; unfold frameStackMax at h; omega
  -- the command, up to the frame
  obtain ⟨c0, hb, hnn, hc0, hf0⟩ : ∃ c0 : Cmd, c0.mask = none ∧ (∀ c, c.type = c0.type → c.name = c0.name → refersTo c = none) ∧
      argcCmd hp (hd ++ ws) = argcCmdRest c0 hd.length ws ∧ hd ≠ [] := by
    rcases hl with ⟨n, rfl⟩ | ⟨c, hh⟩
    · refine ⟨{ type := .name, name := some n }, rfl, ?_, by cases hp <;> rfl, by simp⟩
      intro c h1 h2
      unfold refersTo
      rw [h1]; rfl
    · refine ⟨c, hh.base.1, ?_, argcCmd_head hh hne ?_, hh.base.2.2.1⟩
      · have : c.name = none := by cases hh <;> rfl
        intro d h1 h2
        unfold refersTo
        rw [h2, this]
        simp
      · intro w hw1
        obtain ⟨t, ht, hh⟩ := frame_first hw hne
        rw [hw1] at hh
        cases hh
        have : ∀ t ∈ hdrTmpls, t.name ≠ c!"rep" ∧ t.name ≠ c!"repeat" := by decide +kernel
        exact this t ht
  have hcmd : ∃ f b m, FrameWords ws f b m := by
    unfold parseCmds argcCmdsLoop at h
    rw [if_neg (by simp [hf0]), hc0] at h
    simp only [Out.bind_eq_ok] at h
    obtain ⟨_, ⟨x, h1, _⟩, _⟩ := h
    have h2 : argcCmdFrame c0 hd.length ws = .ok x := by
      unfold argcCmdRest at h1
      split at h1
      · rename_i w n tl
        split at h1
        · rename_i hx
          obtain ⟨t, ht, hh⟩ := frame_first hw hne
          simp only [List.head?_cons, Option.some.injEq] at hh
          exact absurd (hh.symm.trans hx.1) (by
            have : ∀ t ∈ hdrTmpls, t.name ≠ c!"name" := by decide +kernel
            exact this t ht)
        · exact h1
      · exact h1
    unfold argcCmdFrame at h2
    rw [hw, Out.ok_bind] at h2
    simp only at h2
    rw [if_neg (by simpa using hne), Out.bind_eq_ok] at h2
    obtain ⟨⟨f, b⟩, h3, h4⟩ := h2
    simp only at h4
    split at h4
    · rename_i hm
      rw [Out.bind_eq_ok] at h4
      obtain ⟨m, h5, _⟩ := h4
      exact ⟨f, b, some m, hne, f0, hw, h3, Or.inr ⟨hm, m, rfl, h5⟩⟩
    · rename_i hm
      exact ⟨f, b, none, hne, f0, hw, h3, Or.inl ⟨by simpa using hm, rfl⟩⟩
  obtain ⟨f, b, m, hW⟩ := hcmd
  have h1 := argcCmdRest_words (i := hd.length) (r := []) hb hW (fun _ _ => by intro w tl hw; exact absurd hw (by simp)) (by simpa using hlen)
  rw [List.append_nil] at h1
  refine ⟨f, b, m, { c0 with frame := some f, buf := some b, mask := m }, hW, ?_, ?_, rfl, rfl, rfl⟩
  · have e : argcCmdsLoop hp 100 (hd ++ ws) = .ok (some ([{ c0 with frame := some f, buf := some b, mask := m }], [])) := by
      unfold argcCmdsLoop
      rw [if_neg (by simp [hf0]), hc0, h1, Out.ok_bind]
      simp only
      rw [show (hd ++ ws).drop (hd.length + ws.length) = [] by simp]
      rfl
    unfold parseCmds at h
    rw [e, Out.ok_bind] at h
    simpa using h.symm
  · unfold resolve
    rw [hnn { c0 with frame := some f, buf := some b, mask := m } rfl rfl]

/-- What the effects of such a line are about. -/
theorem lead_events {w : World} {ms : Int} {caps hd ws : List CStr} {f0 : Frame} {r : RunRes} (hl : Fronting w.env.cfg.hasPcap hd)
    (hne : ws ≠ []) (hw : argcFrame ws = .ok (some (ws.length, f0))) (h : argcCmds w ms caps (hd ++ ws) = .ok r) :
    ∃ f b m, FrameWords ws f b m ∧ ∀ e ∈ r.events, (∀ x, frameShown e = some x → x = b) ∧ (∀ x, maskShown e = some x → x = m) ∧
      ∀ x, frameAccepted e = some x → Matches x b m := by
  unfold argcCmds at h
  rw [Out.bind_eq_ok] at h
  obtain ⟨o, ho, h⟩ := h
  obtain ⟨f, b, m, c, hW, rfl, hr, c1, c2, c3⟩ := lead_cmd hl hne hw ho
  simp only [Out.bind_eq_ok] at h
  obtain ⟨x, hx, h⟩ := h
  cases h
  refine ⟨f, b, m, hW, fun e he => ?_⟩
  have hf := execCmds_from hx e he
  rw [show List.map (resolve [c]) [c] = [c] by rw [List.map_cons, hr, List.map_nil]] at hf
  cases e with
  | named n y k =>
    obtain ⟨d, hd, _, _, g1, g2⟩ := hf
    rw [List.mem_singleton] at hd; subst hd
    rw [c2] at g1; rw [c3] at g2
    cases g1
    simp [frameShown, maskShown, frameAccepted, g2]
  | pcap file y =>
    obtain ⟨d, hd, _, _, g1⟩ := hf
    rw [List.mem_singleton] at hd; subst hd
    rw [c2] at g1
    cases g1
    simp [frameShown, maskShown, frameAccepted]
  | hex y k =>
    obtain ⟨d, hd, _, g1, g2⟩ := hf
    rw [List.mem_singleton] at hd; subst hd
    rw [c2] at g1
    cases g1
    have : k = m := by
      rcases g2 with ⟨g2, g3⟩ | ⟨z, g2, g3⟩
      · rw [g3, ← c3, g2]
      · rw [c3] at g2
        subst g2
        rw [g3, mask_whole hW]
    simp [frameShown, maskShown, frameAccepted, this]
  | send a y z =>
    obtain ⟨d, hd, _, _, g1⟩ := hf
    rw [List.mem_singleton] at hd; subst hd
    rw [c2] at g1
    cases g1
    simp [frameShown, maskShown, frameAccepted]
  | txDone a y n =>
    obtain ⟨d, hd, _, _, g1, _⟩ := hf
    rw [List.mem_singleton] at hd; subst hd
    rw [c2] at g1
    cases g1
    simp [frameShown, maskShown, frameAccepted]
  | noRx a y n k =>
    obtain ⟨d, hd, _, _, g1, _, g2⟩ := hf
    rw [List.mem_singleton] at hd; subst hd
    rw [c2] at g1; rw [c3] at g2
    cases g1
    simp [frameShown, maskShown, frameAccepted, g2]
  | rxOk a y n k =>
    obtain ⟨d, hd, _, _, _, g2, b', f', g3, g4, g5⟩ := hf
    rw [List.mem_singleton] at hd; subst hd
    rw [c2] at g3; rw [c3] at g2
    cases g3
    subst g2
    refine ⟨by simp [frameShown], by simp [maskShown], fun x hx => ?_⟩
    simp only [frameAccepted, Option.some.injEq] at hx
    subst hx
    have hp : f'.padding = 0 := by
      apply Classical.byContradiction
      intro hp
      by_cases hneg : f'.padding < 0
      · unfold bequalMask at g5
        simp [hneg] at g5
      · have e : ((f'.padding.toNat : Nat) : Int) = f'.padding := by omega
        rw [← e] at g5
        exact (C24_exactly y b m f'.padding.toNat).2.2 (by omega) g5
    rw [hp] at g5
    obtain ⟨q, e1, e2⟩ := C23_masked_comparison y b m
    rw [e1] at g5
    cases g5
    exact e2.mp rfl
  | rxErr a y => simp [frameShown, maskShown, frameAccepted]
  | opened a => simp [frameShown, maskShown, frameAccepted]
  | noSuchName n => simp [frameShown, maskShown, frameAccepted]
  | wait l => simp [frameShown, maskShown, frameAccepted]

/-- **C118**: the words of a frame mean the same frame behind `hex`, `name NAME`, `pcap FILE`, `tx IF`, `tx IF rep N` and `rx IF`, in
every run: what one command prints is what the others send, save or miss, with the same mask, and a frame that is accepted
matches it. -/
theorem C118_same_frame {ws : List CStr} {f0 : Frame} (hne : ws ≠ []) (hw : argcFrame ws = .ok (some (ws.length, f0)))
    {w w' : World} {ms ms' : Int} {caps caps' hd hd' : List CStr} {r r' : RunRes}
    (hl : Fronting w.env.cfg.hasPcap hd) (hl' : Fronting w'.env.cfg.hasPcap hd')
    (h : argcCmds w ms caps (hd ++ ws) = .ok r) (h' : argcCmds w' ms' caps' (hd' ++ ws) = .ok r') :
    ∀ e ∈ r.events, ∀ e' ∈ r'.events,
      (∀ b b', frameShown e = some b → frameShown e' = some b' → b = b') ∧
      (∀ m m', maskShown e = some m → maskShown e' = some m' → m = m') ∧
      ∀ x b m, frameAccepted e = some x → maskShown e = some m → frameShown e' = some b → Matches x b m := by
  obtain ⟨f, b, m, hW, h1⟩ := lead_events hl hne hw h
  obtain ⟨g, b', m', hW', h2⟩ := lead_events hl' hne hw h'
  have hb : b = b' := frameWords_det hW hW'
  have hm : m = m' := by
    obtain ⟨_, f1, a1, a2, a3⟩ := hW
    obtain ⟨_, g1, b1, b2, b3⟩ := hW'
    rw [a1] at b1
    cases b1
    rw [a2] at b2
    cases b2
    rcases a3 with ⟨a3, rfl⟩ | ⟨a3, x, rfl, a4⟩ <;> rcases b3 with ⟨b3, rfl⟩ | ⟨b3, y, rfl, b4⟩
    · rfl
    · rw [a3] at b3; cases b3
    · rw [a3] at b3; cases b3
    · rw [a4] at b4; cases b4; rfl
  subst hb hm
  intro e he e' he'
  obtain ⟨p1, p2, p3⟩ := h1 e he
  obtain ⟨q1, q2, q3⟩ := h2 e' he'
  refine ⟨fun x y hx hy => (p1 x hx).trans (q1 y hy).symm, fun x y hx hy => (p2 x hx).trans (q2 y hy).symm, ?_⟩
  intro x y z hx hz hy
  rw [q1 y hy, p2 z hz]
  exact p3 x hx

/-- The end of the parsing of a command does not depend on the kind of the command. -/
theorem rest_same {c c' : Cmd} {i i' : Nat} (hb : c.frame = c'.frame ∧ c.buf = c'.buf ∧ c.mask = c'.mask ∧ c.name = c'.name)
    (ht : c.type ≠ .rx ∧ c.type ≠ .name) (ht' : c'.type ≠ .rx ∧ c'.type ≠ .name) (ws : List CStr) :
    Agrees (fun o o' => (o = .err ∧ o' = .err) ∨ (o = .stop ∧ o' = .stop) ∨ ∃ d d' k, o = .cmd d (i + k) ∧ o' = .cmd d' (i' + k) ∧
      d.frame = d'.frame ∧ d.buf = d'.buf ∧ d.mask = d'.mask ∧ d.name = d'.name) (argcCmdRest c i ws) (argcCmdRest c' i' ws) := by
  have key : Agrees (fun o o' => (o = .err ∧ o' = .err) ∨ (o = .stop ∧ o' = .stop) ∨ ∃ d d' k, o = .cmd d (i + k) ∧ o' = .cmd d' (i' + k) ∧
      d.frame = d'.frame ∧ d.buf = d'.buf ∧ d.mask = d'.mask ∧ d.name = d'.name) (argcCmdFrame c i ws) (argcCmdFrame c' i' ws) := by
    unfold argcCmdFrame
    refine (Agrees.same _).bind ?_
    rintro a _ ⟨rfl, -⟩
    cases a with
    | none => exact .ok (Or.inl ⟨rfl, rfl⟩)
    | some p =>
      obtain ⟨n, f⟩ := p
      simp only
      by_cases hn : n = 0
      · rw [if_pos hn, if_pos hn, if_neg ht.1, if_neg ht'.1]
        exact .ok (Or.inr (Or.inl ⟨rfl, rfl⟩))
      · rw [if_neg hn, if_neg hn]
        refine (Agrees.same _).bind ?_
        rintro ⟨f', b⟩ _ ⟨rfl, -⟩
        simp only
        by_cases hm : f'.hasMask = true
        · rw [if_pos hm, if_pos hm]
          refine (Agrees.same _).bind ?_
          rintro m _ ⟨rfl, -⟩
          exact .ok (Or.inr (Or.inr ⟨_, _, n, rfl, rfl, rfl, rfl, rfl, hb.2.2.2⟩))
        · rw [if_neg hm, if_neg hm]
          exact .ok (Or.inr (Or.inr ⟨_, _, n, rfl, rfl, rfl, rfl, hb.2.2.1, hb.2.2.2⟩))
  unfold argcCmdRest
  split
  · rename_i x n tl
    by_cases hx : x = c!"name"
    · rw [if_pos ⟨hx, ht.2⟩, if_pos ⟨hx, ht'.2⟩]
      exact .ok (Or.inr (Or.inr ⟨_, _, 2, rfl, rfl, hb.1, hb.2.1, hb.2.2.1, rfl⟩))
    · rw [if_neg (fun h => hx h.1), if_neg (fun h => hx h.1)]
      exact key
  · exact key

/-- **C118**, acceptance: whatever words follow (a frame, the name of a frame, further commands, or anything else), they are accepted
or rejected behind `hex`, `pcap FILE`, `tx IF` and `tx IF rep N` alike, crashes included, and describe the same frame and the same
further commands. -/
theorem C118_same_words {hp : Bool} {hd hd' : List CStr} {c c' : Cmd} (hh : Head hp hd c) (hh' : Head hp hd' c') (hr : c.type ≠ .rx)
    (hr' : c'.type ≠ .rx) {ws : List CStr} (hne : ws ≠ []) (hrep : ∀ w, ws.head? = some w → w ≠ c!"rep" ∧ w ≠ c!"repeat") :
    Agrees SameFrames (parseCmds hp (hd ++ ws)) (parseCmds hp (hd' ++ ws)) := by
  have hb : c.frame = c'.frame ∧ c.buf = c'.buf ∧ c.mask = c'.mask ∧ c.name = c'.name := by
    have : ∀ {hd c}, Head hp hd c → c.frame = none ∧ c.buf = none ∧ c.mask = none ∧ c.name = none := by
      intro hd c h
      cases h <;> exact ⟨rfl, rfl, rfl, rfl⟩
    obtain ⟨a1, a2, a3, a4⟩ := this hh
    obtain ⟨b1, b2, b3, b4⟩ := this hh'
    exact ⟨a1.trans b1.symm, a2.trans b2.symm, a3.trans b3.symm, a4.trans b4.symm⟩
  have hA := rest_same (i := hd.length) (i' := hd'.length) hb ⟨hr, hh.base.2.1⟩ ⟨hr', hh'.base.2.1⟩ ws
  rw [← argcCmd_head hh hne hrep, ← argcCmd_head hh' hne hrep] at hA
  unfold parseCmds
  have hL : Agrees (fun o o' => (o = none ∧ o' = none) ∨ (∃ a a', o = some ([], a) ∧ o' = some ([], a') ∧ a ≠ [] ∧ a' ≠ []) ∨
      ∃ d d' cs a, o = some (d :: cs, a) ∧ o' = some (d' :: cs, a) ∧ d.frame = d'.frame ∧ d.buf = d'.buf ∧ d.mask = d'.mask ∧
        d.name = d'.name) (argcCmdsLoop hp 100 (hd ++ ws)) (argcCmdsLoop hp 100 (hd' ++ ws)) := by
    unfold argcCmdsLoop
    rw [if_neg (by simp [hne]), if_neg (by simp [hne])]
    refine hA.bind ?_
    rintro o o' (⟨rfl, rfl⟩ | ⟨rfl, rfl⟩ | ⟨d, d', k, rfl, rfl, g⟩)
    · exact .ok (Or.inl ⟨rfl, rfl⟩)
    · exact .ok (Or.inr (Or.inl ⟨_, _, rfl, rfl, by simp [hne], by simp [hne]⟩))
    · simp only
      rw [show (hd ++ ws).drop (hd.length + k) = ws.drop k by rw [← List.drop_drop]; simp,
        show (hd' ++ ws).drop (hd'.length + k) = ws.drop k by rw [← List.drop_drop]; simp]
      refine (Agrees.same _).bind ?_
      rintro a _ ⟨rfl, -⟩
      cases a with
      | none => exact .ok (Or.inl ⟨rfl, rfl⟩)
      | some p => exact .ok (Or.inr (Or.inr ⟨d, d', p.1, p.2, rfl, rfl, g⟩))
  refine hL.bind ?_
  rintro o o' (⟨rfl, rfl⟩ | ⟨a, a', rfl, rfl, h1, h2⟩ | ⟨d, d', cs, a, rfl, rfl, g⟩)
  · exact .ok (Or.inl ⟨rfl, rfl⟩)
  · simp only
    rw [if_neg h1, if_neg h2]
    exact .ok (Or.inl ⟨rfl, rfl⟩)
  · simp only
    by_cases ha : a = []
    · rw [if_pos ha, if_pos ha]
      exact .ok (Or.inr ⟨d, d', cs, rfl, rfl, g⟩)
    · rw [if_neg ha, if_neg ha]
      exact .ok (Or.inl ⟨rfl, rfl⟩)

/-- Non-vacuity: `hex eth` prints a frame, `name n eth ign` one with a mask, and `tx e eth` is a command to send that frame. -/
example : ((toolResult (world (listening [])) [c!"hex", c!"eth"]).events.filterMap frameShown).length = 1 ∧
    (toolResult (world (listening [])) [c!"name", c!"n", c!"eth", c!"ign"]).events.any (fun e => ((maskShown e).getD none).isSome) = true ∧
    (match parseCmds true [c!"tx", c!"e", c!"eth"], parseCmds true [c!"hex", c!"eth"] with
      | .ok (some [c]), .ok (some [d]) => decide (c.type = .tx) && decide (c.buf = d.buf) && c.buf.isSome
      | _, _ => false) = true := by
  decide +kernel

/-- Non-vacuity: a run that sends, and one that accepts a frame other than the one expected. -/
example : (result (writableThenArrive [1#8]) [transmit [1#8] 1]).events.filterMap frameShown = [[1#8], [1#8]] ∧
    (result (listening [[2#8]]) [expect [1#8] (some [0xf0#8])]).events.filterMap frameAccepted = [[2#8]] := by decide +kernel

/-- Non-vacuity: the words `eth dmac` are accepted nowhere. -/
example : parseCmds true [c!"hex", c!"eth", c!"dmac"] = .ok none ∧ parseCmds true [c!"tx", c!"e", c!"eth", c!"dmac"] = .ok none := by
  decide +kernel

end Ef.Props
