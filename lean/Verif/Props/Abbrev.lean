import Verif.Lemmas.Unname
import Verif.Lemmas.Kinds
import Verif.Props.Loopback

/-!
# C103: a name stands for its frame
-/

namespace Ef.Props

open Ef Spec

/-- C103 as claimed: with the names written out the tool does the same, but for the names in the report. -/
def C103_statement : Prop :=
  ∀ (w : World) (ms : Int) (caps : List CStr) (l l' : List (List CStr × Cmd)),
    (∀ p ∈ l, Command w.env.cfg.hasPcap p.1 p.2) → (∀ p ∈ l', Command w.env.cfg.hasPcap p.1 p.2) →
    (allWords l).length ≤ 101 → (allWords l').length ≤ 101 → Separated w.env.cfg.hasPcap l →
    WrittenOut w.env.cfg.hasPcap (l.map (·.1)) (l.map (·.1)) (l'.map (·.1)) →
    argcCmds w ms caps (allWords l') = (do let r ← argcCmds w ms caps (allWords l); .ok (hideNames r))

/-- The words determine the command. -/
theorem command_unique {hp : Bool} {ws : List CStr} {c c' : Cmd} (h : Command hp ws c) (h' : Command hp ws c')
    (hl : ws.length ≤ 101) : c = c' := by
  have e : ∀ {x : Cmd}, Command hp ws x → parseCmds hp ws = .ok (some [x]) := by
    intro x hx
    have := C52_commands_partial hp [(ws, x)] (by intro p hp; rw [List.mem_singleton] at hp; subst hp; exact hx) trivial
      (by simpa [allWords] using hl)
    simpa [allWords] using this
  have := (e h).symm.trans (e h')
  simpa using this

theorem head_not_name {hp : Bool} {hd : List CStr} {c : Cmd} (h : Head hp hd c) (r v : List CStr) : hd ++ r ≠ c!"name" :: v := by
  cases h <;> simp

/-- What a command starting with `name` is. -/
theorem command_define {hp : Bool} {n : CStr} {ws : List CStr} {c : Cmd} (h : Command hp (c!"name" :: n :: ws) c) :
    ∃ f b m, FrameWords ws f b m ∧ c = { type := .name, name := some n, frame := some f, buf := some b, mask := m } := by
  generalize e : c!"name" :: n :: ws = W at h
  cases h with
  | define n' hw =>
    simp only [List.cons.injEq, true_and] at e
    obtain ⟨rfl, rfl⟩ := e
    exact ⟨_, _, _, hw, rfl⟩
  | frame hh hw => exact absurd e.symm (head_not_name hh _ _)
  | ref n' hh => exact absurd e.symm (head_not_name hh _ _)
  | listen ifc => simp at e

theorem head_fresh {hp : Bool} {hd : List CStr} {c : Cmd} (h : Head hp hd c) :
    c.name = none ∧ c.buf = none ∧ c.type ≠ .name := by
  cases h <;> simp

/-- A command of type `name` starts with `name`. -/
theorem command_type_name {hp : Bool} {ws : List CStr} {c : Cmd} (h : Command hp ws c) (ht : c.type = .name) :
    ∃ n v, ws = c!"name" :: n :: v ∧ c.name = some n := by
  cases h with
  | define n hw => exact ⟨n, _, rfl, rfl⟩
  | frame hh hw => exact absurd ht (head_fresh hh).2.2
  | ref n hh => exact absurd ht (head_fresh hh).2.2
  | listen ifc => simp at ht

theorem find_first {hp : Bool} {n : CStr} {ws : List CStr} {l : List (List CStr × Cmd)} (hc : ∀ p ∈ l, Command hp p.1 p.2)
    (hf : FirstDefinition n ws (l.map (·.1))) :
    ∃ f b m, FrameWords ws f b m ∧ (l.map (·.2)).find? (defines n) =
      some { type := .name, name := some n, frame := some f, buf := some b, mask := m } := by
  obtain ⟨pre, post, he, hpre⟩ := hf
  obtain ⟨lp, lr, rfl, hp1, hr⟩ := List.map_eq_append_iff.mp he
  obtain ⟨p, lq, rfl, hp2, hq⟩ := List.map_eq_cons_iff.mp hr
  have hcp := hc p (by simp)
  rw [hp2] at hcp
  obtain ⟨f, b, m, hw, hd⟩ := command_define hcp
  refine ⟨f, b, m, hw, ?_⟩
  rw [List.map_append, List.find?_append]
  have : (lp.map (·.2)).find? (defines n) = none := by
    rw [List.find?_eq_none]
    intro x hx hdx
    obtain ⟨q, hq, rfl⟩ := List.mem_map.mp hx
    simp only [defines, Bool.and_eq_true, beq_iff_eq] at hdx
    obtain ⟨n', v, e1, e2⟩ := command_type_name (hc q (by simp [hq])) hdx.1.1
    rw [e2] at hdx
    have hn : n' = n := Option.some.inj hdx.2
    subst hn
    exact hpre q.1 (by rw [← hp1]; exact List.mem_map_of_mem hq) v e1
  rw [this, List.map_cons, hd]
  simp [defines]

/-- The commands of the line with the names written out. -/
theorem written_out {hp : Bool} {all : List (List CStr × Cmd)} (hall : ∀ p ∈ all, Command hp p.1 p.2) {L L' : List (List CStr)}
    (h : WrittenOut hp (all.map (·.1)) L L') : ∀ {l l' : List (List CStr × Cmd)}, l.map (·.1) = L → l'.map (·.1) = L' →
    (∀ p ∈ l, Command hp p.1 p.2) → (∀ p ∈ l', Command hp p.1 p.2) →
    (∀ p ∈ l, p.1.length ≤ 101) → (∀ p ∈ l', p.1.length ≤ 101) →
    (∀ p ∈ l, unresolved (all.map (·.2)) p.2 = false) ∧
    l'.map (·.2) = (((l.map (·.2)).map (resolve (all.map (·.2)))).filter (fun c => c.type != .name)).map unname := by
  induction h with
  | nil =>
    intro l l' e e' _ _ _ _
    rw [List.map_eq_nil_iff] at e e'
    subst e; subst e'
    simp
  | define n ws _ ih =>
    intro l l' e e' hc hc' hl hl'
    obtain ⟨p, l1, rfl, hp1, h1⟩ := List.map_eq_cons_iff.mp e
    obtain ⟨i1, i2⟩ := ih h1 e' (fun q hq => hc q (by simp [hq])) hc' (fun q hq => hl q (by simp [hq])) hl'
    have hcp := hc p (by simp)
    rw [hp1] at hcp
    obtain ⟨f, b, m, _, hd⟩ := command_define hcp
    constructor
    · intro q hq
      rcases List.mem_cons.mp hq with rfl | hq
      · rw [hd]; rfl
      · exact i1 q hq
    · rw [i2, List.map_cons, List.map_cons, hd, resolve_name_cmd rfl, List.filter_cons_of_neg (by simp)]
  | ref n ws hh hf _hw ih =>
    rename_i hd c L L'
    intro l l' e e' hc hc' hl hl'
    obtain ⟨p, l1, rfl, hp1, h1⟩ := List.map_eq_cons_iff.mp e
    obtain ⟨p', l1', rfl, hp1', h1'⟩ := List.map_eq_cons_iff.mp e'
    obtain ⟨i1, i2⟩ := ih h1 h1' (fun q hq => hc q (by simp [hq])) (fun q hq => hc' q (by simp [hq]))
      (fun q hq => hl q (by simp [hq])) (fun q hq => hl' q (by simp [hq]))
    obtain ⟨f, b, m, hw, hfind⟩ := find_first hall hf
    have hcp := hc p (by simp)
    have hlp := hl p (by simp)
    rw [hp1] at hcp hlp
    have ec : p.2 = { c with name := some n } := command_unique hcp (.ref n hh) hlp
    have hcp' := hc' p' (by simp)
    have hlp' := hl' p' (by simp)
    rw [hp1'] at hcp' hlp'
    have ec' : p'.2 = { c with frame := some f, buf := some b, mask := m } := command_unique hcp' (.frame hh hw) hlp'
    obtain ⟨g1, g2, g3⟩ := head_fresh hh
    have hr : refersTo p.2 = some n := by
      rw [ec]
      unfold refersTo
      rw [if_pos ⟨g3, g2⟩]
    have hres : resolve (all.map (·.2)) p.2 = { c with name := some n, frame := some f, buf := some b, mask := m } := by
      unfold resolve
      rw [hr]
      simp only [hfind]
      rw [ec]
    constructor
    · intro q hq
      rcases List.mem_cons.mp hq with rfl | hq
      · unfold unresolved
        rw [hr]
        simp only [Bool.not_eq_false']
        have := List.mem_of_find?_eq_some hfind
        rw [List.any_eq_true]
        exact ⟨_, this, by simp [defines]⟩
      · exact i1 q hq
    · rw [List.map_cons, i2, List.map_cons, List.map_cons, hres, List.filter_cons_of_pos (by simpa using g3), List.map_cons, ec']
      congr 1
      show _ = ({ c with name := none, frame := some f, buf := some b, mask := m } : Cmd)
      rw [← g1]
  | same hn hr _hw ih =>
    intro l l' e e' hc hc' hl hl'
    obtain ⟨p, l1, rfl, hp1, h1⟩ := List.map_eq_cons_iff.mp e
    obtain ⟨p', l1', rfl, hp1', h1'⟩ := List.map_eq_cons_iff.mp e'
    obtain ⟨i1, i2⟩ := ih h1 h1' (fun q hq => hc q (by simp [hq])) (fun q hq => hc' q (by simp [hq]))
      (fun q hq => hl q (by simp [hq])) (fun q hq => hl' q (by simp [hq]))
    have hcp := hc p (by simp)
    have hlp := hl p (by simp)
    rw [hp1] at hcp hlp
    have hcp' := hc' p' (by simp)
    rw [hp1'] at hcp'
    have ec : p'.2 = p.2 := command_unique hcp' hcp hlp
    have hfacts : p.2.name = none ∧ p.2.type ≠ .name := by
      generalize p.2 = d at hcp
      cases hcp with
      | define n hw => exact absurd rfl (hn _ _)
      | frame hh hw => exact ⟨(head_fresh hh).1, (head_fresh hh).2.2⟩
      | ref n hh => exact absurd rfl (hr _ _ _ hh)
      | listen ifc => simp
    have href : refersTo p.2 = none := by
      unfold refersTo
      split
      · exact hfacts.1
      · rfl
    constructor
    · intro q hq
      rcases List.mem_cons.mp hq with rfl | hq
      · unfold unresolved; rw [href]
      · exact i1 q hq
    · have hres : resolve (all.map (·.2)) p.2 = p.2 := by unfold resolve; rw [href]
      rw [List.map_cons, i2, List.map_cons, List.map_cons, hres, List.filter_cons_of_pos (by simpa using hfacts.2), List.map_cons, ec]
      congr 1
      unfold unname
      rw [← hfacts.1]

theorem inventory_none {cmds : List Cmd} (h : ∀ c ∈ cmds, c.type ≠ .name) : inventory cmds = [] := by
  induction cmds with
  | nil => rfl
  | cons c cs ih =>
    unfold inventory
    rw [if_neg (h c (by simp))]
    exact ih fun x hx => h x (by simp [hx])

theorem pairNames_settled {cmds : List Cmd} (h : ∀ c ∈ cmds, c.name = none) : pairNames cmds cmds = (cmds, []) := by
  have hr : ∀ c ∈ cmds, refersTo c = none := by
    intro c hc
    unfold refersTo
    split
    · exact h c hc
    · rfl
  rw [pairNames_eq]
  have e1 : cmds.map (resolve cmds) = cmds := by
    conv => rhs; rw [← List.map_id cmds]
    apply List.map_congr_left
    intro c hc
    unfold resolve
    rw [hr c hc]
    rfl
  have e2 : cmds.filter (unresolved cmds) = [] := by
    rw [List.filter_eq_nil_iff]
    intro c hc
    unfold unresolved
    rw [hr c hc]
    simp
  rw [e1, e2]
  rfl

theorem openAll_kind {o : CStr → Bool} {rs : List Resource} {es : List Event} {k : Bool} (h : openAll o rs = .ok (es, k)) :
    ∀ e ∈ es, isNamed e = false := by
  induction rs generalizing es k with
  | nil => simp only [openAll, Out.ok.injEq, Prod.mk.injEq] at h; rw [← h.1]; simp
  | cons r rs ih =>
    unfold openAll at h
    rw [Out.bind_eq_ok] at h
    obtain ⟨a, _, h⟩ := h
    split at h
    · rw [Out.bind_eq_ok] at h
      obtain ⟨⟨es', k'⟩, h1, h2⟩ := h
      simp only [Out.ok.injEq, Prod.mk.injEq] at h2
      rw [← h2.1]
      intro e he
      rcases List.mem_cons.mp he with rfl | he
      · rfl
      · exact ih h1 e he
    · simp only [Out.ok.injEq, Prod.mk.injEq] at h; rw [← h.1]; simp

theorem execResolved_kind {env : Env} {cmds : List Cmd} {r : ExecRes} (h : execResolved env cmds = .ok r) :
    ∀ e ∈ r.events, isNamed e = false := by
  unfold execResolved at h
  rw [Out.bind_eq_ok] at h; obtain ⟨ep, h1, h⟩ := h
  rw [Out.bind_eq_ok] at h; obtain ⟨eh, h2, h⟩ := h
  rw [Out.bind_eq_ok] at h; obtain ⟨rs, h3, h⟩ := h
  rw [Out.bind_eq_ok] at h; obtain ⟨⟨eo, k⟩, h4, h⟩ := h
  have k1 : ∀ e ∈ ep, isNamed e = false := by
    intro e he; obtain ⟨_, _, rfl⟩ := pcapAll_shape h1 e he; rfl
  have k2 : ∀ e ∈ eh, isNamed e = false := by
    intro e he; obtain ⟨_, _, rfl⟩ := hexEvents_shape h2 e he; rfl
  have k3 := openAll_kind h4
  simp only at h
  split at h
  · simp only [Out.ok.injEq] at h
    subst h
    intro e he
    simp only [List.mem_append] at he
    rcases he with (he | he) | he
    · exact k1 e he
    · exact k2 e he
    · exact k3 e he
  · rw [Out.bind_eq_ok] at h; obtain ⟨⟨st, rs', el⟩, h5, h⟩ := h
    have k4 : ∀ e ∈ el, isNamed e = false := by
      intro e he
      cases mainLoop_traffic h5 e he <;> rfl
    cases st with
    | finished =>
      simp only [Out.ok.injEq] at h
      subst h
      intro e he
      simp only [List.mem_append] at he
      rcases he with (((he | he) | he) | he) | he
      · exact k1 e he
      · exact k2 e he
      · exact k3 e he
      · exact k4 e he
      · obtain ⟨_, _, _, _, rfl⟩ := checkResults_kind rs' e he; rfl
    | _ =>
      simp only [Out.ok.injEq] at h
      subst h
      intro e he
      simp only [List.mem_append] at he
      rcases he with ((he | he) | he) | he
      · exact k1 e he
      · exact k2 e he
      · exact k3 e he
      · exact k4 e he

theorem filter_keep {p : Event → Bool} {l : List Event} (h : ∀ e ∈ l, p e = false) : l.filter (fun e => !p e) = l :=
  List.filter_eq_self.mpr fun e he => by simp [h e he]

/-- Writing out the names does not change a run. -/
theorem exec_written_out (env : Env) {l l' : List Cmd} (hu : ∀ c ∈ l, unresolved l c = false)
    (he : l' = ((l.map (resolve l)).filter (fun c => c.type != .name)).map unname) :
    execCmds env l' = (do let r ← execCmds env l
                          .ok { anonRes r with events := (r.events.filter (fun e => !isNamed e)).map anonymous }) := by
  have e1 : execCmds env l' = omap anonRes (execResolved env (l.map (resolve l))) := by
    unfold execCmds
    rw [pairNames_settled (by rw [he]; intro c hc; obtain ⟨d, _, rfl⟩ := List.mem_map.mp hc; rfl)]
    simp only [ne_eq, not_true_eq_false, if_false]
    rw [inventory_none (by
      rw [he]; intro c hc
      obtain ⟨d, hd, rfl⟩ := List.mem_map.mp hc
      have := (List.mem_filter.mp hd).2
      simpa [unname] using this)]
    rw [he, execResolved_unname, execResolved_filter]
    cases execResolved env (l.map (resolve l)) <;> rfl
  have hu0 : l.filter (unresolved l) = [] := by
    rw [List.filter_eq_nil_iff]
    intro c hc
    simp [hu c hc]
  have e2 : execCmds env l = (do let r ← execResolved env (l.map (resolve l)); .ok { r with events := inventory l ++ r.events }) := by
    unfold execCmds
    rw [pairNames_eq, hu0]
    rfl
  rw [e1, e2]
  cases h : execResolved env (l.map (resolve l)) with
  | ok r =>
    simp only [omap_ok, Out.ok_bind, anonRes]
    have k := execResolved_kind h
    have hinv : (inventory l).filter (fun e => !isNamed e) = [] := by
      rw [List.filter_eq_nil_iff]
      intro e he
      obtain ⟨_, _, _, rfl⟩ := inventory_shape l e he
      simp [isNamed]
    rw [List.filter_append, hinv, List.nil_append, filter_keep k]
  | _ => rfl

/-- **C103** (partial): a command line and the same line with the names written out — the definitions left out, every
reference to a name replaced by the words of the first definition of this name, wherever that is — do the same for
every behaviour of the operating system: the same frames are transmitted, captured and printed, the same received
frames accepted, rejected and missed at the same moments, the same result returned; also the waiting and the crashes
are the same. Only the lines about the named frames disappear and the names in the other lines. The line written out
must still be one that is read as these commands (see C52), in particular a frame that ends with payload segments may
not be followed by `hex`. -/
theorem C103_names_partial (w : World) (ms : Int) (caps : List CStr) (l l' : List (List CStr × Cmd))
    (hc : ∀ p ∈ l, Command w.env.cfg.hasPcap p.1 p.2) (hc' : ∀ p ∈ l', Command w.env.cfg.hasPcap p.1 p.2)
    (hl : (allWords l).length ≤ 101) (hl' : (allWords l').length ≤ 101) (hs : Separated w.env.cfg.hasPcap l)
    (hs' : Separated w.env.cfg.hasPcap l')
    (hw : WrittenOut w.env.cfg.hasPcap (l.map (·.1)) (l.map (·.1)) (l'.map (·.1))) :
    argcCmds w ms caps (allWords l') = (do let r ← argcCmds w ms caps (allWords l); .ok (hideNames r)) := by
  have hlen : ∀ l : List (List CStr × Cmd), ∀ p ∈ l, p.1.length ≤ (allWords l).length := by
    intro l
    induction l with
    | nil => simp
    | cons q l ih =>
      intro p hp
      have e : allWords (q :: l) = q.1 ++ allWords l := rfl
      rw [e, List.length_append]
      rcases List.mem_cons.mp hp with rfl | hp
      · omega
      · have := ih p hp; omega
  obtain ⟨hu, he⟩ := written_out hc hw rfl rfl hc hc' (fun p hp => Nat.le_trans (hlen l p hp) hl)
    (fun p hp => Nat.le_trans (hlen l' p hp) hl')
  have hu' : ∀ c ∈ l.map (·.2), unresolved (l.map (·.2)) c = false := by
    intro c hc
    obtain ⟨p, hp, rfl⟩ := List.mem_map.mp hc
    exact hu p hp
  unfold argcCmds
  rw [C52_commands_partial _ l hc hs hl, C52_commands_partial _ l' hc' hs' hl']
  simp only [Out.ok_bind]
  rw [exec_written_out _ hu' he]
  cases execCmds { w.env with timeoutMs := ms } (l.map (·.2)) <;> rfl

/-- The line with the names written out exists as soon as all names used are defined. -/
theorem C103_exists (hp : Bool) {l : List (List CStr × Cmd)} (hc : ∀ p ∈ l, Command hp p.1 p.2)
    (hu : ∀ p ∈ l, ∀ hd c n, Head hp hd c → p.1 = hd ++ [c!"name", n] → ∃ ws, (c!"name" :: n :: ws) ∈ l.map (·.1)) :
    ∃ l' : List (List CStr × Cmd), (∀ p ∈ l', Command hp p.1 p.2) ∧ WrittenOut hp (l.map (·.1)) (l.map (·.1)) (l'.map (·.1)) := by
  have first : ∀ (n : CStr) (L : List (List CStr)), (∃ ws, (c!"name" :: n :: ws) ∈ L) → ∃ ws, FirstDefinition n ws L := by
    intro n L
    induction L with
    | nil => rintro ⟨ws, h⟩; simp at h
    | cons x L ih =>
      rintro ⟨ws, h⟩
      by_cases hx : ∃ v, x = c!"name" :: n :: v
      · obtain ⟨v, rfl⟩ := hx
        exact ⟨v, [], L, rfl, by simp⟩
      · rcases List.mem_cons.mp h with rfl | h
        · exact absurd ⟨ws, rfl⟩ hx
        · obtain ⟨v, pre, post, rfl, hpre⟩ := ih ⟨ws, h⟩
          refine ⟨v, x :: pre, post, rfl, ?_⟩
          intro y hy v' e
          rcases List.mem_cons.mp hy with rfl | hy
          · exact hx ⟨v', e⟩
          · exact hpre y hy v' e
  have key : ∀ l1 : List (List CStr × Cmd), (∀ p ∈ l1, p ∈ l) →
      ∃ l' : List (List CStr × Cmd), (∀ p ∈ l', Command hp p.1 p.2) ∧ WrittenOut hp (l.map (·.1)) (l1.map (·.1)) (l'.map (·.1)) := by
    intro l1
    induction l1 with
    | nil => intro _; exact ⟨[], by simp, .nil⟩
    | cons p l1 ih =>
      intro hsub
      obtain ⟨l', h1, h2⟩ := ih fun q hq => hsub q (by simp [hq])
      have hp1 := hsub p (by simp)
      have hcp := hc p hp1
      by_cases hr : ∃ hd c n, Head hp hd c ∧ p.1 = hd ++ [c!"name", n]
      · obtain ⟨hd, c, n, hh, e⟩ := hr
        obtain ⟨ws, hf⟩ := first n _ (hu p hp1 hd c n hh e)
        obtain ⟨f, b, m, hw, _⟩ := find_first hc hf
        refine ⟨(hd ++ ws, { c with frame := some f, buf := some b, mask := m }) :: l', ?_, ?_⟩
        · intro q hq
          rcases List.mem_cons.mp hq with rfl | hq
          · exact .frame hh hw
          · exact h1 q hq
        · rw [List.map_cons, List.map_cons, e]
          exact .ref n ws hh hf h2
      · by_cases hn : ∃ n ws, p.1 = c!"name" :: n :: ws
        · obtain ⟨n, ws, e⟩ := hn
          refine ⟨l', h1, ?_⟩
          rw [List.map_cons, e]
          exact .define n ws h2
        · refine ⟨p :: l', ?_, ?_⟩
          · intro q hq
            rcases List.mem_cons.mp hq with rfl | hq
            · exact hcp
            · exact h1 q hq
          · exact .same (fun n ws e => hn ⟨n, ws, e⟩) (fun hd c n hh e => hr ⟨hd, c, n, hh, e⟩) h2
  exact key l fun _ h => h

/-- C103 is false as claimed: in `tx a name p hex eth` the name cannot be replaced by `data ascii x`, because `hex eth`
would be taken as a payload segment. -/
theorem C103_false : ¬ C103_statement := by
  intro h
  obtain ⟨f, b, hw⟩ := frameWords_of (ws := [c!"data", c!"ascii", c!"x"]) (by decide +kernel)
  obtain ⟨g, d, hx⟩ := frameWords_of (ws := [c!"eth"]) (by decide +kernel)
  let c1 : Cmd := { type := .name, name := some c!"p", frame := some f, buf := some b, mask := none }
  let c2 : Cmd := { type := .tx, arg0 := some c!"a", rep := 1, name := some c!"p" }
  let c2' : Cmd := { type := .tx, arg0 := some c!"a", rep := 1, frame := some f, buf := some b, mask := none }
  let c3 : Cmd := { type := .hex, frame := some g, buf := some d, mask := none }
  have hd1 : Head true [c!"tx", c!"a"] { type := .tx, arg0 := some c!"a", rep := 1 } := .tx c!"a"
  have hd2 : Head true [c!"hex"] { type := .hex } := .hex
  have hc3 : Command true [c!"hex", c!"eth"] c3 := .frame hd2 hx
  have hcfg : (cable []).env.cfg.hasPcap = true := by decide +kernel
  have := h (cable []) 100 []
    [([c!"name", c!"p", c!"data", c!"ascii", c!"x"], c1), ([c!"tx", c!"a", c!"name", c!"p"], c2), ([c!"hex", c!"eth"], c3)]
    [([c!"tx", c!"a", c!"data", c!"ascii", c!"x"], c2'), ([c!"hex", c!"eth"], c3)]
    (by
      rw [hcfg]
      intro p hp
      simp only [List.mem_cons, List.not_mem_nil, or_false] at hp
      rcases hp with rfl | rfl | rfl
      · exact .define c!"p" hw
      · exact .ref c!"p" hd1
      · exact hc3)
    (by
      rw [hcfg]
      intro p hp
      simp only [List.mem_cons, List.not_mem_nil, or_false] at hp
      rcases hp with rfl | rfl
      · exact .frame hd1 hw
      · exact hc3)
    (by simp [allWords]) (by simp [allWords])
    (by
      rw [hcfg]
      refine ⟨fun w e => ?_, fun w e => ?_, trivial⟩
      · simp only [List.head?_cons, Option.some.injEq] at e
        subst e
        refine ⟨fun _ => by decide, ?_⟩
        rintro ⟨ifc, e⟩
        simp at e
      · simp only [List.head?_cons, Option.some.injEq] at e
        subst e
        refine ⟨?_, fun _ => by decide⟩
        rintro ⟨hd, fw, f', h', e, hhd, hfw, _⟩
        exfalso
        rcases hhd with ⟨c, hhd⟩ | ⟨n, rfl⟩
        · cases hhd with
          | tx ifc =>
            simp only [List.cons_append, List.nil_append, List.cons.injEq] at e
            obtain ⟨_, _, rfl⟩ := e
            have : (match argcFrame [c!"name", c!"p"] with
              | .ok (some (k, _)) => k == 2
              | _ => false) = false := by decide +kernel
            rw [hfw] at this
            simp at this
          | txRep ifc w' k hw' =>
            simp only [List.cons_append, List.nil_append, List.cons.injEq] at e
            obtain ⟨_, _, e3, _⟩ := e
            rcases hw' with rfl | rfl <;> revert e3 <;> decide
          | _ => simp at e
        · simp at e)
    (by
      rw [hcfg]
      refine .define c!"p" [c!"data", c!"ascii", c!"x"] (.ref (hd := [c!"tx", c!"a"]) c!"p" [c!"data", c!"ascii", c!"x"] hd1
        ⟨[], _, rfl, by simp⟩ (.same ?_ ?_ .nil))
      · intro n ws e; revert e; simp
      · intro hd c n hh e
        cases hh <;> simp at e)
  have e1 : argcCmds (cable []) 100 [] [c!"tx", c!"a", c!"data", c!"ascii", c!"x", c!"hex", c!"eth"] = .ok { ret := some (-1) } := by
    decide +kernel
  have e2 : (match argcCmds (cable []) 100 [] [c!"name", c!"p", c!"data", c!"ascii", c!"x", c!"tx", c!"a", c!"name", c!"p", c!"hex", c!"eth"] with
    | .ok r => decide (r.ret = some (-1))
    | _ => true) = false := by decide +kernel
  have this' : argcCmds (cable []) 100 [] [c!"tx", c!"a", c!"data", c!"ascii", c!"x", c!"hex", c!"eth"] =
    (do let r ← argcCmds (cable []) 100 [] [c!"name", c!"p", c!"data", c!"ascii", c!"x", c!"tx", c!"a", c!"name", c!"p", c!"hex", c!"eth"]
        .ok (hideNames r)) := this
  rw [e1] at this'
  generalize argcCmds (cable []) 100 [] [c!"name", c!"p", c!"data", c!"ascii", c!"x", c!"tx", c!"a", c!"name", c!"p", c!"hex", c!"eth"] = X at this' e2
  cases X with
  | ok r =>
    simp only [Out.ok_bind, Out.ok.injEq] at this'
    have hr : (hideNames r).ret = some (-1) := by rw [← this']
    simp only [decide_eq_false_iff_not] at e2
    exact e2 hr
  | _ => simp at this'

/-- Non-vacuity: the definition may follow its use; `tx a name f rx b name f name f eth` and `tx a eth rx b eth` on a
cable. -/
example : let r := toolResult (cable ethBytes) [c!"tx", c!"a", c!"name", c!"f", c!"rx", c!"b", c!"name", c!"f", c!"name", c!"f", c!"eth"]
    let r' := toolResult (cable ethBytes) [c!"tx", c!"a", c!"eth", c!"rx", c!"b", c!"eth"]
    r' = hideNames r ∧ r.ret = some 0 ∧ r.events.length = r'.events.length + 1 ∧
    r.events.filterMap (sentOn c!"a") = [ethBytes] := by
  decide +kernel

example : WrittenOut true [[c!"tx", c!"a", c!"name", c!"f"], [c!"rx", c!"b"], [c!"name", c!"f", c!"eth"]]
    [[c!"tx", c!"a", c!"name", c!"f"], [c!"rx", c!"b"], [c!"name", c!"f", c!"eth"]] [[c!"tx", c!"a", c!"eth"], [c!"rx", c!"b"]] := by
  refine .ref (hd := [c!"tx", c!"a"]) c!"f" [c!"eth"] (.tx c!"a") ⟨[[c!"tx", c!"a", c!"name", c!"f"], [c!"rx", c!"b"]], [], rfl, ?_⟩
    (.same ?_ ?_ (.define c!"f" [c!"eth"] .nil))
  · intro x hx v
    simp only [List.mem_cons, List.not_mem_nil, or_false] at hx
    rcases hx with rfl | rfl <;> simp
  · intro n ws e; revert e; simp
  · intro hd c n hh e
    cases hh <;> simp at e

end Ef.Props
