import Verif.Lemmas.AddRx

/-!
# One more expectation behind the others (C105)
-/

namespace Ef.Props

open Ef Ef.Spec

theorem pcapEvents_rx {w : Cmd} (hw : w.type = .rx) : ∀ ds : List Cmd, pcapEvents (ds ++ [w]) = pcapEvents ds := by
  intro ds
  induction ds with
  | nil => simp [pcapEvents, hw]
  | cons d ds ih => simp only [List.cons_append, pcapEvents, ih]

theorem hexEvents_rx {w : Cmd} (hw : w.type = .rx) : ∀ ds : List Cmd, hexEvents (ds ++ [w]) = hexEvents ds := by
  intro ds
  induction ds with
  | nil => simp [hexEvents, hw]
  | cons d ds ih => simp only [List.cons_append, hexEvents, ih]

theorem inventory_rx {w : Cmd} (hw : w.type = .rx) : ∀ ds : List Cmd, inventory (ds ++ [w]) = inventory ds := by
  intro ds
  induction ds with
  | nil => simp [inventory, hw]
  | cons d ds ih => simp only [List.cons_append, inventory, ih]

/-- A command that is no definition has no influence on the meaning of the names. -/
theorem resolve_rx {w : Cmd} (hw : w.type = .rx) (ds : List Cmd) : resolve (ds ++ [w]) = resolve ds := by
  funext x
  unfold resolve
  have : ∀ n, (ds ++ [w]).find? (defines n) = ds.find? (defines n) := by
    intro n
    have hd : defines n w = false := by simp [defines, hw]
    rw [List.find?_append]
    simp [hd]
  split
  · rw [this]
  · rfl

theorem unresolved_rx {w : Cmd} (hw : w.type = .rx) (ds : List Cmd) : unresolved (ds ++ [w]) = unresolved ds := by
  funext x
  unfold unresolved
  split
  · rename_i n _
    have hd : defines n w = false := by simp [defines, hw]
    simp [hd]
  · rfl

/-- The interfaces are the same. -/
theorem ifaces_rx {w : Cmd} {a : CStr} {ds : List Cmd} (hw : ioIface w = some a) (ha : a ∈ ifaces ds) :
    ifaces (ds ++ [w]) = ifaces ds := by
  unfold ifaces at ha ⊢
  rw [List.filterMap_append]
  have : List.filterMap ioIface [w] = [a] := by simp [hw]
  rw [this, firsts_snoc, if_pos ((firsts_mem _ _).mp ha)]

/-- The sockets at the beginning. -/
theorem group_rel {w : Cmd} {a : CStr} {ds : List Cmd} (hw : w.type = .rx) (hwa : w.arg0 = some a) (hd : w.done = false)
    (hrx : ∃ x ∈ ds, x.type = .rx ∧ x.arg0 = some a) : RelL w a false (group ds) (group (ds ++ [w])) := by
  have hio : ioIface w = some a := by unfold ioIface; rw [if_pos (.inl hw), hwa]
  have hmem : a ∈ ifaces ds := by
    obtain ⟨x, hx, ht, hxa⟩ := hrx
    exact (ifaces_mem _ _).mpr ⟨x, hx, by unfold ioIface; rw [if_pos (.inl ht), hxa]⟩
  have hon : ∀ x, cmdsOn x (ds ++ [w]) = cmdsOn x ds ++ (if x = a then [w] else []) := by
    intro x
    unfold cmdsOn
    rw [List.filter_append]
    congr 1
    by_cases hx : x = a
    · simp [hio, hx]
    · have : (a == x) = false := by simpa using fun h : a = x => hx h.symm
      simp [hio, hx, this]
  unfold group
  rw [ifaces_rx hio hmem]
  have key : ∀ as : List CStr, as.Nodup → (∀ x ∈ as, x ∈ ifaces ds) → a ∈ as →
      RelL w a false (as.map fun x => { cmds := cmdsOn x ds }) (as.map fun x => { cmds := cmdsOn x (ds ++ [w]) }) := by
    intro as
    induction as with
    | nil => intro _ _ h; simp at h
    | cons x as ih =>
      intro hnd hsub h
      rw [List.nodup_cons] at hnd
      have hnm : Named x { cmds := cmdsOn x ds } := cmdsOn_named (hsub x List.mem_cons_self)
      simp only [List.map_cons]
      by_cases hx : x = a
      · subst hx
        refine .inl ⟨⟨?_, rfl, hnm, ?_⟩, ?_, ?_⟩
        · simp only [hon, if_true]
          rw [show ({ w with done := false } : Cmd) = w by cases w; simp_all]
        · unfold hasRx
          rw [List.any_eq_true]
          obtain ⟨y, hy, ht, hya⟩ := hrx
          refine ⟨y, ?_, by simp [ht]⟩
          simp only [cmdsOn, List.mem_filter]
          exact ⟨hy, by unfold ioIface; rw [if_pos (.inl ht), hya]; simp⟩
        · apply List.map_congr_left
          intro y hy
          have : y ≠ x := fun h => hnd.1 (h ▸ hy)
          rw [hon, if_neg this, List.append_nil]
        · intro s hs
          obtain ⟨y, hy, rfl⟩ := List.mem_map.mp hs
          have : y ≠ x := fun h => hnd.1 (h ▸ hy)
          exact ⟨y, this, cmdsOn_named (hsub y (List.mem_cons_of_mem _ hy))⟩
      · refine .inr ⟨⟨x, hx, hnm⟩, by rw [hon, if_neg hx, List.append_nil], ih hnd.2 (fun y hy => hsub y (List.mem_cons_of_mem _ hy)) ?_⟩
        rcases List.mem_cons.mp h with h | h
        · exact (hx h.symm).elim
        · exact h
  exact key _ (ifaces_nodup _) (fun _ h => h) hmem

/-! ## C105 -/

/-- Two runs with the same environment: the commands `cmds` listen on interface `a`, and the second run has the
additional expectation `c` on `a` behind all other commands. -/
structure OneMore (env : Env) (cmds : List Cmd) (c : Cmd) (a : CStr) (r r' : ExecRes) : Prop where
  ready : Ready (cmds ++ [c])
  known : ∀ x ∈ cmds ++ [c], unresolved (cmds ++ [c]) x = false
  opens : ∀ x ∈ ifaces cmds, env.canOpen x = true
  listens : ∃ x ∈ cmds, x.type = .rx ∧ x.arg0 = some a
  type : c.type = .rx
  iface : c.arg0 = some a
  expects : (resolve cmds c).buf.isSome
  run : execCmds env cmds = .ok r
  run' : execCmds env (cmds ++ [c]) = .ok r'

/-- **C105**: an additional expectation behind the others takes no frame away from them. It gets the first of the
frames that were reported as unexpected and that it wants: then the only difference between the two runs is the
report about this frame, and there is one error less. If there is no such frame, the only difference is that the
additional expectation is reported missing, and there is one error more. -/
theorem C105_one_more (env : Env) (cmds : List Cmd) (c : Cmd) (a : CStr) (r r' : ExecRes)
    (h : OneMore env cmds c a r r') :
    r'.status = r.status ∧
    ((∃ pre b post, r.events = pre ++ .rxErr a b :: post ∧
        r'.events = pre ++ .rxOk a b c.name (resolve cmds c).mask :: post ∧ Wants (resolve cmds c) b ∧
        (∀ b', Event.rxErr a b' ∈ pre → ¬ Wants (resolve cmds c) b') ∧
        r.ret = r'.ret.map (· + 1)) ∨
      ((∀ b, Event.rxErr a b ∈ r.events → ¬ Wants (resolve cmds c) b) ∧ r'.ret = r.ret.map (· + 1) ∧
        ∃ pre post, r.events = pre ++ post ∧
          r'.events = pre ++ (if r.status = .finished then [noRxReport a (resolve cmds c)] else []) ++ post)) := by
  have hres := resolve_rx h.type cmds
  have hunr := unresolved_rx h.type cmds
  obtain ⟨r0, h0, rfl⟩ := execCmds_ok (fun x hx => by rw [← hunr]; exact h.known x (List.mem_append_left _ hx)) h.run
  obtain ⟨r0', h0', rfl⟩ := execCmds_ok h.known h.run'
  have hname : (resolve cmds c).name = c.name := by
    unfold resolve
    split
    · split <;> rfl
    · rfl
  rw [← hname]
  rw [hres, List.map_append, List.map_cons, List.map_nil] at h0'
  rw [inventory_rx h.type]
  have hwt : (resolve cmds c).type = .rx := by rw [resolve_type]; exact h.type
  have hwa : (resolve cmds c).arg0 = some a := by rw [resolve_arg0]; exact h.iface
  have hwd : (resolve cmds c).done = false := by
    rw [resolve_done]; exact h.ready.fresh c (List.mem_append_right _ List.mem_cons_self)
  have hwb := h.expects
  have hready : Ready cmds := by
    refine ⟨fun x hx => h.ready.fresh x (List.mem_append_left _ hx), fun x hx => h.ready.iface x (List.mem_append_left _ hx), ?_⟩
    have := ifaces_prefix_length cmds [c]
    have := h.ready.slots
    omega
  have hlist : ∃ x ∈ cmds.map (resolve cmds), x.type = .rx ∧ x.arg0 = some a := by
    obtain ⟨x, hx, ht, hxa⟩ := h.listens
    exact ⟨_, List.mem_map_of_mem hx, by rw [resolve_type]; exact ht, by rw [resolve_arg0]; exact hxa⟩
  have hR := hready.resolve cmds
  have hopen : ∀ x ∈ ifaces (cmds.map (resolve cmds)), env.canOpen x = true := by rw [ifaces_resolve]; exact h.opens
  generalize resolve cmds c = w at *
  generalize cmds.map (resolve cmds) = ds at *
  have hio : ioIface w = some a := by unfold ioIface; rw [if_pos (.inl hwt), hwa]
  have hmem : a ∈ ifaces ds := by
    obtain ⟨x, hx, ht, hxa⟩ := hlist
    exact (ifaces_mem _ _).mpr ⟨x, hx, by unfold ioIface; rw [if_pos (.inl ht), hxa]⟩
  have hrel := group_rel hwt hwa hwd hlist
  -- both runs
  have hm := mapCmds_group [] ds hR.iface (by simpa using hR.slots)
  have hm' := mapCmds_group [] (ds ++ [w]) (by
      intro x hx
      rcases List.mem_append.mp hx with hx | hx
      · exact hR.iface x hx
      · simp only [List.mem_singleton] at hx
        subst hx
        intro _
        rw [hwa]
        rfl) (by
      rw [List.nil_append, ifaces_rx hio hmem]
      exact hR.slots)
  rw [show group [] = [] from rfl, List.nil_append] at hm hm'
  have hall : (ifaces ds).all env.canOpen = true := by rw [List.all_eq_true]; exact hopen
  have hall' : (ifaces (ds ++ [w])).all env.canOpen = true := by rw [ifaces_rx hio hmem]; exact hall
  unfold execResolved at h0 h0'
  have hpc : pcapAll env.cfg (ds ++ [w]) = pcapAll env.cfg ds := by unfold pcapAll; rw [pcapEvents_rx hwt]
  rw [hpc, hexEvents_rx hwt, hm'] at h0'
  rw [hm] at h0
  simp only [Out.bind_eq_ok] at h0 h0'
  obtain ⟨ep, hep, eh, heh, rs, hrs, ⟨eo, ok⟩, ho, h0⟩ := h0
  obtain ⟨ep', hep', eh', heh', rs', hrs', ⟨eo', ok'⟩, ho', h0'⟩ := h0'
  rw [hep] at hep'
  rw [heh] at heh'
  simp only [Out.ok.injEq] at hep' heh' hrs hrs'
  subst hep' heh' hrs hrs'
  rw [openAll_eq _ (group_named ds)] at ho
  rw [openAll_eq _ (group_named (ds ++ [w])), ifaces_rx hio hmem] at ho'
  simp only [Out.ok.injEq, Prod.mk.injEq] at ho ho'
  obtain ⟨rfl, rfl⟩ := ho
  obtain ⟨rfl, rfl⟩ := ho'
  simp only [hall, not_true_eq_false, ↓reduceIte, Out.bind_eq_ok] at h0 h0'
  obtain ⟨⟨st, rs1, el⟩, hml, h0⟩ := h0
  obtain ⟨⟨st', rs1', el'⟩, hml', h0'⟩ := h0'
  obtain ⟨rfl, q, hq, hs⟩ := mainLoop_rel hwt hwa hrel hml hml'
  have hpre : Swap w a false (inventory cmds ++ (ep ++ eh ++ ((ifaces ds).takeWhile env.canOpen).map Event.opened))
      (inventory cmds ++ (ep ++ eh ++ ((ifaces ds).takeWhile env.canOpen).map Event.opened)) false := by
    refine .quiet (fun b hb => ?_)
    have hqt : ∀ e ∈ inventory cmds ++ (ep ++ eh ++ ((ifaces ds).takeWhile env.canOpen).map Event.opened), quiet e := by
      intro e he
      simp only [List.mem_append] at he
      rcases he with he | (he | he) | he
      · exact inventory_quiet _ e he
      · unfold pcapAll at hep
        split at hep
        · exact pcapEvents_quiet hep e he
        · simp only [Out.ok.injEq] at hep; subst hep; simp at he
      · exact hexEvents_quiet heh e he
      · exact opened_quiet _ e he
    have := hqt _ hb
    simp [quiet, ifaceOf] at this
  have hs2 := hpre.append hs
  generalize hpe : inventory cmds ++ (ep ++ eh ++ ((ifaces ds).takeWhile env.canOpen).map Event.opened) = pe at hs2
  have fin : ∀ {st0 : LoopEnd} {ret ret' : Option Int} {E E' : List Event},
      (st0 = .finished → E = pe ++ el ++ (checkResults rs1).2 ∧ ret = some ((checkResults rs1).1 : Int) ∧
        E' = pe ++ el' ++ (checkResults rs1').2 ∧ ret' = some ((checkResults rs1').1 : Int)) →
      (st0 ≠ .finished → E = pe ++ el ∧ ret = none ∧ E' = pe ++ el' ∧ ret' = none) →
      ((∃ pre b post, E = pre ++ .rxErr a b :: post ∧ E' = pre ++ .rxOk a b w.name w.mask :: post ∧ Wants w b ∧
          (∀ b', Event.rxErr a b' ∈ pre → ¬ Wants w b') ∧ ret = ret'.map (· + 1)) ∨
        ((∀ b, Event.rxErr a b ∈ E → ¬ Wants w b) ∧ ret' = ret.map (· + 1) ∧
          ∃ pre post, E = pre ++ post ∧
            E' = pre ++ (if st0 = .finished then [noRxReport a w] else []) ++ post)) := by
    intro st0 ret ret' E E' hf hn
    rcases checkResults_rel hwt hwa hwb hq with ⟨rfl, h1, h2⟩ | ⟨rfl, h1, p1, p2, h2, h3⟩
    · left
      rcases hs2 with ⟨h4, _⟩ | ⟨_, _, pre, b, post, e1, e2, hw, hp⟩
      · simp at h4
      · by_cases hst : st0 = .finished
        · obtain ⟨f1, f2, f3, f4⟩ := hf hst
          refine ⟨pre, b, post ++ (checkResults rs1).2, by rw [f1, e1]; simp, by rw [f3, e2, h2]; simp, hw, hp, ?_⟩
          rw [f2, f4, h1]
          simp
        · obtain ⟨f1, f2, f3, f4⟩ := hn hst
          exact ⟨pre, b, post, by rw [f1, e1], by rw [f3, e2], hw, hp, by rw [f2, f4]; rfl⟩
    · right
      rcases hs2 with ⟨_, e1, hno⟩ | ⟨_, h4, _⟩
      · by_cases hst : st0 = .finished
        · obtain ⟨f1, f2, f3, f4⟩ := hf hst
          refine ⟨?_, by rw [f2, f4, h1]; simp, pe ++ el ++ p1, p2, by rw [f1, h2]; simp, by
            rw [f3, h3, e1, if_pos hst]; simp⟩
          intro b hb
          rw [f1, List.mem_append] at hb
          rcases hb with hb | hb
          · exact hno rfl b hb
          · exfalso
            rw [checkResults_eq] at hb
            simp only [List.mem_flatMap] at hb
            obtain ⟨q, -, x, -, hx⟩ := hb
            unfold noRxEvent at hx
            split at hx <;> simp at hx
        · obtain ⟨f1, f2, f3, f4⟩ := hn hst
          exact ⟨by rw [f1]; exact hno rfl, by rw [f2, f4]; rfl, pe ++ el, [], by rw [f1]; simp, by
            rw [f3, e1, if_neg hst]; simp⟩
      · simp at h4
  cases st' with
  | finished =>
    simp only [Out.ok.injEq] at h0 h0'
    subst h0 h0'
    exact ⟨rfl, fin (st0 := .finished) (fun _ => ⟨by rw [← hpe]; simp, rfl, by rw [← hpe]; simp, rfl⟩) (fun h => (h rfl).elim)⟩
  | waiting =>
    simp only [Out.ok.injEq] at h0 h0'
    subst h0 h0'
    exact ⟨rfl, fin (st0 := .waiting) (fun h => LoopEnd.noConfusion h) (fun _ => ⟨by rw [← hpe]; simp, rfl, by rw [← hpe]; simp, rfl⟩)⟩
  | sending =>
    simp only [Out.ok.injEq] at h0 h0'
    subst h0 h0'
    exact ⟨rfl, fin (st0 := .sending) (fun h => LoopEnd.noConfusion h) (fun _ => ⟨by rw [← hpe]; simp, rfl, by rw [← hpe]; simp, rfl⟩)⟩

/-- Non-vacuity: an expectation that also wants the frames of the one before it, with a frame for it and without. -/
example : let any := expect [0#8] (some [0#8])
    let with1 := listening [[1#8], [7#8]]
    let with0 := listening [[1#8]]
    OneMore with1 [expect [1#8] none] any c!"e" (result with1 [expect [1#8] none]) (result with1 [expect [1#8] none, any]) ∧
    OneMore with0 [expect [1#8] none] any c!"e" (result with0 [expect [1#8] none]) (result with0 [expect [1#8] none, any]) ∧
    (result with1 [expect [1#8] none]).ret = some 1 ∧ (result with1 [expect [1#8] none, any]).ret = some 0 ∧
    (result with0 [expect [1#8] none]).ret = some 0 ∧ (result with0 [expect [1#8] none, any]).ret = some 1 := by
  refine ⟨⟨⟨by unfold Fresh; decide +kernel, by unfold HasIface; decide +kernel, by decide +kernel⟩, by decide +kernel,
      fun _ _ => rfl, by decide +kernel, rfl, rfl, by decide +kernel, result_ok (by decide +kernel), result_ok (by decide +kernel)⟩,
    ⟨⟨by unfold Fresh; decide +kernel, by unfold HasIface; decide +kernel, by decide +kernel⟩, by decide +kernel,
      fun _ _ => rfl, by decide +kernel, rfl, rfl, by decide +kernel, result_ok (by decide +kernel), result_ok (by decide +kernel)⟩,
    by decide +kernel, by decide +kernel, by decide +kernel, by decide +kernel⟩

end Ef.Props
