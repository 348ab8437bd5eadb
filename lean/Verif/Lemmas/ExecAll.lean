import Verif.Lemmas.ExecGroup

/-!
# A whole run
-/

namespace Ef

open Spec

attribute [local irreducible] txOne

/-! ## Counting errors -/

/-- Number of error events. -/
def errors (es : List Event) : Nat := es.countP isError

@[simp] theorem errors_append (a b : List Event) : errors (a ++ b) = errors a + errors b := by simp [errors]

theorem rxResource_err {cfg s i r r' e} (h : rxResource cfg s i r = .ok (r', e)) :
    r'.rxErrCnt = r.rxErrCnt + errors e := by
  unfold rxResource at h
  split at h
  · split at h
    · simp only [Out.ok.injEq, Prod.mk.injEq] at h
      obtain ⟨rfl, rfl⟩ := h; rfl
    · unfold rxFrame at h
      simp only at h
      split at h
      · simp only [Out.ok.injEq, Prod.mk.injEq] at h
        obtain ⟨rfl, rfl⟩ := h; rfl
      · simp only [Out.bind_eq_ok] at h
        obtain ⟨b, _, o, _, h⟩ := h
        split at h
        · split at h
          · simp only [Out.ok.injEq, Prod.mk.injEq] at h
            obtain ⟨rfl, rfl⟩ := h; rfl
          · simp at h
        · simp only [Out.bind_eq_ok, Out.ok.injEq, Prod.mk.injEq] at h
          obtain ⟨a, _, rfl, rfl⟩ := h; rfl
  · simp only [Out.ok.injEq, Prod.mk.injEq] at h
    obtain ⟨rfl, rfl⟩ := h; rfl

theorem rxAll_err {cfg s i rs rs' es} (h : rxAll cfg s i rs = .ok (rs', es)) :
    errSum rs' = errSum rs + errors es := by
  induction rs generalizing i rs' es with
  | nil =>
    simp only [rxAll, Out.ok.injEq, Prod.mk.injEq] at h
    obtain ⟨rfl, rfl⟩ := h; rfl
  | cons r rs ih =>
    simp only [rxAll, Out.bind_eq_ok] at h
    obtain ⟨⟨r1, e1⟩, h1, ⟨rs2, es2⟩, h2, h⟩ := h
    simp only [Out.ok.injEq, Prod.mk.injEq] at h
    obtain ⟨rfl, rfl⟩ := h
    have := ih h2
    have := rxResource_err h1
    simp only [errSum, List.map_cons, List.sum_cons, errors_append] at *
    omega

theorem txOneQ_noerr (c : Cmd) (b a res q) : errors (txOneQ c b a res q).2.1 = 0 := by
  unfold txOneQ
  split <;> rfl

theorem txRound_err {w send i k rs rs' k' es more} (h : txRound w send i k rs = .ok (rs', k', es, more)) :
    errSum rs' = errSum rs ∧ errors es = 0 := by
  induction rs generalizing i k rs' k' es more with
  | nil =>
    simp only [txRound, Out.ok.injEq, Prod.mk.injEq] at h
    obtain ⟨rfl, _, rfl, _⟩ := h; exact ⟨rfl, rfl⟩
  | cons r rs ih =>
    rw [txRound] at h
    split at h
    · rw [Out.bind_eq_ok] at h
      obtain ⟨o, ho, h⟩ := h
      rcases txFirst_ok ho with ⟨rfl, _⟩ | ⟨j, c, b, a', rfl, hj, hp, hlow, hb, ha⟩
      · simp only [Out.bind_eq_ok] at h
        obtain ⟨⟨rs2, k2, es2, m2⟩, h2, h⟩ := h
        simp only [Out.ok.injEq, Prod.mk.injEq] at h
        obtain ⟨rfl, _, rfl, _⟩ := h
        obtain ⟨i1, i2⟩ := ih h2
        exact ⟨by simp only [errSum, List.map_cons, List.sum_cons] at *; omega, i2⟩
      · simp only [Out.bind_eq_ok] at h
        obtain ⟨⟨rs2, k2, es2, m2⟩, h2, h⟩ := h
        simp only [Out.ok.injEq, Prod.mk.injEq] at h
        obtain ⟨rfl, _, rfl, _⟩ := h
        obtain ⟨i1, i2⟩ := ih h2
        refine ⟨by simp only [errSum, List.map_cons, List.sum_cons] at *; omega, ?_⟩
        rw [errors_append, i2, txOne_eq, txOneQ_noerr]
    · simp only [Out.bind_eq_ok] at h
      obtain ⟨⟨rs2, k2, es2, m2⟩, h2, h⟩ := h
      simp only [Out.ok.injEq, Prod.mk.injEq] at h
      obtain ⟨rfl, _, rfl, _⟩ := h
      obtain ⟨i1, i2⟩ := ih h2
      exact ⟨by simp only [errSum, List.map_cons, List.sum_cons] at *; omega, i2⟩

theorem txLoop_err {w send} : ∀ {fuel k rs fin rs' es}, txLoop w send fuel k rs = .ok (fin, rs', es) →
    errSum rs' = errSum rs ∧ errors es = 0 := by
  intro fuel
  induction fuel with
  | zero =>
    intro k rs fin rs' es h
    simp only [txLoop, Out.ok.injEq, Prod.mk.injEq] at h
    obtain ⟨_, rfl, rfl⟩ := h
    exact ⟨rfl, rfl⟩
  | succ fuel ih =>
    intro k rs fin rs' es h
    rw [txLoop, Out.bind_eq_ok] at h
    obtain ⟨⟨rs1, k1, e1, more⟩, h1, h⟩ := h
    obtain ⟨c1, c2⟩ := txRound_err h1
    simp only at h
    split at h
    · simp only [Out.bind_eq_ok] at h
      obtain ⟨⟨f2, rs2, e2⟩, h2, h⟩ := h
      simp only [Out.ok.injEq, Prod.mk.injEq] at h
      obtain ⟨_, rfl, rfl⟩ := h
      obtain ⟨d1, d2⟩ := ih h2
      exact ⟨d1.trans c1, by rw [errors_append, c2, d2]⟩
    · simp only [Out.ok.injEq, Prod.mk.injEq] at h
      obtain ⟨_, rfl, rfl⟩ := h
      exact ⟨c1, c2⟩

theorem process_err {cfg fuel s rs fin rs' es} (h : process cfg fuel s rs = .ok (fin, rs', es)) :
    errSum rs' = errSum rs + errors es := by
  unfold process at h
  simp only [Out.bind_eq_ok] at h
  obtain ⟨⟨rs1, e1⟩, h1, ⟨f2, rs2, e2⟩, h2, h⟩ := h
  simp only [Out.ok.injEq, Prod.mk.injEq] at h
  obtain ⟨_, rfl, rfl⟩ := h
  have t0 := rxAll_err h1
  obtain ⟨t1, t2⟩ := txLoop_err h2
  simp only at t1
  rw [errors_append]
  omega

theorem mainLoop_err {cfg fuel tend} : ∀ {hist left rs st rs' es},
    mainLoop cfg fuel tend hist left rs = .ok (st, rs', es) → errSum rs' = errSum rs + errors es := by
  intro hist
  induction hist with
  | nil =>
    intro left rs st rs' es h
    rw [mainLoop] at h
    split at h <;>
    · simp only [Out.ok.injEq, Prod.mk.injEq] at h
      obtain ⟨_, rfl, rfl⟩ := h; rfl
  | cons s hist ih =>
    intro left rs st rs' es h
    rw [mainLoop] at h
    split at h
    · simp only [Out.ok.injEq, Prod.mk.injEq] at h
      obtain ⟨_, rfl, rfl⟩ := h; rfl
    · split at h
      · simp only [Out.ok.injEq, Prod.mk.injEq] at h
        obtain ⟨_, rfl, rfl⟩ := h; rfl
      · split at h
        · simp only [Out.ok.injEq, Prod.mk.injEq] at h
          obtain ⟨_, rfl, rfl⟩ := h; rfl
        · rw [Out.bind_eq_ok] at h
          obtain ⟨⟨fin, rs1, e1⟩, h1, h⟩ := h
          have c1 := process_err h1
          have hw : ∀ l : List Event, errors (.wait left :: l) = errors l := fun l => by simp [errors, isError]
          simp only at h
          split at h
          · simp only [Out.bind_eq_ok] at h
            obtain ⟨⟨st2, rs2, e2⟩, h2, h⟩ := h
            simp only [Out.ok.injEq, Prod.mk.injEq] at h
            obtain ⟨rfl, rfl, rfl⟩ := h
            have := ih h2
            rw [hw, errors_append]
            omega
          · simp only [Out.ok.injEq, Prod.mk.injEq] at h
            obtain ⟨rfl, rfl, rfl⟩ := h
            rw [hw]; exact c1

/-! ## Events outside the main loop -/

/-- Neither an error nor something on an interface. -/
def quiet (e : Event) : Prop := ifaceOf e = none

theorem quiet_errors {es : List Event} (h : ∀ e ∈ es, quiet e) : errors es = 0 := by
  unfold errors
  rw [List.countP_eq_zero]
  intro e he hx
  have := h e he
  cases e <;> simp_all [quiet, ifaceOf, isError]

theorem quiet_onIface {es : List Event} (a : CStr) (h : ∀ e ∈ es, quiet e) : onIface a es = [] :=
  onIface_none (fun e he => by rw [h e he]; simp)

theorem inventory_quiet (cmds : List Cmd) : ∀ e ∈ inventory cmds, quiet e := by
  induction cmds with
  | nil => simp [inventory]
  | cons c cs ih =>
    intro e he
    rw [inventory] at he
    split at he
    · split at he
      · simp only [List.mem_cons] at he
        rcases he with rfl | he
        · rfl
        · exact ih e he
      · exact ih e he
    · exact ih e he

theorem pcapEvents_quiet {cmds : List Cmd} {es} (h : pcapEvents cmds = .ok es) : ∀ e ∈ es, quiet e := by
  induction cmds generalizing es with
  | nil => simp only [pcapEvents, Out.ok.injEq] at h; subst h; simp
  | cons c cs ih =>
    rw [pcapEvents] at h
    split at h
    · split at h
      · simp only [Out.bind_eq_ok, Out.ok.injEq] at h
        obtain ⟨es', h', rfl⟩ := h
        intro e he
        simp only [List.mem_cons] at he
        rcases he with rfl | he
        · rfl
        · exact ih h' e he
      · simp at h
    · exact ih h

theorem hexEvents_quiet {cmds : List Cmd} {es} (h : hexEvents cmds = .ok es) : ∀ e ∈ es, quiet e := by
  induction cmds generalizing es with
  | nil => simp only [hexEvents, Out.ok.injEq] at h; subst h; simp
  | cons c cs ih =>
    rw [hexEvents] at h
    split at h
    · split at h
      · exact ih h
      · split at h
        · simp only [Out.bind_eq_ok, Out.ok.injEq] at h
          obtain ⟨es', h', rfl⟩ := h
          intro e he
          simp only [List.mem_cons] at he
          rcases he with rfl | he
          · rfl
          · exact ih h' e he
        · split at h
          · simp only [Out.bind_eq_ok, Out.ok.injEq] at h
            obtain ⟨es', h', rfl⟩ := h
            intro e he
            simp only [List.mem_cons] at he
            rcases he with rfl | he
            · rfl
            · exact ih h' e he
          · simp at h
    · exact ih h

theorem opened_quiet (as : List CStr) : ∀ e ∈ as.map Event.opened, quiet e := by
  intro e he
  rw [List.mem_map] at he
  obtain ⟨a, _, rfl⟩ := he
  rfl

/-! ## Resolved commands -/

theorem resolve_type (all : List Cmd) (c : Cmd) : (resolve all c).type = c.type := by
  unfold resolve
  split
  · split <;> rfl
  · rfl

theorem resolve_arg0 (all : List Cmd) (c : Cmd) : (resolve all c).arg0 = c.arg0 := by
  unfold resolve
  split
  · split <;> rfl
  · rfl

theorem resolve_done (all : List Cmd) (c : Cmd) : (resolve all c).done = c.done := by
  unfold resolve
  split
  · split <;> rfl
  · rfl

theorem resolve_rep (all : List Cmd) (c : Cmd) : (resolve all c).rep = c.rep := by
  unfold resolve
  split
  · split <;> rfl
  · rfl

theorem resolve_name (all : List Cmd) (c : Cmd) : (resolve all c).name = c.name := by
  unfold resolve
  split
  · split <;> rfl
  · rfl

theorem ioIface_resolve (all : List Cmd) (c : Cmd) : ioIface (resolve all c) = ioIface c := by
  unfold ioIface; rw [resolve_type, resolve_arg0]

theorem ifaces_resolve (all cmds : List Cmd) : ifaces (cmds.map (resolve all)) = ifaces cmds := by
  unfold ifaces
  rw [List.filterMap_map]
  congr 2
  funext c
  exact ioIface_resolve all c

/-! ## The run -/

/-- Conditions on the commands which parsing establishes. -/
structure Ready (cmds : List Cmd) : Prop where
  fresh : Fresh cmds
  iface : ∀ c ∈ cmds, HasIface c
  slots : (ifaces cmds).length ≤ 100

theorem Ready.resolve {cmds : List Cmd} (h : Ready cmds) (all : List Cmd) : Ready (cmds.map (resolve all)) := by
  refine ⟨?_, ?_, by rw [ifaces_resolve]; exact h.slots⟩
  · intro c hc
    rw [List.mem_map] at hc
    obtain ⟨x, hx, rfl⟩ := hc
    rw [resolve_done]; exact h.fresh x hx
  · intro c hc
    rw [List.mem_map] at hc
    obtain ⟨x, hx, rfl⟩ := hc
    unfold HasIface
    rw [resolve_type, resolve_arg0]
    exact h.iface x hx

theorem cmdsOn_fresh {cmds : List Cmd} (h : Fresh cmds) (a : CStr) : Fresh (cmdsOn a cmds) :=
  fun c hc => h c (List.mem_filter.mp hc).1

/-- What is known about socket `i` after a run. -/
structure SocketRun (env : Env) (cs : List Cmd) (i : Nat) (a : CStr) (r : ExecRes) (n : Nat) (ops : List Op)
    (r' : Resource) : Prop where
  state : r.resources[i]? = some r'
  run : Run cs ops r'.cmds
  err : r'.rxErrCnt = misses ops
  frames : rxFrames ops = heard env cs i n
  events : onIface a r.events = ops.flatMap (opEvents a cs) ++
    (if r.status = .finished then (uncredited cs (rxOuts ops)).map (noRxReport a) else [])

theorem missing_report {a : CStr} {cs : List Cmd} {ops : List Op} {r' : Resource} (hf : Fresh cs)
    (hr : Run cs ops r'.cmds) (hn : Named a r') :
    (missing r').flatMap noRxEvent = (uncredited cs (rxOuts ops)).map (noRxReport a) ∧
    (missing r').length = (uncredited cs (rxOuts ops)).length := by
  refine missing_events cs r'.cmds (rxOuts ops) 0 hr.same.1 ?_
  intro j c' hj
  obtain ⟨c, hc, hs⟩ := hr.same.back hj
  refine ⟨c, hc, hs, hn.2 c' (List.mem_of_getElem? hj), fun ht => ?_⟩
  rw [Nat.add_zero, hr.done_iff hf j c' hj]
  constructor
  · rintro (h | h)
    · exact h
    · obtain ⟨x, hx, hxt⟩ := txFins_type hr j (txFins_sub ops j h)
      rw [hc] at hx
      simp only [Option.some.injEq] at hx
      subst hx
      rw [ht] at hxt
      simp at hxt
  · exact Or.inl

theorem onIface_flatMap_noRx {as : List CStr} {rs : List Resource} (hn : NamedAll as rs) (hnd : as.Nodup)
    (i : Nat) {a r} (ha : as[i]? = some a) (hr : rs[i]? = some r) :
    onIface a (rs.flatMap (fun r => (missing r).flatMap noRxEvent)) = (missing r).flatMap noRxEvent := by
  have hall : ∀ {a r}, Named a r → ∀ e ∈ (missing r).flatMap noRxEvent, ifaceOf e = some a := by
    intro a r hn e he
    rw [List.mem_flatMap] at he
    obtain ⟨c, hc, he⟩ := he
    have := hn.2 c (List.mem_filter.mp hc).1
    unfold noRxEvent at he
    rw [this] at he
    split at he
    · rename_i a' b h1 h2
      simp only [Option.some.injEq] at h1
      subst h1
      rw [List.mem_singleton] at he
      subst he; rfl
    · simp at he
  have hnone : ∀ {as : List CStr} {rs : List Resource} {a}, NamedAll as rs → a ∉ as →
      onIface a (rs.flatMap (fun r => (missing r).flatMap noRxEvent)) = [] := by
    intro as
    induction as with
    | nil => intro rs a hn _; cases rs with
      | nil => rfl
      | cons => exact absurd hn (by simp [NamedAll])
    | cons b as ih => intro rs a hn hna; cases rs with
      | nil => rfl
      | cons q rs =>
        rw [List.flatMap_cons, onIface_append, ih hn.2 (fun h => hna (List.mem_cons_of_mem _ h)), List.append_nil]
        apply onIface_none
        intro e he h
        rw [hall hn.1 e he] at h
        simp only [Option.some.injEq] at h
        subst h
        exact hna List.mem_cons_self
  induction as generalizing rs i with
  | nil => simp at ha
  | cons b as ih => cases rs with
    | nil => simp at hr
    | cons q rs =>
      rw [List.nodup_cons] at hnd
      rw [List.flatMap_cons, onIface_append]
      cases i with
      | zero =>
        simp only [List.getElem?_cons_zero, Option.some.injEq] at ha hr
        subst ha; subst hr
        rw [onIface_all (hall hn.1), hnone hn.2 hnd.1, List.append_nil]
      | succ i =>
        simp only [List.getElem?_cons_succ] at ha hr
        rw [ih hn.2 hnd.2 i ha hr, onIface_none, List.nil_append]
        intro e he h
        rw [hall hn.1 e he] at h
        simp only [Option.some.injEq] at h
        subst h
        exact hnd.1 (List.mem_of_getElem? ha)

theorem group_get {cmds : List Cmd} {i : Nat} {a : CStr} (h : (ifaces cmds)[i]? = some a) :
    (group cmds)[i]? = some { cmds := cmdsOn a cmds } := by
  unfold group
  rw [List.getElem?_map, h]
  rfl

theorem group_err (cmds : List Cmd) : errSum (group cmds) = 0 := by
  unfold errSum group
  rw [List.map_map]
  generalize ifaces cmds = as
  induction as with
  | nil => rfl
  | cons a as ih => simpa using ih

theorem group_hasRx {cmds : List Cmd} (hi : ∀ c ∈ cmds, HasIface c) :
    (∃ r ∈ group cmds, hasRx r = true) ↔ ∃ c ∈ cmds, c.type = .rx := by
  constructor
  · rintro ⟨r, hr, hx⟩
    unfold group at hr
    rw [List.mem_map] at hr
    obtain ⟨a, _, rfl⟩ := hr
    simp only [hasRx, List.any_eq_true, beq_iff_eq] at hx
    obtain ⟨c, hc, ht⟩ := hx
    exact ⟨c, (List.mem_filter.mp hc).1, ht⟩
  · rintro ⟨c, hc, ht⟩
    obtain ⟨a, ha⟩ := Option.isSome_iff_exists.mp (hi c hc (Or.inl ht))
    have hio : ioIface c = some a := by unfold ioIface; rw [if_pos (Or.inl ht), ha]
    refine ⟨{ cmds := cmdsOn a cmds }, ?_, ?_⟩
    · unfold group
      rw [List.mem_map]
      exact ⟨a, (ifaces_mem _ _).mpr ⟨c, hc, hio⟩, rfl⟩
    · simp only [hasRx, List.any_eq_true, beq_iff_eq]
      exact ⟨c, by unfold cmdsOn; rw [List.mem_filter]; exact ⟨hc, by simp [hio]⟩, ht⟩

/-- What a run that gets to the main loop consists of. -/
theorem execResolved_ok {env cmds r} (hr : Ready cmds) (hopen : ∀ a ∈ ifaces cmds, env.canOpen a = true)
    (h : execResolved env cmds = .ok r) :
    ∃ pre el rs', (∀ e ∈ pre, quiet e) ∧
      mainLoop env.cfg env.fuel (deadline env) env.hist (timeoutVal env.timeoutMs) (group cmds) =
        .ok (r.status, rs', el) ∧ r.resources = rs' ∧
      (r.status = .finished → r.events = pre ++ el ++ (checkResults rs').2 ∧ r.ret = some ((checkResults rs').1 : Int)) ∧
      (r.status ≠ .finished → r.events = pre ++ el ∧ r.ret = none) := by
  unfold execResolved at h
  simp only [Out.bind_eq_ok] at h
  obtain ⟨ep, hep, eh, heh, rs, hrs, ⟨eo, ok⟩, ho, h⟩ := h
  have hm := mapCmds_group [] cmds hr.iface (by simpa using hr.slots)
  have e0 : group [] = [] := rfl
  rw [e0, List.nil_append] at hm
  rw [hm] at hrs
  simp only [Out.ok.injEq] at hrs
  subst hrs
  rw [openAll_eq _ (group_named cmds)] at ho
  simp only [Out.ok.injEq, Prod.mk.injEq] at ho
  obtain ⟨rfl, rfl⟩ := ho
  have hall : (ifaces cmds).all env.canOpen = true := by
    rw [List.all_eq_true]; exact hopen
  simp only [hall, not_true_eq_false, ↓reduceIte, Out.bind_eq_ok] at h
  obtain ⟨⟨st, rs', el⟩, hml, h⟩ := h
  have hpre : ∀ e ∈ ep ++ eh ++ ((ifaces cmds).takeWhile env.canOpen).map Event.opened, quiet e := by
    intro e he
    simp only [List.mem_append] at he
    rcases he with (he | he) | he
    · unfold pcapAll at hep
      split at hep
      · exact pcapEvents_quiet hep e he
      · simp only [Out.ok.injEq] at hep; subst hep; simp at he
    · exact hexEvents_quiet heh e he
    · exact opened_quiet _ e he
  cases st with
  | finished =>
    simp only [Out.ok.injEq] at h
    subst h
    exact ⟨_, el, rs', hpre, hml, rfl, fun _ => ⟨rfl, rfl⟩, fun h => absurd rfl h⟩
  | waiting =>
    simp only [Out.ok.injEq] at h
    subst h
    exact ⟨_, el, rs', hpre, hml, rfl, (fun h => LoopEnd.noConfusion h), fun _ => ⟨rfl, rfl⟩⟩
  | sending =>
    simp only [Out.ok.injEq] at h
    subst h
    exact ⟨_, el, rs', hpre, hml, rfl, (fun h => LoopEnd.noConfusion h), fun _ => ⟨rfl, rfl⟩⟩

theorem execCmds_ok {env cmds r} (hu : ∀ c ∈ cmds, unresolved cmds c = false) (h : execCmds env cmds = .ok r) :
    ∃ r0, execResolved env (cmds.map (resolve cmds)) = .ok r0 ∧
      r = { r0 with events := inventory cmds ++ r0.events } := by
  unfold execCmds at h
  rw [pairNames_eq] at h
  have : cmds.filter (unresolved cmds) = [] := by
    rw [List.filter_eq_nil_iff]
    intro c hc
    rw [hu c hc]
    simp
  rw [this] at h
  simp only [List.filterMap_nil, ne_eq, not_true_eq_false, ↓reduceIte, Out.bind_eq_ok, Out.ok.injEq] at h
  obtain ⟨r0, h0, rfl⟩ := h
  exact ⟨r0, h0, rfl⟩

/-- A whole run, socket by socket, and the error count. -/
theorem exec_report {env cmds r} (hr : Ready cmds) (hu : ∀ c ∈ cmds, unresolved cmds c = false)
    (hopen : ∀ a ∈ ifaces cmds, env.canOpen a = true) (h : execCmds env cmds = .ok r) :
    (∃ n, n ≤ (usable (deadline env) env.hist).length ∧
      (r.status ≠ .sending → (∃ c ∈ cmds, c.type = .rx) → n = (usable (deadline env) env.hist).length) ∧
      ∀ (i : Nat) a, (ifaces cmds)[i]? = some a →
        ∃ ops r', SocketRun env (cmdsOn a (cmds.map (resolve cmds))) i a r n ops r') ∧
    (r.status = .finished → r.ret = some (errors r.events : Int)) ∧ (r.status ≠ .finished → r.ret = none) ∧
    r.resources.length = (ifaces cmds).length ∧
    (r.status = .finished →
      r.ret = some (((r.resources.map (fun q => q.rxErrCnt + (missing q).length)).sum : Nat) : Int)) := by
  obtain ⟨r0, h0, rfl⟩ := execCmds_ok hu h
  have hr' := hr.resolve cmds
  have hif := ifaces_resolve cmds cmds
  obtain ⟨pre, el, rs', hq, hml, hres, hfin, hnf⟩ := execResolved_ok hr' (by rw [hif]; exact hopen) h0
  have hnd := ifaces_nodup (cmds.map (resolve cmds))
  obtain ⟨n, hn, hch, hfull⟩ := mainLoop_changes hnd (group_named _) hml
  have hfr := hr'.fresh
  simp only
  refine ⟨⟨n, hn, ?_, ?_⟩, ?_, ?_, ?_, ?_⟩
  · intro hst hrx
    apply hfull hst
    rw [group_hasRx hr'.iface]
    obtain ⟨c, hc, ht⟩ := hrx
    exact ⟨resolve cmds c, List.mem_map_of_mem hc, by rw [resolve_type]; exact ht⟩
  · intro i a ha
    rw [← hif] at ha
    have hg := group_get ha
    obtain ⟨r', ops, hr1, hc⟩ := hch.each i a _ ha hg
    have hnm := namedAll_get hch.named i ha hr1
    refine ⟨ops, r', ⟨by rw [hres]; exact hr1, hc.run, ?_, ?_, ?_⟩⟩
    · have := hc.err
      simpa using this
    · rw [hc.frames]
      unfold heard received
      rw [hg]
      simp only [hasRx]
      split
      · rename_i hx
        simp only [hx, ↓reduceIte]
      · rename_i hx
        simp [hx]
    · rw [onIface_append, quiet_onIface a (inventory_quiet cmds), List.nil_append]
      by_cases hst : r0.status = .finished
      · obtain ⟨he, _⟩ := hfin hst
        rw [he, onIface_append, onIface_append, quiet_onIface a hq, List.nil_append, hc.ev, if_pos hst,
          checkResults_eq, onIface_flatMap_noRx hch.named hnd i ha hr1]
        rw [(missing_report (cmdsOn_fresh hfr a) hc.run hnm).1]
      · obtain ⟨he, _⟩ := hnf hst
        rw [he, onIface_append, quiet_onIface a hq, List.nil_append, hc.ev, if_neg hst, List.append_nil]
  · intro hst
    obtain ⟨he, hret⟩ := hfin hst
    rw [hret, he]
    congr 2
    rw [errors_append, quiet_errors (inventory_quiet cmds), errors_append, errors_append, quiet_errors hq,
      checkResults_eq]
    have hes := mainLoop_err hml
    rw [group_err] at hes
    have hsum : ∀ rs : List Resource, (∀ r ∈ rs, ∃ a, Named a r) →
        (rs.map (fun r => r.rxErrCnt + (missing r).length)).sum =
        errSum rs + errors (rs.flatMap (fun r => (missing r).flatMap noRxEvent)) := by
      intro rs
      induction rs with
      | nil => intro _; rfl
      | cons q rs ih =>
        intro hnm
        have ih := ih (fun r hr => hnm r (List.mem_cons_of_mem _ hr))
        rw [List.flatMap_cons, errors_append, List.map_cons, List.sum_cons, ih]
        have : errors ((missing q).flatMap noRxEvent) = (missing q).length := by
          obtain ⟨a, ha⟩ := hnm q List.mem_cons_self
          have key : ∀ l : List Cmd, (∀ c ∈ l, c.arg0 = some a ∧ c.buf.isSome) →
              errors (l.flatMap noRxEvent) = l.length := by
            intro l
            induction l with
            | nil => intro _; rfl
            | cons c l ih =>
              intro hl
              rw [List.flatMap_cons, errors_append, ih (fun x hx => hl x (List.mem_cons_of_mem _ hx))]
              obtain ⟨h1, h2⟩ := hl c List.mem_cons_self
              obtain ⟨b, hb⟩ := Option.isSome_iff_exists.mp h2
              simp [noRxEvent, h1, hb, errors, isError]
              omega
          apply key
          intro c hc
          refine ⟨ha.2 c (List.mem_filter.mp hc).1, ?_⟩
          unfold missing at hc
          simp only [List.mem_filter, Bool.and_eq_true] at hc
          exact hc.2.1.2
        rw [this]
        simp only [errSum, List.map_cons, List.sum_cons]
        omega
    rw [hsum rs' (fun r hr => by
      obtain ⟨i, hi⟩ := List.mem_iff_getElem?.mp hr
      have hlt : i < (ifaces (cmds.map (resolve cmds))).length := by
        rw [namedAll_length hch.named]; exact (List.getElem?_eq_some_iff.mp hi).1
      exact ⟨_, namedAll_get hch.named i (List.getElem?_eq_getElem hlt) hi⟩)]
    simp only
    omega
  · intro hst
    exact (hnf hst).2
  · rw [hres, hch.len, ← hif, namedAll_length (group_named _)]
  · intro hst
    rw [(hfin hst).2, checkResults_eq, hres]

end Ef
