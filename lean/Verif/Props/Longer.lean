import Verif.Props.Transmit
import Verif.Lemmas.Kinds

/-!
# Waiting longer (C106)
-/

namespace Ef.Props

open Ef Ef.Spec

/-- What a run reports and does, without the waiting and without the frames reported missing at the end. -/
def happened (es : List Event) : List Event :=
  es.filter (fun
    | .wait _ => false
    | .noRx _ _ _ _ => false
    | _ => true)

/-- The frames reported missing. -/
def lacking (es : List Event) : List Event :=
  es.filter (fun
    | .noRx _ _ _ _ => true
    | _ => false)

theorem happened_append (x y : List Event) : happened (x ++ y) = happened x ++ happened y := by simp [happened]
theorem lacking_append (x y : List Event) : lacking (x ++ y) = lacking x ++ lacking y := by simp [lacking]

/-! ## Expectations that are still open -/

/-- The expectation is open. -/
def isOpen (c : Cmd) : Bool := c.type == .rx && c.buf.isSome && !c.done

theorem filter_set_sublist {p : Cmd → Bool} {c c' : Cmd} (hp : p c' = false) : ∀ {cs : List Cmd} {j : Nat},
    cs[j]? = some c → ((cs.set j c').filter p).Sublist (cs.filter p) := by
  intro cs
  induction cs with
  | nil => intro j h; simp at h
  | cons d cs ih =>
    intro j h
    cases j with
    | zero =>
      simp only [List.set_cons_zero, List.filter_cons, hp, Bool.false_eq_true, if_false]
      split
      · exact List.Sublist.cons _ (List.Sublist.refl _)
      · exact List.Sublist.refl _
    | succ j =>
      simp only [List.set_cons_succ, List.filter_cons]
      have := ih (j := j) (by simpa using h)
      split
      · exact this.cons_cons _
      · exact this

theorem missing_eq (r : Resource) : missing r = r.cmds.filter isOpen := rfl

theorem rxResource_missing {cfg : Config} {s : Step} {i : Nat} {r r' : Resource} {e : List Event}
    (h : rxResource cfg s i r = .ok (r', e)) : (missing r').Sublist (missing r) := by
  unfold rxResource at h
  split at h
  · split at h
    · simp only [Out.ok.injEq, Prod.mk.injEq] at h
      rw [h.1]; exact .refl _
    · unfold rxFrame at h
      simp only at h
      split at h
      · simp only [Out.ok.injEq, Prod.mk.injEq] at h
        rw [h.1]; exact .refl _
      · obtain ⟨b, -, h⟩ := Out.bind_eq_ok.mp h
        obtain ⟨o, ho, h⟩ := Out.bind_eq_ok.mp h
        rcases matchCmds_ok ho with ⟨rfl, _⟩ | ⟨j, c, rfl, hj, _⟩
        · obtain ⟨a, -, h⟩ := Out.bind_eq_ok.mp h
          simp only [Out.ok.injEq, Prod.mk.injEq] at h
          rw [← h.1]; exact .refl _
        · simp only at h
          split at h
          · simp only [Out.ok.injEq, Prod.mk.injEq] at h
            rw [← h.1, missing_eq, missing_eq]
            exact filter_set_sublist (by simp [isOpen]) hj
          · simp at h
  · simp only [Out.ok.injEq, Prod.mk.injEq] at h
    rw [h.1]; exact .refl _

/-- The open expectations of all sockets. -/
def openAt (rs : List Resource) : List Cmd := rs.flatMap missing

theorem rxAll_missing {cfg : Config} {s : Step} : ∀ {rs rs' : List Resource} {i : Nat} {e : List Event},
    rxAll cfg s i rs = .ok (rs', e) → (openAt rs').Sublist (openAt rs) := by
  intro rs
  induction rs with
  | nil =>
    intro rs' i e h
    simp only [rxAll, Out.ok.injEq, Prod.mk.injEq] at h
    rw [← h.1]; exact .refl _
  | cons r rs ih =>
    intro rs' i e h
    simp only [rxAll] at h
    obtain ⟨⟨r1, e1⟩, hx, h⟩ := Out.bind_eq_ok.mp h
    obtain ⟨⟨rs2, e2⟩, hy, h⟩ := Out.bind_eq_ok.mp h
    simp only [Out.ok.injEq, Prod.mk.injEq] at h
    rw [← h.1]
    simp only [openAt, List.flatMap_cons]
    exact (rxResource_missing hx).append (ih hy)

theorem txFirst_missing {res : Int} {cs cs' : List Cmd} {e : List Event} {m : Bool}
    (h : txFirst res cs = .ok (some (cs', e, m))) : (cs'.filter isOpen).Sublist (cs.filter isOpen) := by
  rcases txFirst_ok h with ⟨h0, _⟩ | ⟨j, x, b, a, h0, hj, hp, _⟩
  · simp at h0
  · simp only [Option.some.injEq, Prod.mk.injEq] at h0
    rw [h0.1]
    refine filter_set_sublist ?_ hj
    have := (txOne_static x b a res).1
    unfold isOpen
    rw [this, hp.1]
    rfl

theorem txRound_missing {w : Nat → Bool} {send : Nat → Int} : ∀ {rs rs' : List Resource} {i k k' : Nat} {e : List Event}
    {m : Bool}, txRound w send i k rs = .ok (rs', k', e, m) → (openAt rs').Sublist (openAt rs) := by
  intro rs
  induction rs with
  | nil =>
    intro rs' i k k' e m h
    simp only [txRound, Out.ok.injEq, Prod.mk.injEq] at h
    rw [← h.1]; exact .refl _
  | cons r rs ih =>
    intro rs' i k k' e m h
    simp only [txRound] at h
    split at h
    · obtain ⟨o, ho, h⟩ := Out.bind_eq_ok.mp h
      split at h
      · obtain ⟨⟨rs2, k2, e2, m2⟩, hy, h⟩ := Out.bind_eq_ok.mp h
        simp only [Out.ok.injEq, Prod.mk.injEq] at h
        rw [← h.1]
        simp only [openAt, List.flatMap_cons]
        exact (List.Sublist.refl _).append (ih hy)
      · obtain ⟨⟨rs2, k2, e2, m2⟩, hy, h⟩ := Out.bind_eq_ok.mp h
        simp only [Out.ok.injEq, Prod.mk.injEq] at h
        rw [← h.1]
        simp only [openAt, List.flatMap_cons]
        exact (txFirst_missing ho).append (ih hy)
    · obtain ⟨⟨rs2, k2, e2, m2⟩, hy, h⟩ := Out.bind_eq_ok.mp h
      simp only [Out.ok.injEq, Prod.mk.injEq] at h
      rw [← h.1]
      simp only [openAt, List.flatMap_cons]
      exact (List.Sublist.refl _).append (ih hy)

theorem txLoop_missing {w : Nat → Bool} {send : Nat → Int} : ∀ {fuel k : Nat} {rs rs' : List Resource} {e : List Event}
    {fin : Bool}, txLoop w send fuel k rs = .ok (fin, rs', e) → (openAt rs').Sublist (openAt rs) := by
  intro fuel
  induction fuel with
  | zero =>
    intro k rs rs' e fin h
    simp only [txLoop, Out.ok.injEq, Prod.mk.injEq] at h
    rw [← h.2.1]; exact .refl _
  | succ fuel ih =>
    intro k rs rs' e fin h
    simp only [txLoop] at h
    obtain ⟨⟨rs2, k2, e2, m2⟩, hy, h⟩ := Out.bind_eq_ok.mp h
    simp only at h
    split at h
    · obtain ⟨⟨f3, rs3, e3⟩, hz, h⟩ := Out.bind_eq_ok.mp h
      simp only [Out.ok.injEq, Prod.mk.injEq] at h
      rw [← h.2.1]
      exact (ih hz).trans (txRound_missing hy)
    · simp only [Out.ok.injEq, Prod.mk.injEq] at h
      rw [← h.2.1]
      exact txRound_missing hy

theorem process_missing {cfg : Config} {fuel : Nat} {s : Step} {rs rs' : List Resource} {e : List Event} {fin : Bool}
    (h : process cfg fuel s rs = .ok (fin, rs', e)) : (openAt rs').Sublist (openAt rs) := by
  unfold process at h
  simp only at h
  obtain ⟨⟨rs1, e1⟩, hx, h⟩ := Out.bind_eq_ok.mp h
  obtain ⟨⟨f2, rs2, e2⟩, hy, h⟩ := Out.bind_eq_ok.mp h
  simp only [Out.ok.injEq, Prod.mk.injEq] at h
  rw [← h.2.1]
  exact (txLoop_missing hy).trans (rxAll_missing hx)

theorem mainLoop_missing {cfg : Config} {fuel : Nat} {tend : TimeVal} : ∀ {hist : List Step} {left : TimeVal}
    {rs rs' : List Resource} {e : List Event} {st : LoopEnd}, mainLoop cfg fuel tend hist left rs = .ok (st, rs', e) →
    (openAt rs').Sublist (openAt rs) := by
  intro hist
  induction hist with
  | nil =>
    intro left rs rs' e st h
    unfold mainLoop at h
    split at h <;> (simp only [Out.ok.injEq, Prod.mk.injEq] at h; rw [← h.2.1]; exact .refl _)
  | cons s hist ih =>
    intro left rs rs' e st h
    unfold mainLoop at h
    split at h
    · simp only [Out.ok.injEq, Prod.mk.injEq] at h; rw [← h.2.1]; exact .refl _
    · simp only at h
      split at h
      · simp only [Out.ok.injEq, Prod.mk.injEq] at h; rw [← h.2.1]; exact .refl _
      · split at h
        · simp only [Out.ok.injEq, Prod.mk.injEq] at h; rw [← h.2.1]; exact .refl _
        · obtain ⟨⟨f2, rs2, e2⟩, hx, h⟩ := Out.bind_eq_ok.mp h
          simp only at h
          split at h
          · obtain ⟨⟨st3, rs3, e3⟩, hy, h⟩ := Out.bind_eq_ok.mp h
            simp only [Out.ok.injEq, Prod.mk.injEq] at h
            rw [← h.2.1]
            exact (ih hy).trans (process_missing hx)
          · simp only [Out.ok.injEq, Prod.mk.injEq] at h
            rw [← h.2.1]
            exact process_missing hx

/-! ## Two runs -/

theorem usable_stop {tend : TimeVal} {s : Step} {hist : List Step} (h : timerGt s.now tend = true ∨ s.res ≤ 0) :
    usable tend (s :: hist) = [] := by
  unfold usable
  rw [List.takeWhile_cons, if_neg]
  intro hx
  simp only [Bool.and_eq_true, Bool.not_eq_true', decide_eq_true_eq] at hx
  rcases h with h | h
  · rw [hx.1] at h; simp at h
  · omega

theorem usable_go {tend : TimeVal} {s : Step} {hist : List Step} (h1 : ¬ timerGt s.now tend = true) (h2 : ¬ s.res ≤ 0) :
    usable tend (s :: hist) = s :: usable tend hist := by
  unfold usable
  rw [List.takeWhile_cons, if_pos]
  simp only [Bool.and_eq_true, Bool.not_eq_true', decide_eq_true_eq]
  exact ⟨by simpa using h1, by omega⟩

theorem mainLoop_longer {cfg : Config} {fuel : Nat} {tend tend' : TimeVal} : ∀ {hist hist' : List Step}
    {left left' : TimeVal} {rs rs1 rs1' : List Resource} {e e' : List Event} {st st' : LoopEnd},
    usable tend hist <+: usable tend' hist' → mainLoop cfg fuel tend hist left rs = .ok (st, rs1, e) →
    mainLoop cfg fuel tend' hist' left' rs = .ok (st', rs1', e') →
    happened e <+: happened e' ∧ (openAt rs1').Sublist (openAt rs1) := by
  intro hist
  induction hist with
  | nil =>
    intro hist' left left' rs rs1 rs1' e e' st st' _ h h'
    have hm := mainLoop_missing h'
    unfold mainLoop at h
    split at h
    · simp only [Out.ok.injEq, Prod.mk.injEq] at h
      rw [← h.2.1, ← h.2.2]; exact ⟨List.nil_prefix, hm⟩
    · simp only [Out.ok.injEq, Prod.mk.injEq] at h
      rw [← h.2.1, ← h.2.2]; exact ⟨List.nil_prefix, hm⟩
  | cons s hist ih =>
    intro hist' left left' rs rs1 rs1' e e' st st' hp h h'
    have hm := mainLoop_missing h'
    unfold mainLoop at h
    split at h
    · simp only [Out.ok.injEq, Prod.mk.injEq] at h
      rw [← h.2.1, ← h.2.2]; exact ⟨List.nil_prefix, hm⟩
    · rename_i hw
      simp only at h
      split at h
      · simp only [Out.ok.injEq, Prod.mk.injEq] at h
        rw [← h.2.1, ← h.2.2]; exact ⟨List.nil_prefix, hm⟩
      · rename_i h1
        split at h
        · simp only [Out.ok.injEq, Prod.mk.injEq] at h
          rw [← h.2.1, ← h.2.2]; exact ⟨List.nil_prefix, hm⟩
        · rename_i h2
          rw [usable_go h1 h2] at hp
          cases hist' with
          | nil => simp [usable] at hp
          | cons s' hist' =>
            by_cases h1' : timerGt s'.now tend' = true
            · rw [usable_stop (.inl h1')] at hp; simp at hp
            · by_cases h2' : s'.res ≤ 0
              · rw [usable_stop (.inr h2')] at hp; simp at hp
              · rw [usable_go h1' h2', List.cons_prefix_cons] at hp
                obtain ⟨rfl, hp⟩ := hp
                unfold mainLoop at h'
                rw [if_neg hw] at h'
                simp only [if_neg h1', if_neg h2'] at h'
                obtain ⟨⟨f2, rs2, e2⟩, hx, h⟩ := Out.bind_eq_ok.mp h
                rw [hx, Out.ok_bind] at h'
                simp only at h h'
                split at h
                · rename_i hf
                  rw [if_pos hf] at h'
                  obtain ⟨⟨st3, rs3, e3⟩, hy, h⟩ := Out.bind_eq_ok.mp h
                  obtain ⟨⟨st3', rs3', e3'⟩, hy', h'⟩ := Out.bind_eq_ok.mp h'
                  simp only [Out.ok.injEq, Prod.mk.injEq] at h h'
                  obtain ⟨rfl, rfl, rfl⟩ := h
                  obtain ⟨rfl, rfl, rfl⟩ := h'
                  obtain ⟨i1, i2⟩ := ih hp hy hy'
                  refine ⟨?_, i2⟩
                  have e1 : ∀ t x, happened (Event.wait t :: (e2 ++ x)) = happened e2 ++ happened x := by
                    intro t x
                    rw [← happened_append]
                    simp [happened]
                  rw [e1, e1]
                  exact (List.prefix_append_right_inj _).mpr i1
                · rename_i hf
                  rw [if_neg hf] at h'
                  simp only [Out.ok.injEq, Prod.mk.injEq] at h h'
                  obtain ⟨rfl, rfl, rfl⟩ := h
                  obtain ⟨rfl, rfl, rfl⟩ := h'
                  have e1 : ∀ t, happened (Event.wait t :: e2) = happened e2 := fun t => by simp [happened]
                  rw [e1, e1]
                  exact ⟨List.prefix_refl _, .refl _⟩

theorem flatMap_sublist {α β : Type} (f : α → List β) {l l' : List α} (h : l.Sublist l') :
    (l.flatMap f).Sublist (l'.flatMap f) := by
  induction h with
  | slnil => exact .refl _
  | cons a _ ih => rw [List.flatMap_cons]; exact ih.trans (List.sublist_append_right _ _)
  | cons_cons a _ ih => rw [List.flatMap_cons, List.flatMap_cons]; exact (List.Sublist.refl _).append ih

theorem checkResults_open (rs : List Resource) : (checkResults rs).2 = (openAt rs).flatMap noRxEvent := by
  rw [checkResults_eq]
  unfold openAt
  rw [List.flatMap_assoc]

theorem noRx_events (rs : List Resource) : happened (checkResults rs).2 = [] ∧ lacking (checkResults rs).2 = (checkResults rs).2 := by
  rw [checkResults_open]
  have key : ∀ e ∈ (openAt rs).flatMap noRxEvent, ∃ a b n m, e = .noRx a b n m := by
    intro e he
    obtain ⟨c, -, he⟩ := List.mem_flatMap.mp he
    unfold noRxEvent at he
    split at he
    · simp only [List.mem_singleton] at he; exact ⟨_, _, _, _, he⟩
    · simp at he
  constructor
  · unfold happened
    rw [List.filter_eq_nil_iff]
    intro e he
    obtain ⟨a, b, n, m, rfl⟩ := key e he
    simp
  · unfold lacking
    rw [List.filter_eq_self]
    intro e he
    obtain ⟨a, b, n, m, rfl⟩ := key e he
    rfl

/-! ## C106 -/

/-- The second run goes on where the first one stops: the tool, the interfaces and the bound on the rounds of the
transmit loop are the same, and the answers of the operating system that the first run uses are the first ones of
those that the second run uses. -/
structure Longer (env env' : Env) : Prop where
  cfg : env'.cfg = env.cfg
  opens : env'.canOpen = env.canOpen
  fuel : env'.fuel = env.fuel
  answers : usable (deadline env) env.hist <+: usable (deadline env') env'.hist

theorem execResolved_longer {env env' : Env} {ds : List Cmd} {r r' : ExecRes} (h : Longer env env')
    (h0 : execResolved env ds = .ok r) (h0' : execResolved env' ds = .ok r') :
    happened r.events <+: happened r'.events ∧
    (r.status = .finished → (lacking r'.events).Sublist (lacking r.events)) := by
  unfold execResolved at h0 h0'
  rw [h.cfg, h.opens, h.fuel] at h0'
  obtain ⟨ep, hep, h0⟩ := Out.bind_eq_ok.mp h0
  rw [hep, Out.ok_bind] at h0'
  obtain ⟨eh, heh, h0⟩ := Out.bind_eq_ok.mp h0
  rw [heh, Out.ok_bind] at h0'
  obtain ⟨rs, hrs, h0⟩ := Out.bind_eq_ok.mp h0
  rw [hrs, Out.ok_bind] at h0'
  obtain ⟨⟨eo, ok⟩, ho, h0⟩ := Out.bind_eq_ok.mp h0
  rw [ho, Out.ok_bind] at h0'
  simp only at h0 h0'
  split at h0
  · rename_i hk
    rw [if_pos hk] at h0'
    simp only [Out.ok.injEq] at h0 h0'
    subst h0 h0'
    exact ⟨List.prefix_refl _, fun _ => .refl _⟩
  · rename_i hk
    rw [if_neg hk] at h0'
    obtain ⟨⟨st, rs1, el⟩, hml, h0⟩ := Out.bind_eq_ok.mp h0
    obtain ⟨⟨st', rs1', el'⟩, hml', h0'⟩ := Out.bind_eq_ok.mp h0'
    obtain ⟨k1, k2⟩ := mainLoop_longer h.answers hml hml'
    have quietLoop : ∀ {es : List Event}, (∀ e ∈ es, Traffic e) → lacking es = [] := by
      intro es he
      unfold lacking
      rw [List.filter_eq_nil_iff]
      intro e hx
      cases he e hx <;> simp
    have l1 := quietLoop (mainLoop_traffic hml)
    have l2 := quietLoop (mainLoop_traffic hml')
    have n1 := noRx_events rs1
    have n2 := noRx_events rs1'
    have k3 : (checkResults rs1').2.Sublist (checkResults rs1).2 := by
      rw [checkResults_open, checkResults_open]
      exact flatMap_sublist _ k2
    have pre : ∀ p : List Event, happened p ++ happened el <+: happened p ++ happened el' :=
      fun p => (List.prefix_append_right_inj _).mpr k1
    have e1 : happened r.events = happened (ep ++ eh ++ eo) ++ happened el ∧
        (r.status = .finished → lacking r.events = lacking (ep ++ eh ++ eo) ++ (checkResults rs1).2) := by
      cases st <;> (simp only [Out.ok.injEq] at h0; subst h0; simp [happened_append, lacking_append, l1, n1])
    have e2 : happened r'.events = happened (ep ++ eh ++ eo) ++ happened el' ∧
        (lacking r'.events = lacking (ep ++ eh ++ eo) ++ (checkResults rs1').2 ∨
          lacking r'.events = lacking (ep ++ eh ++ eo)) := by
      cases st' <;> (simp only [Out.ok.injEq] at h0'; subst h0'; simp [happened_append, lacking_append, l2, n2])
    rw [e1.1, e2.1]
    refine ⟨pre _, fun hst => ?_⟩
    rw [e1.2 hst]
    rcases e2.2 with e3 | e3
    · rw [e3]; exact (List.Sublist.refl _).append k3
    · rw [e3]; exact List.sublist_append_left _ _

/-- **C106**: a run that goes on longer does and reports all that the shorter run does and reports, in the same
order, and then goes on; and it reports no frame missing which the shorter run does not report missing. -/
theorem C106_longer (env env' : Env) (cmds : List Cmd) (r r' : ExecRes) (h : Longer env env')
    (run : execCmds env cmds = .ok r) (run' : execCmds env' cmds = .ok r') :
    happened r.events <+: happened r'.events ∧
    (r.status = .finished → (lacking r'.events).Sublist (lacking r.events)) := by
  unfold execCmds at run run'
  simp only at run run'
  split at run
  · rename_i hn
    rw [if_pos hn] at run'
    simp only [Out.ok.injEq] at run run'
    subst run run'
    exact ⟨List.prefix_refl _, fun _ => .refl _⟩
  · rename_i hn
    rw [if_neg hn] at run'
    obtain ⟨r0, h0, run⟩ := Out.bind_eq_ok.mp run
    obtain ⟨r0', h0', run'⟩ := Out.bind_eq_ok.mp run'
    simp only [Out.ok.injEq] at run run'
    subst run run'
    obtain ⟨k1, k2⟩ := execResolved_longer h h0 h0'
    simp only [happened_append, lacking_append]
    exact ⟨(List.prefix_append_right_inj _).mpr k1, fun hst => (List.Sublist.refl _).append (k2 hst)⟩

theorem timerGt_later {s t t' : TimeVal} (ht : Normalised t) (ht' : Normalised t') (hle : micros t ≤ micros t')
    (h : timerGt s t = false) : timerGt s t' = false := by
  unfold timerGt Normalised micros at *
  split at h <;> split <;> simp only [decide_eq_false_iff_not] at h ⊢ <;> omega

/-- **C106** for the option `-t`: the same answers of the operating system up to the shorter timeout, and any answers
afterwards. -/
theorem C106_timeout (env : Env) (ms : Int) (more : List Step) (cmds : List Cmd) (r r' : ExecRes)
    (hb : Normalised env.begin) (h0 : 0 ≤ env.timeoutMs) (hms : env.timeoutMs ≤ ms)
    (run : execCmds env cmds = .ok r)
    (run' : execCmds { env with timeoutMs := ms, hist := usable (deadline env) env.hist ++ more } cmds = .ok r') :
    happened r.events <+: happened r'.events ∧
    (r.status = .finished → (lacking r'.events).Sublist (lacking r.events)) := by
  refine C106_longer env { env with timeoutMs := ms, hist := usable (deadline env) env.hist ++ more } cmds r r'
    ⟨rfl, rfl, rfl, ?_⟩ run run'
  simp only
  obtain ⟨t1, t2⟩ := micros_timeout h0
  obtain ⟨d1, d2⟩ := micros_add hb t2
  obtain ⟨t1', t2'⟩ := micros_timeout (ms := ms) (by omega)
  obtain ⟨d1', d2'⟩ := micros_add hb t2'
  have key : ∀ l : List Step, (∀ s ∈ l, timerGt s.now (deadline env) = false ∧ 0 < s.res) → ∀ rest,
      l <+: usable (deadline { env with timeoutMs := ms, hist := usable (deadline env) env.hist ++ more }) (l ++ rest) := by
    intro l
    induction l with
    | nil => intro _ rest; exact List.nil_prefix
    | cons s l ih =>
      intro hl rest
      obtain ⟨h1, h2⟩ := hl s List.mem_cons_self
      rw [List.cons_append, usable_go, List.cons_prefix_cons]
      · exact ⟨rfl, ih (fun x hx => hl x (List.mem_cons_of_mem _ hx)) rest⟩
      · have := timerGt_later d2 d2' (by rw [d1, d1']; omega) h1
        simpa [deadline] using this
      · omega
  refine key _ (fun s hs => ?_) more
  have := mem_takeWhile hs
  simp only [Bool.and_eq_true, Bool.not_eq_true', decide_eq_true_eq] at this
  exact this

/-- Non-vacuity: the second frame arrives only with the longer timeout; the first run reports it missing. -/
example : let cmds := [expect [1#8] none, expect [2#8] none]
    let env := listening [[1#8]]
    let more := arrivals [[2#8], [3#8]]
    let env' := { env with timeoutMs := 200, hist := usable (deadline env) env.hist ++ more }
    (execCmds env cmds).get?.isSome ∧ (execCmds env' cmds).get?.isSome ∧
    happened (result env cmds).events = [.opened c!"e", .rxOk c!"e" [1#8] none none] ∧
    lacking (result env cmds).events = [.noRx c!"e" [2#8] none none] ∧
    happened (result env' cmds).events =
      [.opened c!"e", .rxOk c!"e" [1#8] none none, .rxOk c!"e" [2#8] none none, .rxErr c!"e" [3#8]] ∧
    lacking (result env' cmds).events = [] := by decide +kernel

end Ef.Props
