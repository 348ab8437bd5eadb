import Verif.Model.Interrupts
import Verif.Props.Longer

/-!
# Properties C124 and C125: captures that end early
-/

namespace Ef.Props

open Ef Ef.Spec

/-! ## C124: the commands -/

/-- **C124** as one would state it: that a capture ends makes no difference for the commands. -/
def C124_statement : Prop :=
  ∀ (env : Env) (hs : List Happening) (cmds : List Cmd) (r r' : ExecRes),
    execWith true env hs cmds = .ok r → execWith false env hs cmds = .ok r' →
    r.ret = r'.ret ∧ happened r.events = happened r'.events ∧ lacking r.events = lacking r'.events

theorem interrupted_stops (tend t : TimeVal) (hist : List Step) : usable tend (interrupted t :: hist) = [] :=
  usable_stop (Or.inr (by show (-1 : Int) ≤ 0; omega))

theorem seenBy_prefix (tend : TimeVal) : ∀ hs : List Happening, usable tend (seenBy true hs) <+: usable tend (seenBy false hs) := by
  intro hs
  induction hs with
  | nil => exact List.prefix_refl _
  | cons h hs ih =>
    cases h with
    | childEnds t =>
      simp only [seenBy, if_true]
      rw [interrupted_stops]
      exact List.nil_prefix
    | answer s =>
      simp only [seenBy]
      by_cases h1 : timerGt s.now tend = true
      · rw [usable_stop (.inl h1), usable_stop (.inl h1)]
        exact List.prefix_refl _
      · by_cases h2 : s.res ≤ 0
        · rw [usable_stop (.inr h2), usable_stop (.inr h2)]
          exact List.prefix_refl _
        · rw [usable_go h1 h2, usable_go h1 h2, List.cons_prefix_cons]
          exact ⟨rfl, ih⟩

/-- **C124**, what always holds: with captures the run does and reports the beginning of what it does and reports
without them, and it reports no frame as missing less. -/
theorem C124_beginning (env : Env) (hs : List Happening) (cmds : List Cmd) (r r' : ExecRes)
    (h : execWith true env hs cmds = .ok r) (h' : execWith false env hs cmds = .ok r') :
    happened r.events <+: happened r'.events ∧
    (r.status = .finished → (lacking r'.events).Sublist (lacking r.events)) :=
  C106_longer { env with hist := seenBy true hs } { env with hist := seenBy false hs } cmds r r'
    ⟨rfl, rfl, rfl, seenBy_prefix _ hs⟩ h h'

/-- No capture ends while the tool waits. -/
def NoEnds (hs : List Happening) : Prop := ∀ t, .childEnds t ∉ hs

/-- **C124** if no capture ends while the tool waits: there is no difference at all. -/
theorem C124_commands_partial (env : Env) (hs : List Happening) (cmds : List Cmd) (h : NoEnds hs) :
    execWith true env hs cmds = execWith false env hs cmds := by
  have : seenBy true hs = seenBy false hs := by
    induction hs with
    | nil => rfl
    | cons x hs ih =>
      cases x with
      | childEnds t => exact absurd List.mem_cons_self (h t)
      | answer s =>
        simp only [seenBy]
        rw [ih fun t ht => h t (List.mem_cons_of_mem _ ht)]
  unfold execWith
  rw [this]

theorem mainLoop_cut (cfg : Config) (fuel : Nat) (tend t : TimeVal) (post : List Step) : ∀ (pre : List Step) (left : TimeVal)
    (rs : List Resource), mainLoop cfg fuel tend (pre ++ interrupted t :: post) left rs =
      mainLoop cfg fuel tend (pre ++ [interrupted t]) left rs := by
  intro pre
  induction pre with
  | nil =>
    intro left rs
    rw [List.nil_append, List.nil_append]
    unfold mainLoop
    have : (interrupted t).res ≤ 0 := by show (-1 : Int) ≤ 0; omega
    simp only [this, if_true]
  | cons s pre ih =>
    intro left rs
    rw [List.cons_append, List.cons_append]
    unfold mainLoop
    simp only [ih]

theorem execCmds_hist {env : Env} {h h' : List Step} (cmds : List Cmd)
    (hm : ∀ left rs, mainLoop env.cfg env.fuel (timerAdd env.begin (timeoutVal env.timeoutMs)) h left rs =
      mainLoop env.cfg env.fuel (timerAdd env.begin (timeoutVal env.timeoutMs)) h' left rs) :
    execCmds { env with hist := h } cmds = execCmds { env with hist := h' } cmds := by
  unfold execCmds execResolved
  simp only [hm]

theorem seenBy_append (c : Bool) (x y : List Happening) : seenBy c (x ++ y) = seenBy c x ++ seenBy c y := by
  induction x with
  | nil => rfl
  | cons h x ih =>
    cases h with
    | answer s => simp only [List.cons_append, seenBy, ih]
    | childEnds t =>
      simp only [List.cons_append, seenBy, ih]
      split <;> rfl

/-- **C124**, exactly: the first capture that ends while the tool waits ends the run. Whatever would happen later
is neither received nor transmitted. -/
theorem C124_ends_the_run (env : Env) (pre post : List Happening) (t : TimeVal) (cmds : List Cmd) :
    execWith true env (pre ++ .childEnds t :: post) cmds = execWith true env (pre ++ [.childEnds t]) cmds := by
  unfold execWith
  refine execCmds_hist cmds fun left rs => ?_
  rw [seenBy_append, seenBy_append]
  simp only [seenBy, if_true]
  exact mainLoop_cut _ _ _ _ _ _ _ _

/-- A capture ends before the expected frame arrives. -/
def endBefore : List Happening := .childEnds ⟨0, 1⟩ :: (arrivals [[1#8]]).map .answer

/-- The counterexample: a capture that ends (because it has the number of packets it was asked for) makes an expected
frame missing. -/
theorem C124_example :
    (execWith true (listening []) endBefore [expect [1#8] none]).get?.map (fun r => (r.ret, lacking r.events)) =
      some (some 1, [.noRx c!"e" [1#8] none none]) ∧
    (execWith false (listening []) endBefore [expect [1#8] none]).get?.map (fun r => lacking r.events) = some [] := by
  decide +kernel

theorem C124_false : ¬ C124_statement := by
  intro h
  obtain ⟨e1, e2⟩ := C124_example
  generalize h1 : execWith true (listening []) endBefore [expect [1#8] none] = o1 at e1
  generalize h2 : execWith false (listening []) endBefore [expect [1#8] none] = o2 at e2
  cases o1 with
  | ok r =>
    cases o2 with
    | ok r' =>
      have := (h _ _ _ _ _ h1 h2).2.2
      simp only [Out.get?, Option.map_some, Option.some.injEq, Prod.mk.injEq] at e1 e2
      rw [e1.2, e2] at this
      cases this
    | _ => simp [Out.get?] at e2
  | _ => simp [Out.get?] at e1

example : NoEnds ((arrivals [[1#8]]).map .answer) ∧
    (execWith true (listening []) ((arrivals [[1#8]]).map .answer) [expect [1#8] none]).get?.map (fun r => happened r.events) =
      some [.opened c!"e", .rxOk c!"e" [1#8] none none] := by
  refine ⟨fun t ht => ?_, by decide +kernel⟩
  obtain ⟨_, _, h⟩ := List.mem_map.mp ht
  cases h

/-! ## C125: the time the captures get -/

/-- **C125** as one would state it: the captures get three seconds to start, and they run for the whole timeout and
three more seconds. -/
def C125_statement : Prop :=
  ∀ (ends : List Nat) (timeout : Nat) (T : Times), Timeline ends timeout true T →
    T.forked + 3000000 ≤ T.begin ∧ T.begin + timeout + 3000000 ≤ T.stop

theorem wakes_full {ends : List Nat} {t d e : Nat} (h : Wakes ends t d e) (hn : ∀ s ∈ ends, ¬ (t ≤ s ∧ s ≤ e)) : t + d ≤ e := by
  cases h with
  | full h => exact h
  | cut s h1 h2 h3 => exact absurd ⟨h2, h3⟩ (hn s h1)

theorem wakes_le {ends : List Nat} {t d e : Nat} (h : Wakes ends t d e) : t ≤ e := by
  cases h with
  | full h => omega
  | cut s _ h2 h3 => omega

/-- **C125**, the start: the captures get three seconds before the commands are executed if no capture ends during
this time. -/
theorem C125_start_partial {ends : List Nat} {timeout : Nat} {running : Bool} {T : Times} (h : Timeline ends timeout running T)
    (hn : ∀ s ∈ ends, ¬ (T.forked ≤ s ∧ s ≤ T.ready)) : T.forked + 3000000 ≤ T.begin := by
  have := wakes_full h.wait hn
  have := h.order1
  omega

/-- **C125**, the timeout: the captures run for the whole timeout if none of them ends behind the commands. -/
theorem C125_timeout_partial {ends : List Nat} {timeout : Nat} {running : Bool} {T : Times} (h : Timeline ends timeout running T)
    (hn : ∀ s ∈ ends, ¬ (T.done ≤ s ∧ s ≤ T.slept)) : T.begin + timeout ≤ T.slept := by
  by_cases hc : T.done < T.begin + timeout
  · obtain ⟨m, n, h1, h2, h3⟩ := h.sleeps hc
    have l2 := wakes_le h2
    have l3 := wakes_le h3
    have k2 := wakes_full h2 fun s hs hx => hn s hs (by omega)
    have k3 := wakes_full h3 fun s hs hx => hn s hs (by omega)
    omega
  · have := h.over hc
    omega

/-- **C125**, the end: SIGINT is sent three seconds later if a capture is running and none ends during this time. -/
theorem C125_stop_partial {ends : List Nat} {timeout : Nat} {T : Times} (h : Timeline ends timeout true T)
    (hn : ∀ s ∈ ends, ¬ (T.done ≤ s ∧ s ≤ T.stop)) : T.begin + timeout + 3000000 ≤ T.stop := by
  have hs := h.stops
  simp only [if_true] at hs
  have l := wakes_le hs
  have k1 : T.done ≤ T.slept := by
    by_cases hc : T.done < T.begin + timeout
    · obtain ⟨m, n, h1, h2, h3⟩ := h.sleeps hc
      have := wakes_le h2
      have := wakes_le h3
      omega
    · exact h.over hc
  have k2 := C125_timeout_partial h fun s hs hx => hn s hs (by omega)
  have k3 := wakes_full hs fun s hs hx => hn s hs (by omega)
  omega

/-- A capture that ends at once (the interface does not exist): the others get no time to start. -/
theorem C125_no_time : Timeline [0] 100000 true ⟨0, 0, 0, 0, 100000, 3100000⟩ := by
  refine ⟨.cut 0 (by simp) (by simp) (by simp), by simp, by simp, fun _ => ?_, fun h => ?_, ?_⟩
  · exact ⟨0, 0, by simp, .full (by simp), .full (by simp)⟩
  · exact absurd (by simp) h
  · simp only [if_true]
    exact .full (by simp)

/-- A capture that ends behind the commands: the others end before the timeout. -/
theorem C125_cut_short : Timeline [3000001] 5000000 true ⟨0, 3000000, 3000000, 3000000, 3000001, 6000001⟩ := by
  refine ⟨.full (by simp), by simp, by simp, fun _ => ?_, fun h => ?_, ?_⟩
  · exact ⟨3000000, 3000001, by simp, .cut 3000001 (by simp) (by simp) (by simp), .full (by simp)⟩
  · exact absurd (by simp) h
  · simp only [if_true]
    exact .full (by simp)

theorem C125_false : ¬ C125_statement := by
  intro h
  have := (h _ _ _ C125_no_time).1
  simp at this

example : Timeline [] 100000 true ⟨0, 3000000, 3000000, 3000010, 3100000, 6100000⟩ := by
  refine ⟨.full (by simp), by simp, by simp, fun _ => ?_, fun h => ?_, ?_⟩
  · exact ⟨3000010, 3000010, by simp, .full (by simp), .full (by simp)⟩
  · exact absurd (by simp) h
  · simp only [if_true]
    exact .full (by simp)

end Ef.Props
