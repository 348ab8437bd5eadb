import Verif.Model.RxMemory
import Verif.Props.Exhausted

/-!
# Running out of memory while frames are received (C134)
-/

namespace Ef.Props

open Ef Ef.Spec

/-- The computation `y` with answers of the allocator does what `x` does, if the requests it makes are granted, and uses NULL
otherwise. It makes at least `w a` requests if `x` ends with `a`. -/
def Asks {α : Type} (w : α → Nat) (x : Out α) (y : List Bool → Out (α × List Bool)) : Prop :=
  (∀ a, x = .ok a → ∃ k, w a ≤ k ∧ ∀ as, ((∀ n < k, granted as n = true) → y as = .ok (a, as.drop k)) ∧
    ((∃ n < k, granted as n = false) → y as = .ub .nullDeref)) ∧
  ∀ as p, y as = .ok p → x = .ok p.1

theorem Asks.pure {α : Type} {w : α → Nat} {x : Out α} (h : ∀ a, x = .ok a → w a = 0) :
    Asks w x (fun as => do let a ← x; .ok (a, as)) := by
  constructor
  · rintro a rfl
    exact ⟨0, by rw [h a rfl]; exact Nat.le_refl _, fun as => ⟨fun _ => by simp, fun ⟨n, hn, _⟩ => by omega⟩⟩
  · intro as p hp
    obtain ⟨a, ha, hp⟩ := Out.bind_eq_ok.mp hp
    cases hp
    exact ha

theorem Asks.bind {α β : Type} {w : α → Nat} {v : α → β → Nat} {u : β → Nat} {x : Out α} {y : List Bool → Out (α × List Bool)}
    {f : α → Out β} {g : α → List Bool → Out (β × List Bool)} (h : Asks w x y) (hf : ∀ a, Asks (v a) (f a) (g a))
    (hu : ∀ a b, x = .ok a → f a = .ok b → u b ≤ w a + v a b) :
    Asks u (x >>= f) (fun as => do let p ← y as; g p.1 p.2) := by
  constructor
  · intro b hb
    obtain ⟨a, ha, hb⟩ := Out.bind_eq_ok.mp hb
    obtain ⟨k, hk, h1⟩ := h.1 a ha
    obtain ⟨l, hl, h2⟩ := (hf a).1 b hb
    refine ⟨k + l, Nat.le_trans (hu a b ha hb) (by omega), fun as => ⟨fun hg => ?_, fun ⟨n, hn, hg⟩ => ?_⟩⟩
    · simp only
      rw [(h1 as).1 (fun n hn => hg n (by omega))]
      simp only [Out.ok_bind]
      rw [(h2 (as.drop k)).1 (fun n hn => by rw [granted_drop]; exact hg _ (by omega)), List.drop_drop]
    · simp only
      by_cases hk' : ∃ n < k, granted as n = false
      · rw [(h1 as).2 hk']; rfl
      · have hall : ∀ n < k, granted as n = true := fun n hn => by
          cases e : granted as n with
          | true => rfl
          | false => exact absurd ⟨n, hn, e⟩ hk'
        rw [(h1 as).1 hall]
        simp only [Out.ok_bind]
        have hnk : k ≤ n := by
          by_cases h' : n < k
          · exact absurd ⟨n, h', hg⟩ hk'
          · omega
        exact (h2 (as.drop k)).2 ⟨n - k, by omega, by rw [granted_drop]; rw [show k + (n - k) = n by omega]; exact hg⟩
  · intro as p hp
    obtain ⟨q, hq, hp⟩ := Out.bind_eq_ok.mp hp
    rw [h.2 as q hq]
    exact (hf q.1).2 q.2 p hp

/-- Is the event the report of a received frame? -/
def isRxEvent : Event → Bool
  | .rxOk _ _ _ _ => true
  | .rxErr _ _ => true
  | _ => false

/-- The number of received frames that are reported. -/
def rxCount (es : List Event) : Nat := es.countP isRxEvent

theorem rxCount_append (l l' : List Event) : rxCount (l ++ l') = rxCount l + rxCount l' := List.countP_append

theorem rxFrame_count {cfg : Config} {r : Resource} {m : RxMsg} {p : Resource × List Event} (h : rxFrame cfg r m = .ok p) :
    rxCount p.2 ≤ 1 := by
  unfold rxFrame at h
  simp only at h
  split at h
  · cases h; simp [rxCount]
  · obtain ⟨b, -, h⟩ := Out.bind_eq_ok.mp h
    obtain ⟨o, -, h⟩ := Out.bind_eq_ok.mp h
    split at h
    · split at h
      · cases h; simp [rxCount, isRxEvent]
      · simp at h
    · obtain ⟨a, -, h⟩ := Out.bind_eq_ok.mp h
      cases h; simp [rxCount, isRxEvent]

theorem rxRead_count {cfg : Config} {s : Step} {i : Nat} {r : Resource} {p : Resource × List Event} (h : rxRead cfg s i r = .ok p) :
    rxCount p.2 ≤ 1 := by
  unfold rxRead at h
  split at h
  · cases h; simp [rxCount]
  · exact rxFrame_count h

theorem asks_resource (cfg : Config) (s : Step) (i : Nat) (r : Resource) :
    Asks (fun p => rxCount p.2) (rxResource cfg s i r) (rxResourceA cfg s i r) := by
  have e : rxResource cfg s i r = if hasRx r && s.readable i then rxRead cfg s i r else .ok (r, []) := rfl
  rw [e]
  by_cases h : (hasRx r && s.readable i) = true
  · have e2 : ∀ as, rxResourceA cfg s i r as =
        if granted as 0 then (do let x ← rxRead cfg s i r; .ok (x, as.drop 1)) else .ub .nullDeref := by
      intro as
      unfold rxResourceA
      rw [if_pos h, grant_eq]
    rw [if_pos h]
    constructor
    · intro p hp
      refine ⟨1, rxRead_count hp, fun as => ⟨fun hg => ?_, fun ⟨n, hn, hg⟩ => ?_⟩⟩
      · rw [e2, if_pos (hg 0 (by omega)), hp]; rfl
      · rw [show n = 0 by omega] at hg
        rw [e2, if_neg (by simp [hg])]
    · intro as p hp
      rw [e2] at hp
      split at hp
      · obtain ⟨q, hq, hp⟩ := Out.bind_eq_ok.mp hp
        cases hp
        exact hq
      · simp at hp
  · have e2 : rxResourceA cfg s i r = (fun as => (do let a ← (.ok (r, []) : Out (Resource × List Event)); .ok (a, as))) := by
      funext as
      unfold rxResourceA
      rw [if_neg h]
      rfl
    rw [if_neg h, e2]
    exact Asks.pure (fun a ha => by cases ha; rfl)

theorem asks_all (cfg : Config) (s : Step) (i : Nat) (rs : List Resource) :
    Asks (fun p => rxCount p.2) (rxAll cfg s i rs) (rxAllA cfg s i rs) := by
  induction rs generalizing i with
  | nil => exact Asks.pure (x := .ok ([], [])) (fun a ha => by cases ha; rfl)
  | cons r rs ih =>
    refine (asks_resource cfg s i r).bind (u := fun p => rxCount p.2) (v := fun x p => rxCount p.2 - rxCount x.2)
      (g := fun x as => do let y ← rxAllA cfg s (i + 1) rs as; .ok ((x.1 :: y.1.1, x.2 ++ y.1.2), y.2)) (fun x => ?_) (fun a b _ _ => by omega)
    refine (ih (i + 1)).bind (v := fun _ _ => 0) (g := fun y as => .ok ((x.1 :: y.1, x.2 ++ y.2), as)) (fun y => ?_) (fun a b _ hb => ?_)
    · exact Asks.pure (x := .ok (x.1 :: y.1, x.2 ++ y.2)) (fun _ _ => rfl)
    · cases hb
      simp only [rxCount, List.countP_append]
      omega

theorem txFirst_count {res : Int} {cs : List Cmd} {p : List Cmd × List Event × Bool} (h : txFirst res cs = .ok (some p)) :
    rxCount p.2.1 = 0 := by
  induction cs generalizing p with
  | nil => simp [txFirst] at h
  | cons c cs ih =>
    unfold txFirst at h
    split at h
    · split at h
      · simp only [Out.ok.injEq, Option.some.injEq] at h
        subst h
        unfold txOne
        simp only
        split <;> simp [rxCount, isRxEvent]
      · simp at h
    · obtain ⟨o, ho, h⟩ := Out.bind_eq_ok.mp h
      cases o with
      | none => simp at h
      | some q =>
        simp only [Out.ok.injEq, Option.some.injEq] at h
        subst h
        have h1 := ih ho
        exact h1

theorem txRound_count {w : Nat → Bool} {send : Nat → Int} {i k : Nat} {rs : List Resource}
    {p : List Resource × Nat × List Event × Bool} (h : txRound w send i k rs = .ok p) : rxCount p.2.2.1 = 0 := by
  induction rs generalizing i k p with
  | nil => simp only [txRound, Out.ok.injEq] at h; subst h; rfl
  | cons r rs ih =>
    unfold txRound at h
    split at h
    · obtain ⟨o, ho, h⟩ := Out.bind_eq_ok.mp h
      cases o with
      | none =>
        obtain ⟨q, hq, h⟩ := Out.bind_eq_ok.mp h
        simp only [Out.ok.injEq] at h
        subst h
        have h1 := ih hq
        exact h1
      | some t =>
        obtain ⟨q, hq, h⟩ := Out.bind_eq_ok.mp h
        simp only [Out.ok.injEq] at h
        subst h
        have h1 := txFirst_count ho
        have h2 := ih hq
        show rxCount (t.2.1 ++ q.2.2.1) = 0
        rw [rxCount_append, h1, h2]
    · obtain ⟨q, hq, h⟩ := Out.bind_eq_ok.mp h
      simp only [Out.ok.injEq] at h
      subst h
      have h1 := ih hq
      exact h1

theorem txLoop_count {w : Nat → Bool} {send : Nat → Int} {fuel k : Nat} {rs : List Resource}
    {p : Bool × List Resource × List Event} (h : txLoop w send fuel k rs = .ok p) : rxCount p.2.2 = 0 := by
  induction fuel generalizing k rs p with
  | zero => simp only [txLoop, Out.ok.injEq] at h; subst h; rfl
  | succ n ih =>
    unfold txLoop at h
    obtain ⟨q, hq, h⟩ := Out.bind_eq_ok.mp h
    have h1 := txRound_count hq
    simp only at h
    split at h
    · obtain ⟨t, ht, h⟩ := Out.bind_eq_ok.mp h
      simp only [Out.ok.injEq] at h
      subst h
      have h2 := ih ht
      show rxCount (q.2.2.1 ++ t.2.2) = 0
      rw [rxCount_append, h1, h2]
    · simp only [Out.ok.injEq] at h
      subst h
      exact h1

theorem asks_process (cfg : Config) (fuel : Nat) (s : Step) (rs : List Resource) :
    Asks (fun p => rxCount p.2.2) (process cfg fuel s rs) (processA cfg fuel s rs) := by
  refine (asks_all cfg s 0 rs).bind (u := fun p => rxCount p.2.2) (v := fun x p => rxCount p.2.2 - rxCount x.2)
    (f := fun x => do let y ← txLoop (writeSet s rs) s.send fuel 0 x.1; .ok (y.1, y.2.1, x.2 ++ y.2.2))
    (g := fun x as => do let y ← txLoop (writeSet s rs) s.send fuel 0 x.1; .ok ((y.1, y.2.1, x.2 ++ y.2.2), as))
    (fun x => ?_) (fun a b _ _ => by omega)
  have := Asks.pure (w := fun p => rxCount p.2.2 - rxCount x.2)
    (x := do let y ← txLoop (writeSet s rs) s.send fuel 0 x.1; .ok (y.1, y.2.1, x.2 ++ y.2.2)) (by
      intro a ha
      obtain ⟨y, hy, ha⟩ := Out.bind_eq_ok.mp ha
      simp only [Out.ok.injEq] at ha
      subst ha
      have := txLoop_count hy
      simp only [rxCount, List.countP_append] at this ⊢
      omega)
  simpa only [bind_assoc, Out.ok_bind] using this

theorem mainLoopA_cons (cfg : Config) (fuel : Nat) (tend : TimeVal) (s : Step) (hist : List Step) (left : TimeVal) (rs : List Resource) :
    mainLoopA cfg fuel tend (s :: hist) left rs = (fun as =>
      if ¬ wantsIo rs then .ok ((.finished, rs, []), as)
      else if timerGt s.now tend then .ok ((.finished, rs, [.wait left]), as)
      else if s.res ≤ 0 then .ok ((.finished, rs, [.wait left]), as)
      else do
        let x ← processA cfg fuel s rs as
        if x.1.1 then
          let y ← mainLoopA cfg fuel tend hist (timerSub tend s.now) x.1.2.1 x.2
          .ok ((y.1.1, y.1.2.1, .wait left :: (x.1.2.2 ++ y.1.2.2)), y.2)
        else .ok ((.sending, x.1.2.1, .wait left :: x.1.2.2), x.2)) := by
  funext as
  rw [mainLoopA]

theorem mainLoopA_nil (cfg : Config) (fuel : Nat) (tend : TimeVal) (left : TimeVal) (rs : List Resource) :
    mainLoopA cfg fuel tend [] left rs = fun as =>
      if ¬ wantsIo rs then .ok ((.finished, rs, []), as) else .ok ((.waiting, rs, [.wait left]), as) := by
  funext as
  rw [mainLoopA]

theorem asks_loop (cfg : Config) (fuel : Nat) (tend : TimeVal) (hist : List Step) (left : TimeVal) (rs : List Resource) :
    Asks (fun p => rxCount p.2.2) (mainLoop cfg fuel tend hist left rs) (mainLoopA cfg fuel tend hist left rs) := by
  induction hist generalizing left rs with
  | nil =>
    rw [mainLoopA_nil]
    unfold mainLoop
    by_cases h : ¬ wantsIo rs = true
    · simp only [if_pos h]
      exact Asks.pure (x := .ok _) (fun a ha => by cases ha; rfl)
    · simp only [if_neg h]
      exact Asks.pure (x := .ok _) (fun a ha => by cases ha; rfl)
  | cons s hist ih =>
    rw [mainLoopA_cons]
    unfold mainLoop
    by_cases h : ¬ wantsIo rs = true
    · simp only [if_pos h]
      exact Asks.pure (x := .ok _) (fun a ha => by cases ha; rfl)
    · simp only [if_neg h]
      by_cases h1 : timerGt s.now tend = true
      · simp only [if_pos h1]
        exact Asks.pure (x := .ok _) (fun a ha => by cases ha; rfl)
      · simp only [if_neg h1]
        by_cases h2 : s.res ≤ 0
        · simp only [if_pos h2]
          exact Asks.pure (x := .ok _) (fun a ha => by cases ha; rfl)
        · simp only [if_neg h2]
          refine (asks_process cfg fuel s rs).bind (u := fun p => rxCount p.2.2) (v := fun x p => rxCount p.2.2 - rxCount x.2.2)
            (f := fun x => if x.1 = true then do
                let y ← mainLoop cfg fuel tend hist (timerSub tend s.now) x.2.1
                .ok (y.1, y.2.1, .wait left :: (x.2.2 ++ y.2.2))
              else .ok (.sending, x.2.1, .wait left :: x.2.2))
            (g := fun x as => if x.1 = true then do
                let y ← mainLoopA cfg fuel tend hist (timerSub tend s.now) x.2.1 as
                .ok ((y.1.1, y.1.2.1, .wait left :: (x.2.2 ++ y.1.2.2)), y.2)
              else .ok ((.sending, x.2.1, .wait left :: x.2.2), as))
            (fun x => ?_) (fun a b _ _ => by omega)
          by_cases hx : x.1 = true
          · simp only [if_pos hx]
            refine (ih (timerSub tend s.now) x.2.1).bind (v := fun _ _ => 0)
              (g := fun y as => .ok ((y.1, y.2.1, .wait left :: (x.2.2 ++ y.2.2)), as)) (fun y => ?_) (fun a b _ hb => ?_)
            · exact Asks.pure (x := .ok _) (fun _ _ => rfl)
            · cases hb
              simp only [rxCount, List.countP_append, List.countP_cons]
              simp only [isRxEvent]
              simp
          · simp only [if_neg hx]
            exact Asks.pure (x := .ok _) (fun a ha => by
              cases ha
              simp only [rxCount, List.countP_cons, isRxEvent]
              simp)

theorem pcapEvents_count {cmds : List Cmd} {es : List Event} (h : pcapEvents cmds = .ok es) : rxCount es = 0 := by
  induction cmds generalizing es with
  | nil => simp only [pcapEvents, Out.ok.injEq] at h; subst h; rfl
  | cons c cs ih =>
    unfold pcapEvents at h
    split at h
    · split at h
      · obtain ⟨es', h1, h⟩ := Out.bind_eq_ok.mp h
        cases h
        have := ih h1
        simpa [rxCount, isRxEvent] using this
      · simp at h
    · exact ih h

theorem hexEvents_count {cmds : List Cmd} {es : List Event} (h : hexEvents cmds = .ok es) : rxCount es = 0 := by
  induction cmds generalizing es with
  | nil => simp only [hexEvents, Out.ok.injEq] at h; subst h; rfl
  | cons c cs ih =>
    unfold hexEvents at h
    split at h
    · split at h
      · exact ih h
      · split at h
        · obtain ⟨es', h1, h⟩ := Out.bind_eq_ok.mp h
          cases h
          have := ih h1
          simpa [rxCount, isRxEvent] using this
        · split at h
          · obtain ⟨es', h1, h⟩ := Out.bind_eq_ok.mp h
            cases h
            have := ih h1
            simpa [rxCount, isRxEvent] using this
          · simp at h
    · exact ih h

theorem openAll_count {canOpen : CStr → Bool} {rs : List Resource} {p : List Event × Bool} (h : openAll canOpen rs = .ok p) :
    rxCount p.1 = 0 := by
  induction rs generalizing p with
  | nil => simp only [openAll, Out.ok.injEq] at h; subst h; rfl
  | cons r rs ih =>
    unfold openAll at h
    obtain ⟨a, -, h⟩ := Out.bind_eq_ok.mp h
    split at h
    · obtain ⟨q, h1, h⟩ := Out.bind_eq_ok.mp h
      simp only [Out.ok.injEq] at h
      subst h
      have := ih h1
      simpa [rxCount, isRxEvent] using this
    · cases h; rfl

theorem checkResults_count (rs : List Resource) : rxCount (checkResults rs).2 = 0 := by
  have h1 : ∀ cs : List Cmd, rxCount (cs.flatMap noRxEvent) = 0 := by
    intro cs
    induction cs with
    | nil => rfl
    | cons c cs ih =>
      rw [List.flatMap_cons, rxCount_append, ih]
      unfold noRxEvent
      split <;> rfl
  induction rs with
  | nil => rfl
  | cons r rs ih =>
    show rxCount ((missing r).flatMap noRxEvent ++ (checkResults rs).2) = 0
    rw [rxCount_append, h1, ih]

theorem inventory_count (cmds : List Cmd) : rxCount (inventory cmds) = 0 := by
  induction cmds with
  | nil => rfl
  | cons c cs ih =>
    unfold inventory
    split
    · split
      · simpa [rxCount, isRxEvent] using ih
      · exact ih
    · exact ih

theorem resolved_asks (env : Env) (cmds : List Cmd) :
    (∀ r, execResolved env cmds = .ok r → ∃ k, rxCount r.events ≤ k ∧ ∀ as,
      ((∀ n < k, granted as n = true) → execResolvedA env cmds as = .ok r) ∧
      ((∃ n < k, granted as n = false) → execResolvedA env cmds as = .ub .nullDeref)) ∧
    ∀ as r, execResolvedA env cmds as = .ok r → execResolved env cmds = .ok r := by
  have key : ∀ rs, Asks (fun p => rxCount p.2.2)
      (mainLoop env.cfg env.fuel (timerAdd env.begin (timeoutVal env.timeoutMs)) env.hist (timeoutVal env.timeoutMs) rs)
      (mainLoopA env.cfg env.fuel (timerAdd env.begin (timeoutVal env.timeoutMs)) env.hist (timeoutVal env.timeoutMs) rs) :=
    fun rs => asks_loop _ _ _ _ _ _
  unfold execResolved execResolvedA
  cases hp : pcapAll env.cfg cmds with
  | ub u => simp
  | abort => simp
  | exit c => simp
  | ok ep =>
  have cp : rxCount ep = 0 := by
    unfold pcapAll at hp
    split at hp
    · exact pcapEvents_count hp
    · cases hp; rfl
  cases hh : hexEvents cmds with
  | ub u => simp
  | abort => simp
  | exit c => simp
  | ok eh =>
  cases hm : mapCmds cmds [] with
  | ub u => simp
  | abort => simp
  | exit c => simp
  | ok rs =>
  simp only [Out.ok_bind]
  cases ho : openAll env.canOpen rs with
  | ub u => simp
  | abort => simp
  | exit c => simp
  | ok q =>
  have ch := hexEvents_count hh
  have co := openAll_count ho
  obtain ⟨eo, ok⟩ := q
  simp only [Out.ok_bind]
  cases ok with
  | false =>
    simp only [Bool.false_eq_true, not_false_eq_true, if_true, Out.ok.injEq]
    refine ⟨fun r hr => ⟨0, ?_, fun as => ⟨fun _ => hr, fun ⟨n, hn, _⟩ => by omega⟩⟩, fun _ r hr => hr⟩
    subst hr
    simp only [rxCount_append, cp, ch, co]
    omega
  | true =>
    simp only [not_true_eq_false, if_false]
    obtain ⟨k1, k2⟩ := key rs
    constructor
    · intro r hr
      obtain ⟨⟨st, rs', el⟩, hl, hr⟩ := Out.bind_eq_ok.mp hr
      obtain ⟨k, hk, hka⟩ := k1 _ hl
      refine ⟨k, ?_, fun as => ⟨fun hg => ?_, fun hg => ?_⟩⟩
      · cases st
        all_goals
          simp only [Out.ok.injEq] at hr
          subst hr
          simp only at hk
          simp only [rxCount_append, cp, ch, co, checkResults_count]
          omega
      · rw [(hka as).1 hg]
        simp only [Out.ok_bind]
        exact hr
      · rw [(hka as).2 hg]
        rfl
    · intro as r hr
      obtain ⟨⟨⟨st, rs', el⟩, as'⟩, hl, hr⟩ := Out.bind_eq_ok.mp hr
      rw [k2 as _ hl]
      exact hr

/-! ## C134: running out of memory for received frames is never overlooked -/

/-- **C134.** A run in which memory for received frames may be refused either ends exactly like the run with enough memory, or does
not end: with a run that ends there is a number of requests, at least one for each frame reported, and if one of them is refused the
tool uses NULL. -/
theorem C134_noticed (env : Env) (cmds : List Cmd) :
    (∀ as r, execCmdsRx env cmds as = .ok r → execCmds env cmds = .ok r) ∧
    ∀ r, execCmds env cmds = .ok r → ∃ k, rxCount r.events ≤ k ∧ ∀ as,
      ((∀ n < k, granted as n = true) → execCmdsRx env cmds as = .ok r) ∧
      ((∃ n < k, granted as n = false) → execCmdsRx env cmds as = .ub .nullDeref) := by
  unfold execCmdsRx execCmds
  simp only
  by_cases he : (pairNames cmds cmds).2 ≠ []
  · simp only [if_pos he]
    refine ⟨fun _ r hr => hr, fun r hr => ⟨0, ?_, fun as => ⟨fun _ => hr, fun ⟨n, hn, _⟩ => by omega⟩⟩⟩
    simp only [Out.ok.injEq] at hr
    subst hr
    rw [rxCount_append, inventory_count, pairNames_eq]
    simp only [Nat.zero_add, Nat.le_zero]
    unfold rxCount
    rw [List.countP_eq_zero]
    intro e hm
    obtain ⟨c, -, hc⟩ := List.mem_filterMap.mp hm
    obtain ⟨n, -, rfl⟩ := Option.map_eq_some_iff.mp hc
    simp [isRxEvent]
  · simp only [if_neg he]
    obtain ⟨h1, h2⟩ := resolved_asks env (pairNames cmds cmds).1
    constructor
    · intro as r hr
      obtain ⟨x, hx, hr⟩ := Out.bind_eq_ok.mp hr
      rw [h2 as x hx]
      exact hr
    · intro r hr
      obtain ⟨x, hx, hr⟩ := Out.bind_eq_ok.mp hr
      obtain ⟨k, hk, hka⟩ := h1 x hx
      refine ⟨k, ?_, fun as => ⟨fun hg => ?_, fun hg => ?_⟩⟩
      · cases hr
        simp only [rxCount_append, inventory_count]
        omega
      · rw [(hka as).1 hg]; exact hr
      · rw [(hka as).2 hg]; rfl

/-- **C134**: with enough memory the run is the usual one. -/
theorem C134_enough (env : Env) (cmds : List Cmd) (as : List Bool) (ha : ∀ a ∈ as, a = true) (r : ExecRes)
    (h : execCmds env cmds = .ok r) : execCmdsRx env cmds as = .ok r := by
  obtain ⟨k, -, hk⟩ := (C134_noticed env cmds).2 r h
  refine (hk as).1 (fun n _ => ?_)
  unfold granted
  cases h : as[n]? with
  | none => rfl
  | some a => rw [ha a (List.mem_of_getElem? h)]; rfl

/-- Two frames arrive; without memory for the second one the tool does not end normally. -/
theorem C134_example : let run := execCmdsRx (listening [[1#8], [2#8]]) [expect [1#8] none, expect [2#8] none]
    (run [true, true, false]).get?.map (fun r => (r.ret, rxCount r.events)) = some (some 0, 2) ∧ run [true, false] = .ub .nullDeref := by
  intro run
  constructor
  · decide +kernel
  · have hk : ∀ o : Out ExecRes, (match o with | .ub .nullDeref => true | _ => false) = true → o = .ub .nullDeref := by
      intro o h
      split at h
      · rfl
      · simp at h
    exact hk _ (by decide +kernel)

end Ef.Props
