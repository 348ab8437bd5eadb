import Verif.Props.Attempts
import Verif.Props.Delivery
import Verif.Props.Silence

/-!
# What success and the TX lines tell about transmissions (C129)
-/

namespace Ef.Props

open Ef Ef.Spec

attribute [local irreducible] txOne

/-! ## C129: success and what was transmitted -/

/-- A `TX` line about interface `a`. -/
def isTxLine (a : CStr) : Event → Bool
  | .txDone a' _ _ => a' == a
  | _ => false

/-- The `TX` line for command `c`. -/
def txLine (a : CStr) (c : Cmd) : Event := .txDone a (c.buf.getD []) c.name

/-- What the operating system took in full on interface `a`. -/
def taken (a : CStr) (es : List Event) : List Buf := (es.filter sendOk).filterMap (sentOn a)

/-- **C129, full statement**: if the tool reports success, then everything was transmitted that was asked for. -/
def C129_statement : Prop :=
  ∀ (env : Env) (cmds : List Cmd) (r : ExecRes), Ready cmds → (∀ c ∈ cmds, c.type = .tx → 1 ≤ c.rep ∧ c.rep < 2 ^ 32) →
    (∀ c ∈ cmds, unresolved cmds c = false) → (∀ a ∈ ifaces cmds, env.canOpen a = true) →
    execCmds env cmds = .ok r → r.status = .finished → r.ret = some 0 →
    ∀ a ∈ ifaces cmds, taken a r.events = requested (onSocket a cmds)

/-! ### Lines and operations -/

theorem txFins_ascending {cs ops cs'} (h : Run cs ops cs') (hf : Fresh cs) : (txFins ops).Pairwise (· < ·) := by
  induction h with
  | nil => simp [txFins]
  | snoc cs1 cs2 ops op hr hs ih =>
    have hord := (Run.snoc cs1 cs2 ops op hr hs).order.1
    rw [txFins_append]
    cases hs with
    | hit b j c hj hm _ => simpa using ih
    | miss b hm => simpa using ih
    | tx j res c b a hj hp _ _ _ =>
      rw [txFins_tx]
      split
      · rw [List.pairwise_append]
        refine ⟨ih, by simp, fun x hx y hy => ?_⟩
        obtain rfl : y = j := by simpa using hy
        rw [txIdx_append, List.pairwise_append] at hord
        have hle := hord.2.2 x (txFins_sub ops x hx) y (by simp [txIdx])
        have hne : x ≠ y := by
          rintro rfl
          have := (hr.done_iff hf x c hj).mpr (.inr hx)
          rw [hp.2] at this
          exact Bool.false_ne_true this
        omega
      · simpa using ih

theorem opEvents_lines (a cs) (ops : List Op) :
    (ops.flatMap (opEvents a cs)).filter (isTxLine a) = (txFins ops).filterMap (fun j => cs[j]?.map (txLine a)) := by
  induction ops with
  | nil => rfl
  | cons op ops ih =>
    have e : op :: ops = [op] ++ ops := rfl
    rw [List.flatMap_cons, List.filter_append, ih, e, txFins_append, List.filterMap_append]
    congr 1
    cases op with
    | rx b o =>
      cases o with
      | none => simp [opEvents, isTxLine]
      | some j =>
        simp only [opEvents]
        split <;> simp [isTxLine]
    | tx j res fin =>
      simp only [opEvents]
      cases hj : cs[j]? with
      | none => cases fin <;> simp [hj]
      | some c => cases fin <;> simp [isTxLine, hj, txLine]

theorem lines_onIface (a : CStr) (es : List Event) : es.filter (isTxLine a) = (onIface a es).filter (isTxLine a) := by
  unfold onIface
  rw [List.filter_filter]
  refine List.filter_congr fun e _ => ?_
  cases e <;> simp_all [isTxLine, ifaceOf]

theorem lines_eq {env : Env} {cs : List Cmd} {i : Nat} {a : CStr} {r : ExecRes} {n : Nat} {ops : List Op} {r' : Resource}
    (h : SocketRun env cs i a r n ops r') :
    r.events.filter (isTxLine a) = (txFins ops).filterMap (fun j => cs[j]?.map (txLine a)) := by
  rw [lines_onIface, h.events, List.filter_append, opEvents_lines]
  have : ∀ l : List Cmd, (l.map (noRxReport a)).filter (isTxLine a) = [] := by
    intro l
    rw [List.filter_eq_nil_iff]
    intro e he
    obtain ⟨c, _, rfl⟩ := List.mem_map.mp he
    simp [noRxReport, isTxLine]
  split
  · rw [this, List.append_nil]
  · simp

/-- A strictly ascending list of places of tx commands is not longer than the number of these commands; if it has this
length it has all of them. -/
theorem ascending_places : ∀ (cs : List Cmd) (n : Nat) (l : List Nat), l.Pairwise (· < ·) →
    (∀ j ∈ l, n ≤ j ∧ ∃ c, cs[j - n]? = some c ∧ c.type = .tx) →
    l.length ≤ cs.countP (fun c => c.type == .tx) ∧
    (l.length = cs.countP (fun c => c.type == .tx) → ∀ (j : Nat) c, cs[j]? = some c → c.type = .tx → n + j ∈ l)
  | [], n, l, _, h => by
    have : l = [] := by
      rw [List.eq_nil_iff_forall_not_mem]
      intro j hj
      obtain ⟨_, c, hc, _⟩ := h j hj
      simp at hc
    subst this
    simp
  | c :: cs, n, l, hp, h => by
    have tail : ∀ m : List Nat, m.Pairwise (· < ·) → (∀ j ∈ m, n < j) → (∀ j ∈ m, j ∈ l) →
        m.length ≤ cs.countP (fun c => c.type == .tx) ∧
        (m.length = cs.countP (fun c => c.type == .tx) → ∀ (j : Nat) c, cs[j]? = some c → c.type = .tx → n + 1 + j ∈ m) := by
      intro m hm hlt hsub
      refine ascending_places cs (n + 1) m hm (fun j hj => ⟨hlt j hj, ?_⟩)
      obtain ⟨_, x, hx, ht⟩ := h j (hsub j hj)
      have := hlt j hj
      have e : j - n = (j - (n + 1)) + 1 := by omega
      rw [e, List.getElem?_cons_succ] at hx
      exact ⟨x, hx, ht⟩
    rw [List.countP_cons]
    by_cases hn : n ∈ l
    · cases l with
      | nil => simp at hn
      | cons k l' =>
        rw [List.pairwise_cons] at hp
        have hk : k = n := by
          have h1 := (h k List.mem_cons_self).1
          rcases List.mem_cons.mp hn with h2 | h2
          · exact h2.symm
          · have := hp.1 n h2; omega
        subst hk
        obtain ⟨_, x, hx, ht⟩ := h k List.mem_cons_self
        rw [Nat.sub_self, List.getElem?_cons_zero, Option.some.injEq] at hx
        subst hx
        obtain ⟨t1, t2⟩ := tail l' hp.2 hp.1 (fun j hj => List.mem_cons_of_mem _ hj)
        simp only [ht, beq_self_eq_true, ↓reduceIte, List.length_cons]
        refine ⟨by omega, fun he j y hy hyt => ?_⟩
        cases j with
        | zero => exact List.mem_cons_self
        | succ j =>
          rw [List.getElem?_cons_succ] at hy
          have := t2 (by omega) j y hy hyt
          have e : k + (j + 1) = k + 1 + j := by omega
          rw [e]
          exact List.mem_cons_of_mem _ this
    · have hlt : ∀ j ∈ l, n < j := by
        intro j hj
        have h1 := (h j hj).1
        have : j ≠ n := fun e => hn (e ▸ hj)
        omega
      obtain ⟨t1, t2⟩ := tail l hp hlt (fun j hj => hj)
      refine ⟨by omega, fun he j y hy hyt => ?_⟩
      cases j with
      | zero =>
        rw [List.getElem?_cons_zero, Option.some.injEq] at hy
        subst hy
        simp only [hyt, beq_self_eq_true, ↓reduceIte] at he
        omega
      | succ j =>
        rw [List.getElem?_cons_succ] at hy
        have := t2 (by omega) j y hy hyt
        have e : n + (j + 1) = n + 1 + j := by omega
        rw [e]
        exact this

/-! ### What the lines tell -/

/-- **C129, the lines**: whatever `send` returns, the `TX` lines about an interface are those of the commands that were
completed, one for each, in the order of the command line. A command is completed by a call that takes the whole frame and
whose number is the number requested (or exceeds it by a multiple of 2³²), and this call is its last one. -/
theorem C129_lines_partial (env : Env) (cmds : List Cmd) (r : ExecRes) (i : Nat) (a : CStr) (hr : Ready cmds)
    (hrep : ∀ c ∈ cmds, c.rep < 2 ^ 32) (hu : ∀ c ∈ cmds, unresolved cmds c = false)
    (hopen : ∀ a ∈ ifaces cmds, env.canOpen a = true) (h : execCmds env cmds = .ok r)
    (hi : (ifaces cmds)[i]? = some a) :
    ∃ (fins : List Nat) (rs : Nat → List Int),
      r.events.filterMap (attemptOn a) = attempts (onSocket a cmds) rs ∧
      fins.Pairwise (· < ·) ∧
      r.events.filter (isTxLine a) = fins.filterMap (fun j => (onSocket a cmds)[j]?.map (txLine a)) ∧
      ∀ (j : Nat) c, (onSocket a cmds)[j]? = some c →
        (j ∈ fins ↔ ∃ k, (rs j).length = k + 1 ∧ CompletedBy c (rs j) k) := by
  obtain ⟨⟨n, hn, hfull, hs⟩, _⟩ := exec_report hr hu hopen h
  obtain ⟨ops, r', hS⟩ := hs i a hi
  have hf : Fresh (onSocket a cmds) := cmdsOn_fresh (hr.resolve cmds).fresh a
  refine ⟨txFins ops, txRes ops, ?_, txFins_ascending hS.run hf, lines_eq hS, ?_⟩
  · rw [attempts_onIface, hS.events, List.filterMap_append, hS.run.attempts]
    have : ∀ l : List Cmd, (l.map (noRxReport a)).filterMap (attemptOn a) = [] := by
      intro l
      rw [List.filterMap_eq_nil_iff]
      intro e he
      obtain ⟨c, _, rfl⟩ := List.mem_map.mp he
      rfl
    split
    · rw [this, List.append_nil]; rfl
    · simp; rfl
  intro j c hcj
  have hlt : c.rep < 2 ^ 32 := by
    have hm := (List.mem_filter.mp (List.mem_of_getElem? hcj)).1
    obtain ⟨c0, hc0, rfl⟩ := List.mem_map.mp hm
    rw [resolve_rep]
    exact hrep c0 hc0
  have hjl : j < r'.cmds.length := by
    rw [hS.run.same.1]; exact (List.getElem?_eq_some_iff.mp hcj).1
  exact (hS.run.completes hf j c _ hcj (List.getElem?_eq_getElem hjl) hlt).2.2

theorem taken_all {a : CStr} {es : List Event} (h : ∀ e ∈ es, ifaceOf e = some a → sendOk e = true) :
    taken a es = es.filterMap (sentOn a) := by
  unfold taken
  induction es with
  | nil => rfl
  | cons e es ih =>
    have ih := ih (fun x hx => h x (List.mem_cons_of_mem _ hx))
    rw [List.filter_cons]
    split
    · rw [List.filterMap_cons, List.filterMap_cons, ih]
    · rename_i hno
      have h0 : sentOn a e = none := by
        cases e with
        | send a' b res =>
          simp only [sentOn]
          split
          · rename_i he
            subst he
            exact absurd (h _ List.mem_cons_self rfl) hno
          · rfl
        | _ => rfl
      rw [List.filterMap_cons, h0, ih]

/-- **C129, with the lines**: if each call of `send` on the interface takes the whole frame, then the number of `TX` lines
about it is at most the number of tx commands for it, and if it is this number then exactly the frames asked for were
transmitted. The result of the tool is not needed for this. -/
theorem C129_all_lines_partial (env : Env) (cmds : List Cmd) (r : ExecRes) (i : Nat) (a : CStr) (hr : Ready cmds)
    (hrep : ∀ c ∈ cmds, c.type = .tx → 1 ≤ c.rep ∧ c.rep < 2 ^ 32) (hu : ∀ c ∈ cmds, unresolved cmds c = false)
    (hopen : ∀ a ∈ ifaces cmds, env.canOpen a = true) (h : execCmds env cmds = .ok r)
    (hi : (ifaces cmds)[i]? = some a) (hsend : ∀ e ∈ r.events, ifaceOf e = some a → sendOk e = true) :
    (r.events.filter (isTxLine a)).length ≤ (onSocket a cmds).countP (fun c => c.type == .tx) ∧
    ((r.events.filter (isTxLine a)).length = (onSocket a cmds).countP (fun c => c.type == .tx) →
      taken a r.events = requested (onSocket a cmds)) := by
  obtain ⟨⟨n, hn, hfull, hs⟩, _⟩ := exec_report hr hu hopen h
  obtain ⟨ops, r', hS⟩ := hs i a hi
  have hf : Fresh (onSocket a cmds) := cmdsOn_fresh (hr.resolve cmds).fresh a
  have htyp : ∀ j ∈ txFins ops, 0 ≤ j ∧ ∃ c, (onSocket a cmds)[j - 0]? = some c ∧ c.type = .tx :=
    fun j hj => ⟨Nat.zero_le _, txFins_type hS.run j (txFins_sub ops j hj)⟩
  obtain ⟨p1, p2⟩ := ascending_places _ 0 _ (txFins_ascending hS.run hf) htyp
  have hlen : (r.events.filter (isTxLine a)).length = (txFins ops).length := by
    rw [lines_eq hS]
    have : ∀ l : List Nat, (∀ j ∈ l, ∃ c, (onSocket a cmds)[j]? = some c ∧ c.type = .tx) →
        (l.filterMap (fun j => (onSocket a cmds)[j]?.map (txLine a))).length = l.length := by
      intro l
      induction l with
      | nil => intro _; rfl
      | cons j l ih =>
        intro hl
        obtain ⟨c, hc, _⟩ := hl j List.mem_cons_self
        rw [List.filterMap_cons, hc]
        simp only [Option.map_some, List.length_cons]
        rw [ih (fun x hx => hl x (List.mem_cons_of_mem _ hx))]
    exact this _ (fun j hj => (htyp j hj).2)
  rw [hlen]
  refine ⟨p1, fun he => ?_⟩
  rw [taken_all hsend, sent_eq hS]
  apply transmissions_requested
  intro j c hcj ht
  have hall : AllSent (onSocket a cmds) ops := by
    intro j res fin c b hop hcj hb
    have hev : Event.send a b res ∈ onIface a r.events := by
      rw [hS.events]
      apply List.mem_append_left
      refine List.mem_flatMap.mpr ⟨_, hop, ?_⟩
      have hcj' : (cmdsOn a (cmds.map (resolve cmds)))[j]? = some c := hcj
      simp only [opEvents, hcj', hb, Option.getD_some]
      exact List.mem_cons_self
    have := hsend _ (List.mem_filter.mp hev).1 rfl
    simpa [sendOk] using this
  have hrep' : 1 ≤ c.rep ∧ c.rep < 2 ^ 32 := by
    obtain ⟨c0, hc0, rfl⟩ := List.mem_map.mp (List.mem_filter.mp (List.mem_of_getElem? hcj)).1
    rw [resolve_rep]
    exact hrep c0 hc0 (by rw [resolve_type] at ht; exact ht)
  have hjl : j < r'.cmds.length := by
    rw [hS.run.same.1]; exact (List.getElem?_eq_some_iff.mp hcj).1
  have hcount := hS.run.count hf hall j c _ hcj (List.getElem?_eq_getElem hjl) hrep'.1 hrep'.2
  have := p2 he j c hcj ht
  rw [Nat.zero_add] at this
  exact hcount.2.1.mp this

/-- C129: without rx commands a run that ends has the result 0, whatever happens to the transmissions. -/
theorem C129_always_zero (env : Env) (cmds : List Cmd) (r : ExecRes) (hr : Ready cmds)
    (hu : ∀ c ∈ cmds, unresolved cmds c = false) (hopen : ∀ a ∈ ifaces cmds, env.canOpen a = true)
    (h : execCmds env cmds = .ok r) (hst : r.status = .finished) (hno : ∀ c ∈ cmds, c.type ≠ .rx) : r.ret = some 0 := by
  rw [C101_sum env cmds r hr hu hopen h hst]
  have : (ifaces cmds).map (fun a => errorsOn a r.events) = (ifaces cmds).map (fun _ => 0) := by
    apply List.map_congr_left
    intro a ha
    obtain ⟨i, hi⟩ := List.mem_iff_getElem?.mp ha
    refine (C128_not_asked env cmds r hr hu hopen h hst i a hi (fun c hc => ?_)).2.2
    obtain ⟨c0, hc0, rfl⟩ := List.mem_map.mp (List.mem_filter.mp hc).1
    rw [resolve_type]
    exact hno c0 hc0
  rw [this]
  have z : ∀ l : List CStr, (l.map (fun _ => 0)).sum = 0 := by
    intro l
    induction l with
    | nil => rfl
    | cons _ l ih => rw [List.map_cons, List.sum_cons, ih]
  rw [z]
  rfl

/-! ### Examples -/

theorem one_ready (n : Nat) (hn : n = 1 ∨ n = 3) : Ready [transmit [1#8] n] := by
  rcases hn with rfl | rfl <;>
  exact ⟨by unfold Fresh; decide +kernel, by unfold HasIface; decide +kernel, by decide +kernel⟩

/-- **C129 does not hold**: the interface never gets ready for transmission, nothing is transmitted, the result is 0. -/
theorem C129_false : ¬ C129_statement := by
  intro hs
  have h := hs (readyTimes 0) [transmit [1#8] 1] (result (readyTimes 0) [transmit [1#8] 1]) (one_ready 1 (.inl rfl))
    (by decide +kernel) (by decide +kernel) (fun _ _ => rfl) (result_ok (by decide +kernel)) (by decide +kernel)
    (by decide +kernel) c!"e" (by decide +kernel)
  exact absurd h (by decide +kernel)

/-- The interface is ready once, the result of call `k` of `send` is `f k`, then nothing happens until the time is over. -/
def readyOnce (f : Nat → Int) : Env :=
  Env.mk ⟨true, true⟩ (fun _ => true) ⟨0, 0⟩ 100
    [Step.mk 1 ⟨0, 0⟩ (fun _ => false) (fun _ => true) (fun _ => none) f,
      Step.mk 0 ⟨0, 0⟩ (fun _ => false) (fun _ => false) (fun _ => none) (fun _ => 0)] 10

/-- The same if `send` fails; there is no `TX` line. -/
theorem C129_refused :
    (result (readyOnce (fun _ => -1)) [transmit [1#8] 1]).status = .finished ∧
    (result (readyOnce (fun _ => -1)) [transmit [1#8] 1]).ret = some 0 ∧
    taken c!"e" (result (readyOnce (fun _ => -1)) [transmit [1#8] 1]).events = [] ∧
    (result (readyOnce (fun _ => -1)) [transmit [1#8] 1]).events.filter (isTxLine c!"e") = [] ∧
    (result (readyOnce (fun _ => -1)) [transmit [1#8] 1]).events.filterMap (attemptOn c!"e") = [([1#8], -1)] := by
  decide +kernel

/-- A `TX` line does not tell that all copies of the frame were transmitted: only the last call has to succeed. -/
theorem C129_last_only :
    (result (readyOnce (fun k => if k = 2 then 1 else -1)) [transmit [1#8] 3]).ret = some 0 ∧
    (result (readyOnce (fun k => if k = 2 then 1 else -1)) [transmit [1#8] 3]).events.filter (isTxLine c!"e") =
      [txLine c!"e" (transmit [1#8] 3)] ∧
    (result (readyOnce (fun k => if k = 2 then 1 else -1)) [transmit [1#8] 3]).events.filterMap (attemptOn c!"e") =
      [([1#8], -1), ([1#8], -1), ([1#8], 1)] := by decide +kernel

/-- Non-vacuity: two commands, two lines, four frames. -/
example : let r := result (readyTimes 2) busy
    (execCmds (readyTimes 2) busy).get?.isSome ∧ r.status = .finished ∧ r.ret = some 0 ∧
    (∀ e ∈ r.events, ifaceOf e = some c!"e" → sendOk e = true) ∧
    (r.events.filter (isTxLine c!"e")).length = (onSocket c!"e" busy).countP (fun c => c.type == .tx) ∧
    taken c!"e" r.events = [[1#8], [1#8], [1#8], [2#8]] ∧
    requested (onSocket c!"e" busy) = [[1#8], [1#8], [1#8], [2#8]] := by decide +kernel

/-- If the interface is ready only once, one line is missing. -/
example : let r := result (readyTimes 1) busy
    r.ret = some 0 ∧ (r.events.filter (isTxLine c!"e")).length = 1 := by decide +kernel

end Ef.Props
