import Verif.Lemmas.TraceRes
import Verif.Props.Transmit

/-!
# C60: number of transmissions, exactly
-/

namespace Ef.Props

open Spec

theorem attempts_onIface (a : CStr) (es : List Event) :
    es.filterMap (attemptOn a) = (onIface a es).filterMap (attemptOn a) := by
  unfold onIface
  induction es with
  | nil => rfl
  | cons e es ih =>
    rw [List.filterMap_cons, List.filter_cons]
    by_cases he : ifaceOf e = some a
    · simp only [he, beq_self_eq_true, ↓reduceIte]
      rw [List.filterMap_cons, ih]
    · have h1 : attemptOn a e = none := by
        cases e <;> simp_all [attemptOn, ifaceOf]
      have h2 : (ifaceOf e == some a) = false := by simpa using he
      rw [h1, h2, ih]
      rfl

/-- **C60, exactly**: whatever `send` returns, the calls on an interface are those for its first tx command, then those
for the second one and so on. A command is completed by the first call that takes the whole frame and whose number is
the number requested or exceeds it by a multiple of 2³²; there is no call for it afterwards, and as long as there was no
such call and no received frame was credited to it, the commands behind it have to wait. If the run ends and is not cut
short, each command is completed this way, or a received frame was credited to it (see C62). -/
theorem C60_exactly (env : Env) (cmds : List Cmd) (r : ExecRes) (i : Nat) (a : CStr) (hr : Ready cmds)
    (hrep : ∀ c ∈ cmds, c.rep < 2 ^ 32) (hu : ∀ c ∈ cmds, unresolved cmds c = false)
    (hopen : ∀ a ∈ ifaces cmds, env.canOpen a = true) (h : execCmds env cmds = .ok r)
    (hi : (ifaces cmds)[i]? = some a) :
    ∃ (n : Nat) (out : List (Option Nat)) (rs : Nat → List Int),
      Credited (onSocket a cmds) (heard env (onSocket a cmds) i n) out ∧
      r.events.filterMap (attemptOn a) = attempts (onSocket a cmds) rs ∧
      ∀ (j : Nat) c, (onSocket a cmds)[j]? = some c →
        (c.type ≠ .tx → rs j = []) ∧
        (∀ k, k + 1 < (rs j).length → ¬ CompletedBy c (rs j) k) ∧
        (c.type = .tx → some j ∉ out → ((∃ j', j < j' ∧ rs j' ≠ []) ∨
            (r.status = .finished ∧ ∀ s ∈ env.hist, ¬ timerGt s.now (deadline env) ∧ 0 < s.res)) →
          ∃ k, (rs j).length = k + 1 ∧ CompletedBy c (rs j) k) := by
  obtain ⟨⟨n, hn, hfull, hs⟩, _⟩ := exec_report hr hu hopen h
  obtain ⟨ops, r', hS⟩ := hs i a hi
  have hf : Fresh (onSocket a cmds) := cmdsOn_fresh (hr.resolve cmds).fresh a
  have hc := hS.run.credited hf
  rw [hS.frames] at hc
  refine ⟨n, rxOuts ops, txRes ops, hc, ?_, ?_⟩
  · rw [attempts_onIface, hS.events, List.filterMap_append, hS.run.attempts]
    have : ∀ l : List Cmd, (l.map (noRxReport a)).filterMap (attemptOn a) = [] := by
      intro l
      rw [List.filterMap_eq_nil_iff]
      intro e he
      obtain ⟨c, _, rfl⟩ := List.mem_map.mp he
      rfl
    split
    · rw [this, List.append_nil]; rfl
    · simp; rfl
  intro j c hcj
  have hlt : c.rep < 2 ^ 32 := by
    have hm := (List.mem_filter.mp (List.mem_of_getElem? hcj)).1
    obtain ⟨c0, hc0, rfl⟩ := List.mem_map.mp hm
    rw [resolve_rep]
    exact hrep c0 hc0
  have hjl : j < r'.cmds.length := by
    rw [hS.run.same.1]; exact (List.getElem?_eq_some_iff.mp hcj).1
  obtain ⟨_, g2, g3⟩ := hS.run.completes hf j c _ hcj (List.getElem?_eq_getElem hjl) hlt
  have hty : r'.cmds[j].type = c.type := by
    obtain ⟨c0, hc0, hst0⟩ := hS.run.same.back (List.getElem?_eq_getElem hjl)
    have hcj' : (cmdsOn a (cmds.map (resolve cmds)))[j]? = some c := hcj
    rw [hcj'] at hc0
    simp only [Option.some.injEq] at hc0
    rw [hst0.1, ← hc0]
  refine ⟨?_, g2, ?_⟩
  · intro ht
    refine txRes_nil fun hm => ?_
    obtain ⟨x, hx, hxt⟩ := txFins_type hS.run j hm
    have hcj' : (cmdsOn a (cmds.map (resolve cmds)))[j]? = some c := hcj
    rw [hcj'] at hx
    simp only [Option.some.injEq] at hx
    subst hx
    exact ht hxt
  intro ht hno hcase
  rw [← g3]
  have hd : r'.cmds[j].done = true := by
    cases hx : r'.cmds[j].done with
    | true => rfl
    | false =>
      exfalso
      rcases hcase with ⟨j', hjj, hne⟩ | ⟨hst, hnc⟩
      · exact hS.run.order.2 j' (mem_txIdx_of_res hne) j _ hjj (List.getElem?_eq_getElem hjl) ⟨hty.trans ht, hx⟩
      · obtain ⟨pre, hpre, hcase⟩ := execCmds_parts hr hu h
        rcases hcase with ⟨hopf, _⟩ | ⟨_, el, hml, _⟩
        · rw [List.all_eq_false] at hopf
          obtain ⟨x, hx, hf⟩ := hopf
          exact hf (hopen x hx)
        · rcases (mainLoop_status hml).1 hst with hw | ⟨s, hs', hl⟩
          · have hnt : hasTx r' = false := by
              unfold wantsIo at hw
              rw [List.any_eq_false] at hw
              have := hw r' (List.mem_of_getElem? hS.state)
              cases hx : hasTx r' with
              | false => rfl
              | true => rw [hx] at this; simp at this
            unfold hasTx at hnt
            rw [List.any_eq_false] at hnt
            have hpend := hnt _ (List.mem_of_getElem? (List.getElem?_eq_getElem hjl))
            rw [hty, ht, hx] at hpend
            simp at hpend
          · obtain ⟨h3, h4⟩ := hnc s hs'
            unfold lastStep at hl
            simp only [Bool.or_eq_true, decide_eq_true_eq] at hl
            rcases hl with hl | hl
            · exact h3 hl
            · omega
  rcases (hS.run.done_iff hf j _ (List.getElem?_eq_getElem hjl)).mp hd with h3 | h3
  · exact absurd h3 hno
  · exact h3

/-- **C60**: if the transmission number `rep` (at least 1) takes the whole frame, it is the last one; otherwise there
are more, or the run does not get there. Failures of the transmissions before it are not made up for. -/
theorem C60_last_one_counts {c : Cmd} {results : List Int} (hn : 1 ≤ c.rep) (hlt : c.rep < 2 ^ 32)
    (h : ∀ k, k + 1 < results.length → ¬ CompletedBy c results k)
    (hd : ∃ k, results.length = k + 1 ∧ CompletedBy c results k) :
    c.rep ≤ results.length ∧
      (results.length = c.rep ↔ results[c.rep - 1]? = some ((c.buf.getD []).length : Int)) ∧
      (results.length ≠ c.rep → c.rep + 2 ^ 32 ≤ results.length) := by
  obtain ⟨k, hk, h1, h2⟩ := hd
  have hge : c.rep ≤ results.length := by
    rw [hk]
    have := Nat.mod_le (k + 1) (2 ^ 32)
    omega
  have hne : results.length ≠ c.rep → c.rep + 2 ^ 32 ≤ results.length := by
    intro hne
    rw [hk] at hne ⊢
    have := Nat.div_add_mod (k + 1) (2 ^ 32)
    rw [h1] at this
    cases hq : (k + 1) / 2 ^ 32 with
    | zero => rw [hq] at this; omega
    | succ q => rw [hq] at this; omega
  refine ⟨hge, ⟨?_, ?_⟩, hne⟩
  · intro e
    rw [← e, hk, Nat.add_sub_cancel]
    exact h2
  · intro e
    refine Classical.byContradiction fun hne' => ?_
    have := hne hne'
    refine h (c.rep - 1) (by omega) ⟨?_, e⟩
    rw [Nat.sub_add_cancel hn]
    exact Nat.mod_eq_of_lt hlt

/-- Non-vacuity: of three transmissions the first one fails; there is no fourth. -/
def oneFails : Env :=
  Env.mk ⟨true, true⟩ (fun _ => true) ⟨0, 0⟩ 100
    [Step.mk 1 ⟨0, 0⟩ (fun _ => false) (fun _ => true) (fun _ => none) (fun k => if k = 0 then -1 else 1)] 10

example : let r := result oneFails [transmit [1#8] 3]
    (execCmds oneFails [transmit [1#8] 3]).get?.isSome ∧ r.status = .finished ∧ r.ret = some 0 ∧
    r.events.filterMap (attemptOn c!"e") = [([1#8], -1), ([1#8], 1), ([1#8], 1)] ∧
    (∀ s ∈ oneFails.hist, ¬ timerGt s.now (deadline oneFails) ∧ 0 < s.res) := by decide +kernel

end Ef.Props
