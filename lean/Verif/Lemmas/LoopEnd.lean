import Verif.Lemmas.Events

/-!
# How the main loop ends, and how long it waits
-/

namespace Ef

open Spec

/-- After this answer of the operating system the loop is left. -/
def lastStep (tend : TimeVal) (s : Step) : Bool := timerGt s.now tend || decide (s.res ≤ 0)

theorem usable_cons (tend : TimeVal) (s : Step) (hist : List Step) :
    usable tend (s :: hist) = if lastStep tend s then [] else s :: usable tend hist := by
  unfold usable lastStep
  rw [List.takeWhile_cons]
  by_cases h1 : timerGt s.now tend = true
  · simp [h1]
  · by_cases h2 : 0 < s.res
    · have h3 : ¬ s.res ≤ 0 := by omega
      simp [h1, h2, h3]
    · have h3 : s.res ≤ 0 := by omega
      simp [h1, h2, h3]

/-- One round of the loop. -/
theorem mainLoop_cons {cfg fuel tend s hist left rs st rs' es}
    (h : mainLoop cfg fuel tend (s :: hist) left rs = .ok (st, rs', es)) :
    (wantsIo rs = false ∧ st = .finished ∧ rs' = rs ∧ es = []) ∨
    (wantsIo rs = true ∧ lastStep tend s = true ∧ st = .finished ∧ rs' = rs ∧ es = [.wait left]) ∨
    (wantsIo rs = true ∧ lastStep tend s = false ∧ ∃ fin rs1 e1, process cfg fuel s rs = .ok (fin, rs1, e1) ∧
      ((fin = false ∧ st = .sending ∧ rs' = rs1 ∧ es = .wait left :: e1) ∨
       (fin = true ∧ ∃ e2, mainLoop cfg fuel tend hist (timerSub tend s.now) rs1 = .ok (st, rs', e2) ∧
        es = .wait left :: (e1 ++ e2)))) := by
  unfold mainLoop at h
  cases hw : wantsIo rs with
  | false =>
    simp only [hw, Bool.false_eq_true, not_false_eq_true, ↓reduceIte, Out.ok.injEq, Prod.mk.injEq] at h
    exact .inl ⟨rfl, h.1.symm, h.2.1.symm, h.2.2.symm⟩
  | true =>
    simp only [hw, not_true_eq_false, ↓reduceIte] at h
    right
    unfold lastStep
    split at h
    · rename_i hl
      simp only [Out.ok.injEq, Prod.mk.injEq] at h
      exact .inl ⟨rfl, by simp [hl], h.1.symm, h.2.1.symm, h.2.2.symm⟩
    · rename_i hl
      split at h
      · rename_i hz
        simp only [Out.ok.injEq, Prod.mk.injEq] at h
        exact .inl ⟨rfl, by simp [hz], h.1.symm, h.2.1.symm, h.2.2.symm⟩
      · rename_i hz
        simp only [Out.bind_eq_ok] at h
        obtain ⟨⟨fin, rs1, e1⟩, h1, h⟩ := h
        refine .inr ⟨rfl, by simp [hl, hz], fin, rs1, e1, h1, ?_⟩
        simp only at h
        split at h
        · rename_i hf
          simp only [Out.bind_eq_ok] at h
          obtain ⟨⟨st2, rs2, e2⟩, h2, h3⟩ := h
          simp only [Out.ok.injEq, Prod.mk.injEq] at h3
          obtain ⟨rfl, rfl, rfl⟩ := h3
          exact .inr ⟨hf, e2, h2, rfl⟩
        · rename_i hf
          simp only [Out.ok.injEq, Prod.mk.injEq] at h
          exact .inl ⟨by simpa using hf, h.1.symm, h.2.1.symm, h.2.2.symm⟩

theorem mainLoop_nil {cfg fuel tend left rs st rs' es}
    (h : mainLoop cfg fuel tend [] left rs = .ok (st, rs', es)) :
    (wantsIo rs = false ∧ st = .finished ∧ rs' = rs ∧ es = []) ∨
    (wantsIo rs = true ∧ st = .waiting ∧ rs' = rs ∧ es = [.wait left]) := by
  unfold mainLoop at h
  cases hw : wantsIo rs with
  | false =>
    simp only [hw, Bool.false_eq_true, not_false_eq_true, ↓reduceIte, Out.ok.injEq, Prod.mk.injEq] at h
    exact .inl ⟨rfl, h.1.symm, h.2.1.symm, h.2.2.symm⟩
  | true =>
    simp only [hw, not_true_eq_false, ↓reduceIte, Out.ok.injEq, Prod.mk.injEq] at h
    exact .inr ⟨rfl, h.1.symm, h.2.1.symm, h.2.2.symm⟩

/-- The loop ends if there is nothing left to do or at the first late or failed answer; it waits at the end of the
history if there is something left to do. -/
theorem mainLoop_status {cfg fuel tend} : ∀ {hist left rs st rs' es},
    mainLoop cfg fuel tend hist left rs = .ok (st, rs', es) →
    (st = .finished → wantsIo rs' = false ∨ ∃ s ∈ hist, lastStep tend s = true) ∧
    (st = .waiting → wantsIo rs' = true ∧ ∀ s ∈ hist, lastStep tend s = false) := by
  intro hist
  induction hist with
  | nil =>
    intro left rs st rs' es h
    rcases mainLoop_nil h with ⟨h1, rfl, rfl, _⟩ | ⟨h1, rfl, rfl, _⟩
    · exact ⟨fun _ => .inl h1, fun h => LoopEnd.noConfusion h⟩
    · exact ⟨fun h => LoopEnd.noConfusion h, fun _ => ⟨h1, by simp⟩⟩
  | cons s hist ih =>
    intro left rs st rs' es h
    rcases mainLoop_cons h with ⟨h1, rfl, rfl, _⟩ | ⟨_, h1, rfl, rfl, _⟩ | ⟨_, hl, fin, rs1, e1, _, h1⟩
    · exact ⟨fun _ => .inl h1, fun h => LoopEnd.noConfusion h⟩
    · exact ⟨fun _ => .inr ⟨s, List.mem_cons_self, h1⟩, fun h => LoopEnd.noConfusion h⟩
    · rcases h1 with ⟨_, rfl, _⟩ | ⟨_, e2, h2, _⟩
      · exact ⟨fun h => LoopEnd.noConfusion h, fun h => LoopEnd.noConfusion h⟩
      · obtain ⟨i1, i2⟩ := ih h2
        refine ⟨fun hst => ?_, fun hst => ?_⟩
        · rcases i1 hst with h3 | ⟨s', hs', h3⟩
          · exact .inl h3
          · exact .inr ⟨s', List.mem_cons_of_mem _ hs', h3⟩
        · refine ⟨(i2 hst).1, fun s' hs' => ?_⟩
          rcases List.mem_cons.mp hs' with rfl | hs'
          · exact hl
          · exact (i2 hst).2 s' hs'

/-- Once the loop has ended, the rest of the history is irrelevant. -/
theorem mainLoop_prefix {cfg fuel tend} : ∀ {hist left rs st rs' es}, 
    mainLoop cfg fuel tend hist left rs = .ok (st, rs', es) → st ≠ .waiting → ∀ more,
    mainLoop cfg fuel tend (hist ++ more) left rs = .ok (st, rs', es) := by
  intro hist
  induction hist with
  | nil =>
    intro left rs st rs' es h hst more
    rcases mainLoop_nil h with ⟨h1, rfl, rfl, rfl⟩ | ⟨h1, rfl, rfl, _⟩
    · unfold mainLoop
      simp [h1]
    · exact absurd rfl hst
  | cons s hist ih =>
    intro left rs st rs' es h hst more
    rw [List.cons_append]
    rw [mainLoop] at h ⊢
    split at h
    · rename_i hw
      rw [if_pos hw]; exact h
    · rename_i hw
      rw [if_neg hw]
      simp only at h ⊢
      split at h
      · rename_i h1
        rw [if_pos h1]; exact h
      · rename_i h1
        rw [if_neg h1]
        split at h
        · rename_i h2
          rw [if_pos h2]; exact h
        · rename_i h2
          rw [if_neg h2]
          simp only [Out.bind_eq_ok] at h ⊢
          obtain ⟨⟨fin, rs1, e1⟩, h3, h⟩ := h
          refine ⟨_, h3, ?_⟩
          simp only at h ⊢
          split at h
          · rename_i hf
            rw [if_pos hf]
            simp only [Out.bind_eq_ok] at h ⊢
            obtain ⟨⟨st2, rs2, e2⟩, h4, h5⟩ := h
            simp only [Out.ok.injEq, Prod.mk.injEq] at h5
            obtain ⟨rfl, rfl, rfl⟩ := h5
            exact ⟨_, ih h4 hst more, rfl⟩
          · rename_i hf
            rw [if_neg hf]
            exact h

/-! ## Waiting times -/

theorem waits_append (a b : List Event) : waits (a ++ b) = waits a ++ waits b := List.filterMap_append

theorem waits_none {es : List Event} (h : ∀ e ∈ es, ∀ t, e ≠ .wait t) : waits es = [] := by
  unfold waits
  rw [List.filterMap_eq_nil_iff]
  intro e he
  cases e <;> first | rfl | exact absurd rfl (h _ he _)

theorem txOneQ_nowait (c : Cmd) (b a res q) : ∀ e ∈ (txOneQ c b a res q).2.1, ∀ x, e ≠ .wait x := by
  unfold txOneQ
  split <;> simp

theorem onlyIface {e : Event} {a : CStr} (h : ifaceOf e = some a) : ∀ t, e ≠ .wait t := by
  rintro t rfl
  simp [ifaceOf] at h

theorem process_nowait {cfg fuel s as rs fin rs' es} (hnd : as.Nodup) (hn : NamedAll as rs)
    (h : process cfg fuel s rs = .ok (fin, rs', es)) : ∀ e ∈ es, ∀ t, e ≠ .wait t := by
  unfold process at h
  simp only [Out.bind_eq_ok] at h
  obtain ⟨⟨rs1, e1⟩, h1, ⟨fin2, rs2, e2⟩, h2, h3⟩ := h
  simp only [Out.ok.injEq, Prod.mk.injEq] at h3
  rw [← h3.2.2]
  have hr1 := (rxAll_round hn h1).changes (F := fun k => received cfg rs s k) hnd hn (by
    intro k a r r' e hr ⟨ops, ho⟩
    refine ⟨ops, ?_⟩
    unfold received
    rw [hr]
    rw [Nat.zero_add] at ho
    exact ho)
  have htx : ∀ (w : Nat → Bool) (fuel k : Nat) rs fin rs' es, NamedAll as rs →
      txLoop w s.send fuel k rs = .ok (fin, rs', es) → ∀ e ∈ es, ∀ t, e ≠ .wait t := by
    intro w fuel
    induction fuel with
    | zero => intro k rs fin rs' es _ h; simp only [txLoop, Out.ok.injEq, Prod.mk.injEq] at h; rw [← h.2.2]; simp
    | succ fuel ih =>
      intro k rs fin rs' es hn h
      unfold txLoop at h
      simp only [Out.bind_eq_ok] at h
      obtain ⟨⟨rs1, k1, e1, m1⟩, h1, h⟩ := h
      have hc := (txRound_round hn h1).changes (F := fun _ => []) hnd hn (fun k a r r' e _ ⟨ops, ho⟩ => ⟨ops, ho⟩)
      have he1 : ∀ e ∈ e1, ∀ t, e ≠ .wait t := by
        intro e he
        obtain ⟨a, _, ha⟩ := hc.2 e he
        exact onlyIface ha
      simp only at h
      split at h
      · simp only [Out.bind_eq_ok] at h
        obtain ⟨⟨f2, rs2, e2⟩, h2, h3⟩ := h
        simp only [Out.ok.injEq, Prod.mk.injEq] at h3
        rw [← h3.2.2]
        intro x hx
        rcases List.mem_append.mp hx with hx | hx
        · exact he1 x hx
        · exact ih _ _ _ _ _ hc.1.named h2 x hx
      · simp only [Out.ok.injEq, Prod.mk.injEq] at h
        rw [← h.2.2]
        exact he1
  intro e he
  rcases List.mem_append.mp he with he | he
  · obtain ⟨a, _, ha⟩ := hr1.2 e he
    exact onlyIface ha
  · exact htx _ _ _ _ _ _ _ hr1.1.named h2 e he

/-- The timeouts handed to `select`. -/
theorem mainLoop_waits {cfg fuel tend as} (hnd : as.Nodup) : ∀ {hist left rs st rs' es}, NamedAll as rs →
    mainLoop cfg fuel tend hist left rs = .ok (st, rs', es) →
    ∃ m, waits es = (left :: (usable tend hist).map (fun s => timerSub tend s.now)).take m ∧
      (st = .waiting → m = (usable tend hist).length + 1) := by
  intro hist
  induction hist with
  | nil =>
    intro left rs st rs' es hn h
    rcases mainLoop_nil h with ⟨h1, rfl, rfl, rfl⟩ | ⟨h1, rfl, rfl, rfl⟩
    · exact ⟨0, rfl, fun h => LoopEnd.noConfusion h⟩
    · exact ⟨1, rfl, fun _ => rfl⟩
  | cons s hist ih =>
    intro left rs st rs' es hn h
    rcases mainLoop_cons h with ⟨h1, rfl, rfl, rfl⟩ | ⟨_, h1, rfl, rfl, rfl⟩ | ⟨_, hl, fin, rs1, e1, hp, h1⟩
    · exact ⟨0, rfl, fun h => LoopEnd.noConfusion h⟩
    · exact ⟨1, rfl, fun h => LoopEnd.noConfusion h⟩
    · have hw1 : waits e1 = [] := waits_none (process_nowait hnd hn hp)
      rw [usable_cons, hl]
      simp only [Bool.false_eq_true, ↓reduceIte]
      rcases h1 with ⟨_, rfl, rfl, rfl⟩ | ⟨_, e2, h2, rfl⟩
      · refine ⟨1, ?_, fun h => LoopEnd.noConfusion h⟩
        have : waits (.wait left :: e1) = left :: waits e1 := rfl
        rw [this, hw1]
        rfl
      · obtain ⟨m, hm, hfull⟩ := ih (process_changes hnd hn hp).named h2
        refine ⟨m + 1, ?_, fun hst => by rw [hfull hst]; rfl⟩
        have : waits (.wait left :: (e1 ++ e2)) = left :: waits (e1 ++ e2) := rfl
        rw [this, waits_append, hw1, hm, List.nil_append]
        rfl

/-! ## Time arithmetic -/

theorem micros_add {a b : TimeVal} (ha : Normalised a) (hb : Normalised b) :
    micros (timerAdd a b) = micros a + micros b ∧ Normalised (timerAdd a b) := by
  unfold micros timerAdd Normalised at *
  split
  · simp only; omega
  · simp only; omega

theorem micros_sub {a b : TimeVal} (ha : Normalised a) (hb : Normalised b) :
    micros (timerSub a b) = micros a - micros b ∧ Normalised (timerSub a b) := by
  unfold micros timerSub Normalised at *
  split
  · simp only; omega
  · simp only; omega

theorem micros_timeout {ms : Int} (h : 0 ≤ ms) :
    micros (timeoutVal ms) = 1000 * ms ∧ Normalised (timeoutVal ms) := by
  unfold micros timeoutVal Normalised
  simp only [Int.tdiv_eq_ediv_of_nonneg h]
  omega

theorem micros_gt {a b : TimeVal} (ha : Normalised a) (hb : Normalised b) :
    timerGt a b = true ↔ micros b < micros a := by
  unfold micros timerGt Normalised at *
  split
  · simp only [decide_eq_true_eq]; omega
  · simp only [decide_eq_true_eq]; omega

end Ef
