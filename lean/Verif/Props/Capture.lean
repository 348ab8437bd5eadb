import Verif.Spec.Capture

/-!
# Captures (C68, C69)
-/

namespace Ef.Props

open Ef Ef.Spec

/-! ## C68: capture options become the documented tcpdump command -/

theorem splitComma_free (s : CStr) (h : ch!"," ∉ s) : splitComma s = (s, none) := by
  induction s with
  | nil => rfl
  | cons c s ih =>
    rw [splitComma, if_neg (by rintro rfl; simp at h), ih (by intro hm; exact h (by simp [hm]))]

theorem splitComma_append (s t : CStr) (h : ch!"," ∉ s) : splitComma (s ++ ch!"," :: t) = (s, some t) := by
  induction s with
  | nil => rw [List.nil_append, splitComma, if_pos rfl]
  | cons c s ih =>
    rw [List.cons_append, splitComma, if_neg (by rintro rfl; simp at h), ih (by intro hm; exact h (by simp [hm]))]

theorem captureElems_join (es : List CStr) (hne : es ≠ []) (hc : ∀ e ∈ es, ch!"," ∉ e) :
    ∀ n, captureElems n (joinWith ch!"," es) = es.take n := by
  induction es with
  | nil => exact absurd rfl hne
  | cons e es ih =>
    intro n
    cases n with
    | zero => rfl
    | succ n =>
      rw [captureElems]
      cases es with
      | nil =>
        rw [joinWith, splitComma_free e (hc e (by simp))]
        simp
      | cons e2 es =>
        have : joinWith ch!"," (e :: e2 :: es) = e ++ ch!"," :: joinWith ch!"," (e2 :: es) := rfl
        rw [this, splitComma_append e _ (hc e (by simp))]
        simp only [List.take_succ_cons]
        rw [ih (by simp) (fun x hx => hc x (by simp [hx]))]

theorem elemGiven_take (es : List CStr) (i : Nat) (h : i < 5) : elemGiven (es.take 5) i = elemOf es i := by
  unfold elemGiven elemOf
  rw [List.getElem?_take_of_lt h]
  cases es[i]? with
  | none => rfl
  | some e =>
    by_cases he : e = []
    · subst he; rfl
    · simp [he, Option.filter]

theorem head_take (es : List CStr) : ((es.take 5)[0]?).getD [] = es.headD [] := by
  cases es <;> rfl

/-- **C68**: the option `IF,SNAP,SYNC,FILE,CNT` runs `tcpdump -i IF [-s SNAP] [-j SYNC] -w FILE [-c CNT]`: options whose
element is missing or empty are left out, the file is `IF.pcap` by default, and more elements have no effect. -/
theorem C68_capture_command (es : List CStr) (hne : es ≠ []) (hc : ∀ e ∈ es, ch!"," ∉ e) :
    captureCmd (joinWith ch!"," es) = joinWith ch!" " (tcpdumpWords es) ∧
      captureFile (joinWith ch!"," es) = fileOf es := by
  have hfile : captureFile (joinWith ch!"," es) = fileOf es := by
    unfold captureFile fileOf
    simp only
    rw [captureElems_join es hne hc, elemGiven_take es 3 (by decide), head_take]
    cases elemOf es 3 <;> rfl
  refine ⟨?_, hfile⟩
  have hcmd : captureCmd (joinWith ch!"," es) = c!"tcpdump -i " ++ ((captureElems 5 (joinWith ch!"," es))[0]?).getD [] ++
      optText c!" -s " (elemGiven (captureElems 5 (joinWith ch!"," es)) 1) ++
      optText c!" -j " (elemGiven (captureElems 5 (joinWith ch!"," es)) 2) ++ c!" -w " ++
      captureFile (joinWith ch!"," es) ++ optText c!" -c " (elemGiven (captureElems 5 (joinWith ch!"," es)) 4) := rfl
  unfold tcpdumpWords
  rw [hcmd, hfile, captureElems_join es hne hc, head_take, elemGiven_take es 1 (by decide), elemGiven_take es 2 (by decide),
    elemGiven_take es 4 (by decide)]
  generalize es.headD [] = a
  generalize fileOf es = f
  generalize elemOf es 1 = x
  generalize elemOf es 2 = y
  generalize elemOf es 4 = z
  cases x <;> cases y <;> cases z <;> simp [optText, joinWith]

/-- **C68**: every text is such an option. -/
theorem C68_every_text (s : CStr) : ∃ es, es ≠ [] ∧ (∀ e ∈ es, ch!"," ∉ e) ∧ joinWith ch!"," es = s := by
  induction s with
  | nil => exact ⟨[[]], by simp, by simp, rfl⟩
  | cons c s ih =>
    obtain ⟨es, h1, h2, h3⟩ := ih
    by_cases hc : c = ch!","
    · refine ⟨[] :: es, by simp, ?_, ?_⟩
      · intro e he
        rcases List.mem_cons.mp he with rfl | he
        · simp
        · exact h2 e he
      · cases es with
        | nil => exact absurd rfl h1
        | cons e es =>
          show [] ++ ch!"," :: joinWith ch!"," (e :: es) = _
          rw [h3, hc]
          rfl
    · cases es with
      | nil => exact absurd rfl h1
      | cons e es =>
        refine ⟨(c :: e) :: es, by simp, ?_, ?_⟩
        · intro x hx
          rcases List.mem_cons.mp hx with rfl | hx
          · intro hm
            rcases List.mem_cons.mp hm with hm | hm
            · exact hc hm.symm
            · exact h2 e (by simp) hm
          · exact h2 x (by simp [hx])
        · cases es with
          | nil => rw [← h3]; rfl
          | cons e2 es => rw [← h3]; rfl

/-- Non-vacuity: a snap length and a count, no sync, the default file, and two elements too many. -/
example : captureCmd c!"eth0,64,,,9,x,y" = c!"tcpdump -i eth0 -s 64 -w eth0.pcap -c 9" ∧
    joinWith ch!"," [c!"eth0", c!"64", [], [], c!"9", c!"x", c!"y"] = c!"eth0,64,,,9,x,y" := by decide +kernel

/-! ## C69: stopping captures signals exactly the running ones -/

/-- The capture after the children `r` have been reported. -/
def markDead (r : List Int) (c : Capture) : Capture := if c.pid ∈ r then { c with running := false } else c

theorem markDead_pid (r : List Int) (c : Capture) : (markDead r c).pid = c.pid := by
  unfold markDead; split <;> rfl

theorem markDead_append (r s : List Int) (c : Capture) : markDead s (markDead r c) = markDead (r ++ s) c := by
  unfold markDead
  by_cases h1 : c.pid ∈ r <;> by_cases h2 : c.pid ∈ s <;> simp [h1, h2]

theorem markDead_nil (c : Capture) : markDead [] c = c := by simp [markDead]

theorem markDead_running (r : List Int) (c : Capture) : (markDead r c).running = (c.running && decide (c.pid ∉ r)) := by
  unfold markDead
  by_cases h : c.pid ∈ r <;> simp [h]

/-- The process id of a running capture is not that of another capture. -/
def Apart (cs : List Capture) : Prop :=
  cs.Pairwise (fun c d => c.running = true ∨ d.running = true → c.pid ≠ d.pid)

theorem reapOne_eq (p : Int) (cs : List Capture) (h : Apart cs) : reapOne p cs = cs.map (markDead [p]) := by
  induction cs with
  | nil => rfl
  | cons c cs ih =>
    have h := List.pairwise_cons.mp h
    rw [reapOne]
    by_cases hc : c.pid = p
    · rw [if_pos hc, List.map_cons]
      have h1 : markDead [p] c = { c with running := false } := by simp [markDead, hc]
      have h2 : cs.map (markDead [p]) = cs := by
        have : ∀ d ∈ cs, markDead [p] d = d := by
          intro d hd
          unfold markDead
          by_cases hp : d.pid = p
          · have hr : d.running = false := by
              cases hr : d.running with
              | false => rfl
              | true => exact absurd (hc.trans hp.symm) (h.1 d hd (Or.inr hr))
            rw [if_pos (by simp [hp]), ← hr]
          · rw [if_neg (by simp [hp])]
        rw [List.map_congr_left this]
        simp
      rw [h1, h2]
    · rw [if_neg hc, List.map_cons, ih h.2]
      simp [markDead, hc]

theorem Apart.dead (r : List Int) {cs : List Capture} (h : Apart cs) : Apart (cs.map (markDead r)) := by
  unfold Apart
  rw [List.pairwise_map]
  refine List.Pairwise.imp ?_ h
  intro c d h1 h2
  rw [markDead_pid, markDead_pid]
  apply h1
  rw [markDead_running, markDead_running] at h2
  simp only [Bool.and_eq_true] at h2
  exact h2.imp (·.1) (·.1)

theorem map_dead_nil (cs : List Capture) : cs.map (markDead []) = cs := by
  rw [List.map_congr_left (fun c _ => markDead_nil c)]
  simp

theorem map_dead_append (r s : List Int) (cs : List Capture) :
    (cs.map (markDead r)).map (markDead s) = cs.map (markDead (r ++ s)) := by
  rw [List.map_map]
  exact List.map_congr_left (fun c _ => markDead_append r s c)

theorem filter_dead (r : List Int) (cs : List Capture) :
    (cs.map (markDead r)).filter (·.running) = cs.filter (fun c => c.running && decide (c.pid ∉ r)) := by
  induction cs with
  | nil => rfl
  | cons c cs ih =>
    rw [List.map_cons, List.filter_cons, List.filter_cons, ih, markDead_running]
    by_cases hc : c.pid ∈ r
    · simp [hc]
    · simp [hc, markDead]

theorem reap_eq (r : List (Int × ChildStatus)) : ∀ (cs : List Capture), Apart cs →
    reap cs r = cs.map (markDead (pidsOf r)) := by
  induction r with
  | nil =>
    intro cs _
    exact (map_dead_nil cs).symm
  | cons x r ih =>
    intro cs h
    obtain ⟨p, s⟩ := x
    rw [reap, reapOne_eq p cs h, ih _ (h.dead _), map_dead_append]
    rfl

/-- Polling ends early only if nothing is running any more. -/
theorem waitPoll_eq : ∀ (n : Nat) (h : List (List (Int × ChildStatus))) (cs : List Capture), Apart cs →
    ∃ r, waitPoll n h cs = cs.map (markDead r) ∧
      ∀ c ∈ cs, c.running = true → (c.pid ∈ r ↔ c.pid ∈ polled n h) := by
  intro n
  induction n with
  | zero =>
    intro h cs _
    exact ⟨[], by rw [map_dead_nil, waitPoll], by simp [polled]⟩
  | succ n ih =>
    intro h cs hp
    have hr := reap_eq (h.headD []) cs hp
    have ht : polled (n + 1) h = pidsOf (h.headD []) ++ polled n h.tail := by
      cases h with
      | nil => simp [pidsOf, polled]
      | cons a h => rfl
    rw [waitPoll, hr]
    generalize h.headD [] = a0 at hr ht
    split
    · obtain ⟨r, h1, h2⟩ := ih h.tail _ (hp.dead (pidsOf (a0)))
      refine ⟨pidsOf (a0) ++ r, ?_, ?_⟩
      · rw [h1, map_dead_append]
      · intro c hc hcr
        rw [ht, List.mem_append, List.mem_append]
        by_cases hd : c.pid ∈ pidsOf (a0)
        · simp [hd]
        · have := h2 (markDead (pidsOf (a0)) c) (List.mem_map.mpr ⟨c, hc, rfl⟩) (by
            rw [markDead_running, hcr]
            simp [hd])
          rw [markDead_pid] at this
          rw [this]
    · rename_i hn
      refine ⟨_, rfl, ?_⟩
      intro c hc hcr
      rw [ht, List.mem_append]
      refine ⟨Or.inl, fun _ => ?_⟩
      apply Classical.byContradiction
      intro hd
      apply hn
      rw [List.any_eq_true]
      refine ⟨_, List.mem_map.mpr ⟨c, hc, rfl⟩, ?_⟩
      rw [markDead_running, hcr]
      simp [hd]

theorem filter_dead_congr {r s : List Int} (cs : List Capture)
    (h : ∀ c ∈ cs, c.running = true → (c.pid ∈ r ↔ c.pid ∈ s)) :
    cs.filter (fun c => c.running && decide (c.pid ∉ r)) = cs.filter (fun c => c.running && decide (c.pid ∉ s)) := by
  apply List.filter_congr
  intro c hc
  cases hr : c.running with
  | false => rfl
  | true =>
    have := h c hc hr
    by_cases h1 : c.pid ∈ r
    · simp [h1, this.mp h1]
    · have h2 := fun h2 => h1 (this.mpr h2)
      rw [decide_eq_true h1, decide_eq_true (show c.pid ∉ s from h2)]

theorem alive_eq (cs : List Capture) (r : List Int) :
    alive cs r = (cs.filter (fun c => c.running && decide (c.pid ∉ r))).map (·.pid) := by
  unfold alive
  induction cs with
  | nil => rfl
  | cons c cs ih =>
    cases hr : c.running <;> by_cases hc : c.pid ∈ r <;> simp_all

theorem killAll_dead (k : Int → Kill) (cs : List Capture) (r : List Int) :
    killAll k (cs.map (markDead r)) = (alive cs r).map k := by
  rw [killAll, filter_dead, alive_eq, List.map_map]
  rfl

/-- **C69**, stopping: every capture that is still running when the signal handler is replaced is interrupted, in order,
and nothing else; every capture that is then still running after 10000 polls (ten seconds) is terminated, and nothing
else. At the end a capture counts as running exactly if it never was reported. -/
theorem C69_stop (cs : List Capture) (h : Apart cs) (before : List (Int × ChildStatus))
    (h1 h2 : List (List (Int × ChildStatus))) :
    (captureAllStop before h1 h2 cs).1 =
      (alive cs (pidsOf before)).map .int ++ (alive cs (pidsOf before ++ polled 10000 h1)).map .term ∧
    (captureAllStop before h1 h2 cs).2.map (·.pid) = cs.map (·.pid) ∧
    ((captureAllStop before h1 h2 cs).2.filter (·.running)).map (·.pid) =
      alive cs (pidsOf before ++ polled 10000 h1 ++ polled 10000 h2) := by
  unfold captureAllStop
  simp only
  rw [reap_eq before cs h]
  obtain ⟨r1, e1, m1⟩ := waitPoll_eq 10000 h1 _ (h.dead (pidsOf before))
  rw [e1]
  obtain ⟨r2, e2, m2⟩ := waitPoll_eq 10000 h2 _ ((h.dead (pidsOf before)).dead r1)
  rw [e2, map_dead_append] at *
  have n1 : ∀ c ∈ cs, c.running = true →
      (c.pid ∈ pidsOf before ++ r1 ↔ c.pid ∈ pidsOf before ++ polled 10000 h1) := by
    intro c hc hr
    rw [List.mem_append, List.mem_append]
    by_cases hd : c.pid ∈ pidsOf before
    · simp [hd]
    · have := m1 _ (List.mem_map.mpr ⟨c, hc, rfl⟩) (by rw [markDead_running, hr]; simp [hd])
      rw [markDead_pid] at this
      rw [this]
  have n2 : ∀ c ∈ cs, c.running = true →
      (c.pid ∈ (pidsOf before ++ r1) ++ r2 ↔ c.pid ∈ (pidsOf before ++ polled 10000 h1) ++ polled 10000 h2) := by
    intro c hc hr
    rw [List.mem_append, n1 c hc hr, List.mem_append (s := pidsOf before ++ polled 10000 h1)]
    by_cases hd : c.pid ∈ pidsOf before ++ polled 10000 h1
    · simp [hd]
    · have hd' := fun h => hd ((n1 c hc hr).mp h)
      have := m2 _ (List.mem_map.mpr ⟨c, hc, rfl⟩) (by rw [markDead_running, hr]; simp only [Bool.true_and, decide_eq_true_eq]; exact hd')
      rw [markDead_pid] at this
      rw [this]
  refine ⟨?_, ?_, ?_⟩
  · rw [killAll_dead, killAll_dead]
    congr 2
    rw [alive_eq, alive_eq, filter_dead_congr cs n1]
  · rw [map_dead_append, List.map_map]
    exact List.map_congr_left (fun c _ => markDead_pid _ c)
  · rw [map_dead_append, filter_dead, filter_dead_congr cs n2, ← alive_eq]

/-- The captures after they have been started. -/
def startedSpec : List Capture → List Fork → List Capture
  | c :: cs, f :: h => markDead (pidsOf f.2.2 ++ reports h) (captureStart c f.1) :: startedSpec cs h
  | _, _ => []

theorem startedSpec_pid (c : Capture) (hc : c.pid = 0 ∧ c.running = false) (p : Int) :
    (captureStart c p).pid = (if 0 < p then p else 0) ∧ (captureStart c p).running = decide (0 < p) := by
  unfold captureStart
  by_cases h : 0 < p
  · simp [h]
  · simp [h, hc]

theorem markDead_idle (r : List Int) (c : Capture) (hc : c.running = false) : markDead r c = c := by
  unfold markDead
  split
  · rw [← hc]
  · rfl

theorem modify_at {α : Type} (l : List α) (c : α) (m : List α) (f : α → α) :
    (l ++ c :: m).modify l.length f = l ++ f c :: m := by
  induction l with
  | nil => rfl
  | cons a l ih => simp [List.modify_succ_cons, ih]

theorem captureAllStart_eq : ∀ (hist : List Fork) (done fresh : List Capture), hist.length = fresh.length →
    (∀ c ∈ fresh, c.pid = 0 ∧ c.running = false) → Apart done → (∀ c ∈ done, c.running = true → 0 < c.pid) →
    (∀ p ∈ childPids hist, ∀ c ∈ done, c.pid ≠ p) → (childPids hist).Nodup →
    captureAllStart (done ++ fresh) done.length hist fresh.length =
      done.map (markDead (reports hist)) ++ startedSpec fresh hist := by
  intro hist
  induction hist with
  | nil =>
    intro done fresh hl hf _ _ _ _
    have : fresh = [] := List.length_eq_zero_iff.mp hl.symm
    subst this
    have : reports [] = [] := rfl
    rw [this, map_dead_nil]
    simp [captureAllStart, startedSpec]
  | cons f hist ih =>
    intro done fresh hl hf ha hpos hnew hnd
    obtain ⟨pid, early, late⟩ := f
    cases fresh with
    | nil => simp at hl
    | cons c fresh =>
      have hc := hf c (by simp)
      have hidle : ∀ r, fresh.map (markDead r) = fresh := by
        intro r
        rw [List.map_congr_left (fun d hd => markDead_idle r d (hf d (by simp [hd])).2)]
        simp
      have hbase : ∀ (l : List Capture), Apart l → (∀ d ∈ l, d.running = true → 0 < d.pid) →
          Apart (l ++ fresh) := by
        intro l hl hp
        apply List.pairwise_append.mpr
        refine ⟨hl, ?_, ?_⟩
        · apply List.Pairwise.imp_of_mem (R := fun (_ _ : Capture) => True)
          · intro a b h1 h2 _ h3
            rw [(hf a (by simp [h1])).2, (hf b (by simp [h2])).2] at h3
            simp at h3
          · exact List.pairwise_of_forall (fun _ _ => trivial)
        · intro a h1 b h2 h3
          have hb := hf b (by simp [h2])
          rw [hb.2] at h3
          simp only [Bool.false_eq_true, or_false] at h3
          have := hp a h1 h3
          rw [hb.1]
          omega
      have hA1 : Apart (done ++ c :: fresh) := by
        have h1 : Apart (done ++ [c]) := by
          apply List.pairwise_append.mpr
          refine ⟨ha, List.pairwise_singleton _ _, ?_⟩
          intro a h1 b h2 h3
          rw [List.mem_singleton] at h2
          subst h2
          rw [hc.2] at h3
          simp only [Bool.false_eq_true, or_false] at h3
          have := hpos a h1 h3
          rw [hc.1]
          omega
        have := hbase (done ++ [c]) h1 (by
          intro d hd hr
          rcases List.mem_append.mp hd with hd | hd
          · exact hpos d hd hr
          · rw [List.mem_singleton] at hd
            subst hd
            rw [hc.2] at hr
            simp at hr)
        rwa [List.append_assoc] at this
      have hs := startedSpec_pid c hc pid
      have hnew' : 0 < pid → ∀ d ∈ done, d.pid ≠ pid := by
        intro hp
        apply hnew
        simp [childPids, hp]
      have hA2 : Apart (done.map (markDead (pidsOf early)) ++ [captureStart c pid]) := by
        apply List.pairwise_append.mpr
        refine ⟨ha.dead _, List.pairwise_singleton _ _, ?_⟩
        intro a h1 b h2 h3
        rw [List.mem_singleton] at h2
        subst h2
        obtain ⟨d, hd, rfl⟩ := List.mem_map.mp h1
        rw [markDead_pid, hs.1]
        by_cases hp : 0 < pid
        · rw [if_pos hp]
          exact hnew' hp d hd
        · rw [hs.2, markDead_running] at h3
          simp only [hp, decide_false, Bool.false_eq_true, or_false, Bool.and_eq_true] at h3
          have := hpos d hd h3.1
          rw [if_neg hp]
          omega
      have hpos2 : ∀ d ∈ done.map (markDead (pidsOf early)) ++ [captureStart c pid], d.running = true → 0 < d.pid := by
        intro d hd hr
        rcases List.mem_append.mp hd with hd | hd
        · obtain ⟨e, he, rfl⟩ := List.mem_map.mp hd
          rw [markDead_running, Bool.and_eq_true] at hr
          rw [markDead_pid]
          exact hpos e he hr.1
        · rw [List.mem_singleton] at hd
          subst hd
          rw [hs.2, decide_eq_true_eq] at hr
          rw [hs.1, if_pos hr]
          exact hr
      rw [List.length_cons, captureAllStart, reap_eq _ _ hA1, List.map_append, List.map_cons, hidle,
        markDead_idle _ c hc.2]
      have hmod : (done.map (markDead (pidsOf early)) ++ c :: fresh).modify done.length (captureStart · pid) =
          (done.map (markDead (pidsOf early)) ++ [captureStart c pid]) ++ fresh := by
        have := modify_at (done.map (markDead (pidsOf early))) c fresh (captureStart · pid)
        rw [List.length_map] at this
        rw [this]
        simp
      rw [hmod, reap_eq _ _ (hbase _ hA2 hpos2), List.map_append, hidle]
      have hlen : ((done.map (markDead (pidsOf early)) ++ [captureStart c pid]).map (markDead (pidsOf late))).length =
          done.length + 1 := by simp
      rw [← hlen]
      rw [ih _ fresh (by simpa using hl) (fun d hd => hf d (by simp [hd])) (hA2.dead _)]
      · rw [map_dead_append, List.map_append, map_dead_append]
        have hrep : reports ((pid, early, late) :: hist) = pidsOf early ++ (pidsOf late ++ reports hist) := by
          simp [reports]
        rw [hrep]
        simp [startedSpec]
      · intro d hd hr
        obtain ⟨e, he, rfl⟩ := List.mem_map.mp hd
        rw [markDead_running, Bool.and_eq_true] at hr
        rw [markDead_pid]
        exact hpos2 e he hr.1
      · intro p hp d hd
        obtain ⟨e, he, rfl⟩ := List.mem_map.mp hd
        rw [markDead_pid]
        rcases List.mem_append.mp he with he | he
        · obtain ⟨g, hg, rfl⟩ := List.mem_map.mp he
          rw [markDead_pid]
          apply hnew p _ g hg
          unfold childPids at hp ⊢
          rw [List.map_cons, List.filter_cons]
          split
          · exact List.mem_cons_of_mem _ hp
          · exact hp
        · rw [List.mem_singleton] at he
          subst he
          rw [hs.1]
          by_cases h0 : 0 < pid
          · rw [if_pos h0]
            rintro rfl
            unfold childPids at hnd hp
            rw [List.map_cons, List.filter_cons, if_pos (by simpa using h0)] at hnd
            exact (List.nodup_cons.mp hnd).1 hp
          · rw [if_neg h0]
            unfold childPids at hp
            have := (List.mem_filter.mp hp).2
            simp only [decide_eq_true_eq] at this
            omega
      · unfold childPids at hnd ⊢
        rw [List.map_cons, List.filter_cons] at hnd
        split at hnd
        · exact (List.nodup_cons.mp hnd).2
        · exact hnd

theorem Causal.notin {h : List Fork} : ∀ {seen : List Int}, Causal h seen → ∀ p ∈ childPids h, p ∉ seen := by
  induction h with
  | nil => intro seen _ p hp; simp [childPids] at hp
  | cons f h ih =>
    intro seen hc p hp
    unfold childPids at hp
    rw [List.map_cons, List.filter_cons] at hp
    have ht : p ∈ (h.map (·.1)).filter (0 < ·) → p ∉ seen := by
      intro hp hs
      exact ih hc.2 p hp (by simp [hs])
    split at hp
    · rename_i h0
      rcases List.mem_cons.mp hp with rfl | hp
      · exact hc.1 (by simpa using h0)
      · exact ht hp
    · exact ht hp

theorem alive_started : ∀ (hist : List Fork) (fresh : List Capture) (seen r : List Int), hist.length = fresh.length →
    (∀ c ∈ fresh, c.pid = 0 ∧ c.running = false) → Causal hist seen → NotEarly hist →
    alive (startedSpec fresh hist) r = (childPids hist).filter (· ∉ reports hist ++ r) := by
  intro hist
  induction hist with
  | nil =>
    intro fresh seen r hl _ _ _
    have : fresh = [] := List.length_eq_zero_iff.mp hl.symm
    subst this
    rfl
  | cons f hist ih =>
    intro fresh seen r hl hf hc hn
    obtain ⟨pid, early, late⟩ := f
    cases fresh with
    | nil => simp at hl
    | cons c fresh =>
      have hi := ih fresh _ r (by simpa using hl) (fun d hd => hf d (by simp [hd])) hc.2 (fun g hg => hn g (by simp [hg]))
      have hs := startedSpec_pid c (hf c (by simp)) pid
      have hrep : reports ((pid, early, late) :: hist) = pidsOf early ++ (pidsOf late ++ reports hist) := by
        simp [reports]
      have htail : (childPids hist).filter (· ∉ reports ((pid, early, late) :: hist) ++ r) =
          (childPids hist).filter (· ∉ reports hist ++ r) := by
        apply List.filter_congr
        intro p hp
        have := Causal.notin hc.2 p hp
        simp only [List.mem_append, not_or] at this
        rw [hrep]
        simp [this.1.2, this.2]
      rw [alive_eq, startedSpec, List.filter_cons, markDead_running, markDead_pid, hs.1, hs.2]
      rw [alive_eq] at hi
      by_cases h0 : 0 < pid
      · have he : pid ∉ pidsOf early := hn (pid, early, late) (by simp) h0
        have hcp : childPids ((pid, early, late) :: hist) = pid :: childPids hist := by simp [childPids, h0]
        rw [hcp, List.filter_cons, htail, ← hi]
        by_cases hm : pid ∈ pidsOf late ++ reports hist ++ r
        · rw [if_neg, if_neg]
          · rw [hrep]
            simp only [List.mem_append] at hm ⊢
            simp only [decide_eq_true_eq]
            intro hx
            rcases hm with (hm | hm) | hm <;> simp [hm] at hx
          · simp only [h0, if_true, decide_true, Bool.true_and, Bool.and_eq_true, decide_eq_true_eq]
            simp only [List.mem_append] at hm ⊢
            rintro ⟨hx, hy⟩
            rcases hm with (hm | hm) | hm
            · simp [hm] at hx
            · simp [hm] at hx
            · exact hy hm
        · simp only [List.mem_append, not_or] at hm
          rw [if_pos, if_pos]
          · rw [List.map_cons, markDead_pid, hs.1, if_pos h0]
          · rw [hrep]
            simp [he, hm.1.1, hm.1.2, hm.2]
          · simp [h0, hm.1.1, hm.1.2, hm.2]
      · have hcp : childPids ((pid, early, late) :: hist) = childPids hist := by simp [childPids, h0]
        rw [hcp, htail, ← hi, if_neg (by simp [h0])]

theorem started_pids : ∀ (hist : List Fork) (fresh : List Capture),
    (∀ c ∈ fresh, c.pid = 0 ∧ c.running = false) →
    ∀ d ∈ startedSpec fresh hist, (d.pid = 0 ∧ d.running = false) ∨ d.pid ∈ childPids hist := by
  intro hist
  induction hist with
  | nil => intro fresh _ d hd; cases fresh <;> simp [startedSpec] at hd
  | cons f hist ih =>
    intro fresh hf d hd
    cases fresh with
    | nil => simp [startedSpec] at hd
    | cons c fresh =>
      have hs := startedSpec_pid c (hf c (by simp)) f.1
      have hmem : ∀ p ∈ childPids hist, p ∈ childPids (f :: hist) := by
        intro p hp
        unfold childPids at hp ⊢
        rw [List.map_cons, List.filter_cons]
        split
        · exact List.mem_cons_of_mem _ hp
        · exact hp
      rw [startedSpec, List.mem_cons] at hd
      rcases hd with rfl | hd
      · rw [markDead_pid, markDead_running, hs.1, hs.2]
        by_cases h0 : 0 < f.1
        · right
          simp [h0, childPids]
        · left
          simp [h0]
      · exact (ih fresh (fun e he => hf e (by simp [he])) d hd).imp id (hmem _)

theorem apart_started : ∀ (hist : List Fork) (fresh : List Capture), hist.length = fresh.length →
    (∀ c ∈ fresh, c.pid = 0 ∧ c.running = false) → (childPids hist).Nodup → Apart (startedSpec fresh hist) := by
  intro hist
  induction hist with
  | nil => intro fresh _ _ _; cases fresh <;> exact List.Pairwise.nil
  | cons f hist ih =>
    intro fresh hl hf hnd
    cases fresh with
    | nil => exact List.Pairwise.nil
    | cons c fresh =>
      have hf' : ∀ d ∈ fresh, d.pid = 0 ∧ d.running = false := fun e he => hf e (by simp [he])
      have hs := startedSpec_pid c (hf c (by simp)) f.1
      have hnd' : (childPids hist).Nodup ∧ (0 < f.1 → f.1 ∉ childPids hist) := by
        unfold childPids at hnd ⊢
        rw [List.map_cons, List.filter_cons] at hnd
        split at hnd
        · exact ⟨(List.nodup_cons.mp hnd).2, fun _ => (List.nodup_cons.mp hnd).1⟩
        · rename_i h0
          exact ⟨hnd, fun h => absurd (by simpa using h) h0⟩
      apply List.pairwise_cons.mpr
      refine ⟨?_, ih fresh (by simpa using hl) hf' hnd'.1⟩
      intro d hd hr
      rw [markDead_pid, hs.1]
      rw [markDead_running, hs.2] at hr
      have hpos : ∀ p ∈ childPids hist, 0 < p := by
        intro p hp
        simpa using (List.mem_filter.mp hp).2
      rcases started_pids hist fresh hf' d hd with ⟨h1, h2⟩ | h1
      · rw [h2] at hr
        simp only [Bool.and_eq_true, decide_eq_true_eq, Bool.false_eq_true, or_false] at hr
        rw [if_pos hr.1, h1]
        omega
      · have := hpos _ h1
        by_cases h0 : 0 < f.1
        · rw [if_pos h0]
          intro e
          exact hnd'.2 h0 (e ▸ h1)
        · rw [if_neg h0]
          omega

/-- The captures added by options, not started yet. -/
def added (cmds : List CStr) : List Capture := cmds.map (fun c => { cmd := c })

/-- The signals sent in a whole run: the captures are started, then the tool works, then the captures are stopped. -/
def signals (cmds : List CStr) (hist : List Fork) (before : List (Int × ChildStatus))
    (h1 h2 : List (List (Int × ChildStatus))) : List Kill :=
  (captureAllStop before h1 h2 (captureAllStart (added cmds) 0 hist cmds.length)).1

/-- C69 as claimed: the children that have not been reported are interrupted, and those that still have not been reported
after 10000 polls are terminated, and nothing else. -/
def C69_statement : Prop :=
  ∀ (cmds : List CStr) (hist : List Fork) (before : List (Int × ChildStatus)) (h1 h2 : List (List (Int × ChildStatus))),
    hist.length = cmds.length → (childPids hist).Nodup → Causal hist [] →
    signals cmds hist before h1 h2 =
      ((childPids hist).filter (· ∉ reports hist ++ pidsOf before)).map .int ++
      ((childPids hist).filter (· ∉ reports hist ++ (pidsOf before ++ polled 10000 h1))).map .term

/-- **C69** if no child is reported before the program has stored its process id. -/
theorem C69_signals_partial (cmds : List CStr) (hist : List Fork) (before : List (Int × ChildStatus))
    (h1 h2 : List (List (Int × ChildStatus))) (hl : hist.length = cmds.length) (hnd : (childPids hist).Nodup)
    (hc : Causal hist []) (hn : NotEarly hist) :
    signals cmds hist before h1 h2 =
      ((childPids hist).filter (· ∉ reports hist ++ pidsOf before)).map .int ++
      ((childPids hist).filter (· ∉ reports hist ++ (pidsOf before ++ polled 10000 h1))).map .term := by
  have hidle : ∀ c ∈ added cmds, c.pid = 0 ∧ c.running = false := by
    intro c hc
    obtain ⟨x, _, rfl⟩ := List.mem_map.mp hc
    exact ⟨rfl, rfl⟩
  have hlen : hist.length = (added cmds).length := by simp [added, hl]
  have hs := captureAllStart_eq hist [] (added cmds) hlen hidle List.Pairwise.nil (by simp) (by simp) hnd
  have e : (added cmds).length = cmds.length := by simp [added]
  rw [e] at hs
  simp only [List.nil_append, List.length_nil, List.map_nil] at hs
  have hA : Apart (startedSpec (added cmds) hist) := apart_started hist (added cmds) hlen hidle hnd
  unfold signals
  rw [hs, (C69_stop _ hA before h1 h2).1, alive_started hist _ [] _ hlen hidle hc hn,
    alive_started hist _ [] _ hlen hidle hc hn]

/-- The claim is false: a capture that ends before its process id has been stored (tcpdump fails at once, or is not
installed) counts as running for ever, so the tool signals a process id that is not its child any more. -/
theorem C69_false : ¬ C69_statement := by
  intro h
  have := h [c!"tcpdump -i e0 -w e0.pcap"] [(5, [(5, .exited 1)], [])] [] [] [] rfl (by decide) (by
    simp [Causal])
  revert this
  decide

/-- Non-vacuity: three captures; the first ends while the tool works, the second after the interrupt, the third is
terminated. -/
example : signals [c!"a", c!"b", c!"c"] [(5, [], []), (6, [], []), (7, [], [])] [(5, .exited 0)] [[], [(6, .signaled 2)]] [] =
    [.int 6, .int 7, .term 7] := by
  rw [C69_signals_partial _ _ _ _ _ rfl (by decide) (by simp [Causal, pidsOf]) (by simp [NotEarly, pidsOf])]
  decide

end Ef.Props
