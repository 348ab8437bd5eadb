import Verif.Lemmas.Events

/-! # Which kinds of events occur where -/

namespace Ef

open Spec

/-- What the main loop can cause. -/
inductive Traffic : Event → Prop
  | wait (t) : Traffic (.wait t)
  | rxOk (a b n m) : Traffic (.rxOk a b n m)
  | rxErr (a b) : Traffic (.rxErr a b)
  | send (a b r) : Traffic (.send a b r)
  | txDone (a b n) : Traffic (.txDone a b n)

theorem rxFrame_traffic {cfg r m r' es} (h : rxFrame cfg r m = .ok (r', es)) : ∀ e ∈ es, Traffic e := by
  unfold rxFrame at h
  simp only at h
  split at h
  · simp only [Out.ok.injEq, Prod.mk.injEq] at h; rw [← h.2]; simp
  · rw [Out.bind_eq_ok] at h; obtain ⟨b, _, h⟩ := h
    rw [Out.bind_eq_ok] at h; obtain ⟨o, _, h⟩ := h
    cases o with
    | none =>
      simp only at h
      rw [Out.bind_eq_ok] at h; obtain ⟨a, _, h⟩ := h
      simp only [Out.ok.injEq, Prod.mk.injEq] at h
      rw [← h.2]
      intro e he
      rw [List.mem_singleton] at he
      subst he
      constructor
    | some p =>
      obtain ⟨c, cs⟩ := p
      simp only at h
      split at h
      · simp only [Out.ok.injEq, Prod.mk.injEq] at h
        rw [← h.2]
        intro e he
        rw [List.mem_singleton] at he
        subst he
        constructor
      · simp at h

theorem rxAll_traffic {cfg s i rs rs' es} (h : rxAll cfg s i rs = .ok (rs', es)) : ∀ e ∈ es, Traffic e := by
  induction rs generalizing i rs' es with
  | nil => simp only [rxAll, Out.ok.injEq, Prod.mk.injEq] at h; rw [← h.2]; simp
  | cons r rs ih =>
    unfold rxAll at h
    simp only [Out.bind_eq_ok] at h
    obtain ⟨⟨r', e⟩, h1, ⟨rs'', es'⟩, h2, h3⟩ := h
    simp only [Out.ok.injEq, Prod.mk.injEq] at h3
    rw [← h3.2]
    intro x hx
    rw [List.mem_append] at hx
    rcases hx with hx | hx
    · unfold rxResource at h1
      split at h1
      · split at h1
        · simp only [Out.ok.injEq, Prod.mk.injEq] at h1; rw [← h1.2] at hx; simp at hx
        · exact rxFrame_traffic h1 x hx
      · simp only [Out.ok.injEq, Prod.mk.injEq] at h1; rw [← h1.2] at hx; simp at hx
    · exact ih h2 x hx

theorem txOne_traffic (c b a res) : ∀ e ∈ (txOne c b a res).2.1, Traffic e := by
  intro e he
  unfold txOne at he
  simp only at he
  split at he
  · simp only [List.mem_cons, List.not_mem_nil, or_false] at he
    rcases he with rfl | rfl <;> constructor
  · simp only [List.mem_cons, List.not_mem_nil, or_false] at he
    subst he; constructor

theorem txFirst_traffic {res cs cs' es more} (h : txFirst res cs = .ok (some (cs', es, more))) : ∀ e ∈ es, Traffic e := by
  induction cs generalizing cs' es more with
  | nil => simp [txFirst] at h
  | cons c cs ih =>
    unfold txFirst at h
    split at h
    · split at h
      · rename_i b a _ _
        simp only [Out.ok.injEq, Option.some.injEq, Prod.mk.injEq] at h
        rw [← h.2.1]
        exact txOne_traffic c b a res
      · simp at h
    · rw [Out.bind_eq_ok] at h
      obtain ⟨o, h1, h⟩ := h
      cases o with
      | none => simp at h
      | some p =>
        obtain ⟨x, y, z⟩ := p
        simp only [Out.ok.injEq, Option.some.injEq, Prod.mk.injEq] at h
        rw [← h.2.1]
        exact ih h1

theorem txRound_traffic {w send i k rs rs' k' es more} (h : txRound w send i k rs = .ok (rs', k', es, more)) :
    ∀ e ∈ es, Traffic e := by
  induction rs generalizing i k rs' k' es more with
  | nil => simp only [txRound, Out.ok.injEq, Prod.mk.injEq] at h; rw [← h.2.2.1]; simp
  | cons r rs ih =>
    unfold txRound at h
    split at h
    · rw [Out.bind_eq_ok] at h
      obtain ⟨o, h1, h⟩ := h
      cases o with
      | none =>
        simp only [Out.bind_eq_ok] at h
        obtain ⟨⟨a, b, c, d⟩, h2, h3⟩ := h
        simp only [Out.ok.injEq, Prod.mk.injEq] at h3
        rw [← h3.2.2.1]
        exact ih h2
      | some p =>
        obtain ⟨cs, e, m⟩ := p
        simp only [Out.bind_eq_ok] at h
        obtain ⟨⟨a, b, c, d⟩, h2, h3⟩ := h
        simp only [Out.ok.injEq, Prod.mk.injEq] at h3
        rw [← h3.2.2.1]
        intro x hx
        rw [List.mem_append] at hx
        rcases hx with hx | hx
        · exact txFirst_traffic h1 x hx
        · exact ih h2 x hx
    · simp only [Out.bind_eq_ok] at h
      obtain ⟨⟨a, b, c, d⟩, h2, h3⟩ := h
      simp only [Out.ok.injEq, Prod.mk.injEq] at h3
      rw [← h3.2.2.1]
      exact ih h2

theorem txLoop_traffic {w send fuel k rs fin rs' es} (h : txLoop w send fuel k rs = .ok (fin, rs', es)) :
    ∀ e ∈ es, Traffic e := by
  induction fuel generalizing k rs fin rs' es with
  | zero => simp only [txLoop, Out.ok.injEq, Prod.mk.injEq] at h; rw [← h.2.2]; simp
  | succ fuel ih =>
    unfold txLoop at h
    simp only [Out.bind_eq_ok] at h
    obtain ⟨⟨a, b, c, d⟩, h1, h⟩ := h
    simp only at h
    split at h
    · simp only [Out.bind_eq_ok] at h
      obtain ⟨⟨x, y, z⟩, h2, h3⟩ := h
      simp only [Out.ok.injEq, Prod.mk.injEq] at h3
      rw [← h3.2.2]
      intro e he
      rw [List.mem_append] at he
      rcases he with he | he
      · exact txRound_traffic h1 e he
      · exact ih h2 e he
    · simp only [Out.ok.injEq, Prod.mk.injEq] at h
      rw [← h.2.2]
      exact txRound_traffic h1

theorem mainLoop_traffic {cfg fuel tend hist left rs st rs' es}
    (h : mainLoop cfg fuel tend hist left rs = .ok (st, rs', es)) : ∀ e ∈ es, Traffic e := by
  have hw : ∀ e ∈ [Event.wait left], Traffic e := by
    intro e he; rw [List.mem_singleton] at he; subst he; constructor
  induction hist generalizing left rs st rs' es with
  | nil =>
    rw [mainLoop] at h
    split at h
    · simp only [Out.ok.injEq, Prod.mk.injEq] at h; rw [← h.2.2]; simp
    · simp only [Out.ok.injEq, Prod.mk.injEq] at h; rw [← h.2.2]; exact hw
  | cons s hist ih =>
    rw [mainLoop] at h
    split at h
    · simp only [Out.ok.injEq, Prod.mk.injEq] at h; rw [← h.2.2]; simp
    · simp only at h
      split at h
      · simp only [Out.ok.injEq, Prod.mk.injEq] at h; rw [← h.2.2]; exact hw
      · split at h
        · simp only [Out.ok.injEq, Prod.mk.injEq] at h; rw [← h.2.2]; exact hw
        · simp only [Out.bind_eq_ok] at h
          obtain ⟨⟨fin, a, b⟩, h1, h⟩ := h
          have hp : ∀ e ∈ b, Traffic e := by
            unfold process at h1
            simp only [Out.bind_eq_ok] at h1
            obtain ⟨⟨x, y⟩, g1, ⟨u, v, z⟩, g2, g3⟩ := h1
            simp only [Out.ok.injEq, Prod.mk.injEq] at g3
            rw [← g3.2.2]
            intro e he
            rw [List.mem_append] at he
            rcases he with he | he
            · exact rxAll_traffic g1 e he
            · exact txLoop_traffic g2 e he
          simp only at h
          split at h
          · simp only [Out.bind_eq_ok] at h
            obtain ⟨⟨x, y, z⟩, h2, h3⟩ := h
            simp only [Out.ok.injEq, Prod.mk.injEq] at h3
            rw [← h3.2.2]
            intro e he
            simp only [List.mem_cons, List.mem_append] at he
            rcases he with rfl | he | he
            · exact .wait _
            · exact hp e he
            · exact ih h2 (by intro e he; rw [List.mem_singleton] at he; subst he; constructor) e he
          · simp only [Out.ok.injEq, Prod.mk.injEq] at h
            rw [← h.2.2]
            intro e he
            simp only [List.mem_cons] at he
            rcases he with rfl | he
            · exact .wait _
            · exact hp e he

theorem checkResults_kind (rs : List Resource) : ∀ e ∈ (checkResults rs).2, ∃ a b n m, e = .noRx a b n m := by
  induction rs with
  | nil => simp [checkResults]
  | cons r rs ih =>
    intro e he
    unfold checkResults at he
    simp only [List.mem_append, List.mem_flatMap] at he
    rcases he with ⟨c, _, hc⟩ | he
    · unfold noRxEvent at hc
      split at hc
      · rw [List.mem_singleton] at hc; exact ⟨_, _, _, _, hc⟩
      · simp at hc
    · exact ih e he

/-- In a run without unknown names there is no message about one. -/
theorem no_noSuchName {env cmds r} (hr : Ready cmds) (hu : ∀ c ∈ cmds, unresolved cmds c = false)
    (h : execCmds env cmds = .ok r) : ∀ e ∈ r.events, ∀ n, e ≠ .noSuchName n := by
  obtain ⟨pre, hpre, hcase⟩ := execCmds_parts hr hu h
  have h1 : ∀ e ∈ pre, ∀ n, e ≠ .noSuchName n := by
    intro e he
    rcases hpre e he with ⟨_, _, _, rfl⟩ | ⟨_, _, rfl⟩ | ⟨_, _, rfl⟩ <;> simp
  have h2 : ∀ l : List CStr, ∀ e ∈ l.map Event.opened, ∀ n, e ≠ .noSuchName n := by
    intro l e he
    obtain ⟨a, _, rfl⟩ := List.mem_map.mp he
    simp
  rcases hcase with ⟨_, _, _, he⟩ | ⟨_, el, hml, hfin, hnf⟩
  · intro e hm
    rw [he, List.mem_append] at hm
    rcases hm with hm | hm
    · exact h1 e hm
    · exact h2 _ e hm
  · have h3 : ∀ e ∈ el, ∀ n, e ≠ .noSuchName n := by
      intro e he
      cases mainLoop_traffic hml e he <;> simp
    by_cases hst : r.status = .finished
    · intro e hm
      rw [(hfin hst).1, List.mem_append, List.mem_append, List.mem_append] at hm
      rcases hm with ((hm | hm) | hm) | hm
      · exact h1 e hm
      · exact h2 _ e hm
      · exact h3 e hm
      · obtain ⟨_, _, _, _, rfl⟩ := checkResults_kind _ e hm
        simp
    · intro e hm
      rw [(hnf hst).1, List.mem_append, List.mem_append] at hm
      rcases hm with (hm | hm) | hm
      · exact h1 e hm
      · exact h2 _ e hm
      · exact h3 e hm

end Ef
