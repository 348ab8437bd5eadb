import Verif.Props.Run
import Verif.Lemmas.Kinds
import Verif.Lemmas.Unname

/-!
# Printing and saving frames does not disturb the traffic (C108)
-/

namespace Ef.Props

open Ef Ef.Spec

/-- Not a `hex` or `pcap` command. -/
def notSaving (c : Cmd) : Bool := c.type != .hex && c.type != .pcap

/-- What `hex` and `pcap` commands do: a frame is printed or appended to a file. -/
def isSaved : Event → Bool
  | .pcap _ _ => true
  | .hex _ _ => true
  | _ => false

theorem mapCmds_notSaving (cs : List Cmd) : ∀ rs, mapCmds (cs.filter notSaving) rs = mapCmds cs rs := by
  induction cs with
  | nil => intro rs; rfl
  | cons c cs ih =>
    intro rs
    by_cases h : notSaving c = true
    · rw [List.filter_cons_of_pos h]
      simp only [mapCmds]
      exact bind_congr fun rs' => ih rs'
    · rw [List.filter_cons_of_neg h]
      simp only [mapCmds]
      unfold addCmd
      rw [if_neg (by rintro (e | e) <;> (unfold notSaving at h; rw [e] at h; exact h rfl))]
      exact ih rs

theorem pcapEvents_notSaving (cs : List Cmd) : pcapEvents (cs.filter notSaving) = .ok [] := by
  induction cs with
  | nil => rfl
  | cons c cs ih =>
    by_cases h : notSaving c = true
    · rw [List.filter_cons_of_pos h]
      simp only [pcapEvents]
      rw [if_neg (by intro e; unfold notSaving at h; rw [e] at h; revert h; decide), ih]
    · rw [List.filter_cons_of_neg h, ih]

theorem hexEvents_notSaving (cs : List Cmd) : hexEvents (cs.filter notSaving) = .ok [] := by
  induction cs with
  | nil => rfl
  | cons c cs ih =>
    by_cases h : notSaving c = true
    · rw [List.filter_cons_of_pos h]
      simp only [hexEvents]
      rw [if_neg (by intro e; unfold notSaving at h; rw [e] at h; revert h; decide), ih]
    · rw [List.filter_cons_of_neg h, ih]

theorem inventory_notSaving (cs : List Cmd) : inventory (cs.filter notSaving) = inventory cs := by
  induction cs with
  | nil => rfl
  | cons c cs ih =>
    by_cases h : notSaving c = true
    · rw [List.filter_cons_of_pos h]
      simp only [inventory]
      rw [ih]
    · rw [List.filter_cons_of_neg h]
      simp only [inventory]
      rw [if_neg (by intro e; unfold notSaving at h; rw [e] at h; exact h rfl), ih]

theorem find_notSaving (n : CStr) (cs : List Cmd) : (cs.filter notSaving).find? (defines n) = cs.find? (defines n) := by
  induction cs with
  | nil => rfl
  | cons c cs ih =>
    by_cases h : notSaving c = true
    · rw [List.filter_cons_of_pos h, List.find?_cons, List.find?_cons, ih]
    · rw [List.filter_cons_of_neg h, List.find?_cons, ih]
      have : defines n c = false := by
        unfold defines
        have : (c.type == CmdType.name) = false := by
          rw [beq_eq_false_iff_ne]
          intro e
          unfold notSaving at h
          rw [e] at h
          exact h rfl
        rw [this]
        rfl
      rw [this]

theorem resolve_notSaving (cs : List Cmd) : resolve (cs.filter notSaving) = resolve cs := by
  funext c
  unfold resolve
  split
  · rw [find_notSaving]
  · rfl

theorem pcapEvents_saved {cs : List Cmd} : ∀ {es : List Event}, pcapEvents cs = .ok es → ∀ e ∈ es, isSaved e = true := by
  induction cs with
  | nil => intro es h; simp only [pcapEvents, Out.ok.injEq] at h; subst h; simp
  | cons c cs ih =>
    intro es h
    simp only [pcapEvents] at h
    split at h
    · split at h
      · obtain ⟨es', h1, h⟩ := Out.bind_eq_ok.mp h
        simp only [Out.ok.injEq] at h
        subst h
        intro e he
        rcases List.mem_cons.mp he with rfl | he
        · rfl
        · exact ih h1 e he
      · simp at h
    · exact ih h

theorem hexEvents_saved {cs : List Cmd} : ∀ {es : List Event}, hexEvents cs = .ok es → ∀ e ∈ es, isSaved e = true := by
  induction cs with
  | nil => intro es h; simp only [hexEvents, Out.ok.injEq] at h; subst h; simp
  | cons c cs ih =>
    intro es h
    simp only [hexEvents] at h
    split at h
    · split at h
      · exact ih h
      · split at h
        · obtain ⟨es', h1, h⟩ := Out.bind_eq_ok.mp h
          simp only [Out.ok.injEq] at h
          subst h
          intro e he
          rcases List.mem_cons.mp he with rfl | he
          · rfl
          · exact ih h1 e he
        · split at h
          · obtain ⟨es', h1, h⟩ := Out.bind_eq_ok.mp h
            simp only [Out.ok.injEq] at h
            subst h
            intro e he
            rcases List.mem_cons.mp he with rfl | he
            · rfl
            · exact ih h1 e he
          · simp at h
    · exact ih h

theorem openAll_unsaved {canOpen : CStr → Bool} {rs : List Resource} : ∀ {es : List Event} {ok : Bool},
    openAll canOpen rs = .ok (es, ok) → ∀ e ∈ es, isSaved e = false := by
  induction rs with
  | nil => intro es ok h; simp only [openAll, Out.ok.injEq, Prod.mk.injEq] at h; rw [← h.1]; simp
  | cons r rs ih =>
    intro es ok h
    simp only [openAll] at h
    obtain ⟨a, -, h⟩ := Out.bind_eq_ok.mp h
    split at h
    · obtain ⟨⟨es', ok'⟩, h1, h⟩ := Out.bind_eq_ok.mp h
      simp only [Out.ok.injEq, Prod.mk.injEq] at h
      rw [← h.1]
      intro e he
      rcases List.mem_cons.mp he with rfl | he
      · rfl
      · exact ih h1 e he
    · simp only [Out.ok.injEq, Prod.mk.injEq] at h; rw [← h.1]; simp

theorem checkResults_unsaved (rs : List Resource) : ∀ e ∈ (checkResults rs).2, isSaved e = false := by
  rw [checkResults_eq]
  intro e he
  simp only [List.mem_flatMap] at he
  obtain ⟨q, -, x, -, hx⟩ := he
  unfold noRxEvent at hx
  split at hx
  · simp only [List.mem_singleton] at hx; subst hx; rfl
  · simp at hx

theorem inventory_unsaved (cs : List Cmd) : ∀ e ∈ inventory cs, isSaved e = false := by
  induction cs with
  | nil => simp [inventory]
  | cons c cs ih =>
    simp only [inventory]
    split
    · split
      · intro e he
        rcases List.mem_cons.mp he with rfl | he
        · rfl
        · exact ih e he
      · exact ih
    · exact ih

/-- The run without the `hex` and `pcap` commands, with the names resolved. -/
theorem execResolved_notSaving {env : Env} {ds : List Cmd} {r : ExecRes} (h : execResolved env ds = .ok r) :
    ∃ saved rest, r.events = saved ++ rest ∧ (∀ e ∈ saved, isSaved e = true) ∧
      (∀ e ∈ rest, isSaved e = false) ∧ execResolved env (ds.filter notSaving) = .ok { r with events := rest } := by
  unfold execResolved at h ⊢
  rw [hexEvents_notSaving, mapCmds_notSaving]
  have hp : pcapAll env.cfg (ds.filter notSaving) = .ok [] := by
    unfold pcapAll
    rw [pcapEvents_notSaving]
    split <;> rfl
  rw [hp, Out.ok_bind, Out.ok_bind]
  obtain ⟨ep, hep, h⟩ := Out.bind_eq_ok.mp h
  obtain ⟨eh, heh, h⟩ := Out.bind_eq_ok.mp h
  obtain ⟨rs, hrs, h⟩ := Out.bind_eq_ok.mp h
  obtain ⟨⟨eo, ok⟩, ho, h⟩ := Out.bind_eq_ok.mp h
  rw [hrs, Out.ok_bind, ho, Out.ok_bind]
  have hs : ∀ e ∈ ep ++ eh, isSaved e = true := by
    intro e he
    rcases List.mem_append.mp he with he | he
    · unfold pcapAll at hep
      split at hep
      · exact pcapEvents_saved hep e he
      · simp only [Out.ok.injEq] at hep; subst hep; simp at he
    · exact hexEvents_saved heh e he
  simp only at h ⊢
  split at h
  · rename_i hk
    rw [if_pos hk]
    simp only [Out.ok.injEq] at h
    subst h
    exact ⟨ep ++ eh, eo, rfl, hs, openAll_unsaved ho, rfl⟩
  · rename_i hk
    rw [if_neg hk]
    obtain ⟨⟨st, rs1, el⟩, hml, h⟩ := Out.bind_eq_ok.mp h
    rw [hml, Out.ok_bind]
    have hl : ∀ e ∈ eo ++ el, isSaved e = false := by
      intro e he
      rcases List.mem_append.mp he with he | he
      · exact openAll_unsaved ho e he
      · cases mainLoop_traffic hml e he <;> rfl
    have hl2 : ∀ e ∈ eo ++ el ++ (checkResults rs1).2, isSaved e = false := by
      intro e he
      rcases List.mem_append.mp he with he | he
      · exact hl e he
      · exact checkResults_unsaved rs1 e he
    cases st with
    | finished =>
      simp only [Out.ok.injEq] at h
      subst h
      exact ⟨ep ++ eh, eo ++ el ++ (checkResults rs1).2, by simp, hs, hl2, by simp⟩
    | waiting =>
      simp only [Out.ok.injEq] at h
      subst h
      exact ⟨ep ++ eh, eo ++ el, by simp, hs, hl, by simp⟩
    | sending =>
      simp only [Out.ok.injEq] at h
      subst h
      exact ⟨ep ++ eh, eo ++ el, by simp, hs, hl, by simp⟩

/-! ## C108 -/

/-- **C108**: with the `hex` and `pcap` commands taken away, everything else is the same: the inventory of the named
frames, the sockets, all traffic, all reports, the timeouts and the result. What these commands do is done before
everything but the inventory. -/
theorem C108_no_influence (env : Env) (cmds : List Cmd) (r : ExecRes) (hu : ∀ c ∈ cmds, unresolved cmds c = false)
    (h : execCmds env cmds = .ok r) :
    execCmds env (cmds.filter notSaving) = .ok { r with events := r.events.filter (fun e => !isSaved e) } ∧
    ∃ saved rest, r.events = inventory cmds ++ saved ++ rest ∧ (∀ e ∈ saved, isSaved e = true) ∧
      (∀ e ∈ rest, isSaved e = false) := by
  obtain ⟨r0, h0, rfl⟩ := execCmds_ok hu h
  obtain ⟨saved, rest, he, hs, hn, h1⟩ := execResolved_notSaving h0
  refine ⟨?_, saved, rest, by simp only [he, List.append_assoc], hs, hn⟩
  have e1 : saved.filter (fun e => !isSaved e) = [] := by
    rw [List.filter_eq_nil_iff]
    intro e hx
    simp [hs e hx]
  have e2 : ∀ l : List Event, (∀ e ∈ l, isSaved e = false) → l.filter (fun e => !isSaved e) = l := by
    intro l hl
    rw [List.filter_eq_self]
    intro e hx
    simp [hl e hx]
  simp only [he]
  rw [List.filter_append, List.filter_append, e1, List.nil_append, e2 _ (inventory_unsaved cmds), e2 rest hn]
  unfold execCmds
  rw [pairNames_eq, resolve_notSaving, inventory_notSaving]
  have hnone : (cmds.filter notSaving).filter (unresolved (cmds.filter notSaving)) = [] := by
    rw [List.filter_eq_nil_iff]
    intro c hc
    have hcu := hu c (List.mem_filter.mp hc).1
    unfold unresolved at hcu ⊢
    split at hcu
    · rename_i n hn
      have : ((cmds.filter notSaving).any (defines n)) = cmds.any (defines n) := by
        rw [Bool.eq_iff_iff, List.any_eq_true, List.any_eq_true, ← List.find?_isSome, ← List.find?_isSome, find_notSaving]
      rw [this, hcu]
      simp
    · simp
  rw [hnone]
  have hmap : (cmds.filter notSaving).map (resolve cmds) = (cmds.map (resolve cmds)).filter notSaving := by
    rw [List.filter_map]
    congr 1
    apply List.filter_congr
    intro c _
    unfold notSaving
    simp only [Function.comp]
    rw [resolve_type]
  simp only [List.filterMap_nil, ne_eq, not_true_eq_false, if_false]
  rw [hmap, h1, Out.ok_bind]

/-- Non-vacuity: a frame is printed and saved, another one is expected and does not come. -/
example : let print : Cmd := { type := .hex, frame := some plainFrame, buf := some [9#8] }
    let save : Cmd := { type := .pcap, arg0 := some c!"f", frame := some plainFrame, buf := some [8#8] }
    let cmds := [print, expect [1#8] none, save]
    (∀ c ∈ cmds, unresolved cmds c = false) ∧ (execCmds (listening []) cmds).get?.isSome ∧
    (result (listening []) cmds).events.filter isSaved = [.pcap c!"f" [8#8], .hex [9#8] none] ∧
    (result (listening []) cmds).ret = some 1 := by decide +kernel

end Ef.Props
