import Verif.Lemmas.ExecLoop

/-!
# Named frames, grouping by interface, opening, and the final check
-/

namespace Ef

open Spec

/-! ## Named frames -/

theorem lookupName_eq (n : CStr) (cmds : List Cmd) : lookupName n cmds = cmds.find? (defines n) := by
  induction cmds with
  | nil => rfl
  | cons c cs ih =>
    rw [lookupName, List.find?_cons, ih]
    by_cases h : c.type = .name ∧ c.buf.isSome ∧ c.name = some n
    · rw [if_pos h]
      have : defines n c = true := by simp [defines, h.1, h.2.1, h.2.2]
      rw [this]
    · rw [if_neg h]
      have : defines n c = false := by
        cases hd : defines n c with
        | false => rfl
        | true =>
          simp only [defines, Bool.and_eq_true, beq_iff_eq] at hd
          exact absurd ⟨hd.1.1, hd.1.2, hd.2⟩ h
      rw [this]

theorem needsName_eq (c : Cmd) : needsName c = refersTo c := by
  unfold needsName refersTo
  by_cases h1 : c.type = .name
  · simp [h1]
  · cases hb : c.buf <;> simp [h1]

theorem frameCopy_eq (f : Frame) : frameCopy f = f := (Props.C26_equal_and_copies).2.2.2.2 f

theorem bclone_eq (b : Option Buf) : bclone b = b := by cases b <;> rfl

theorem pairNames_eq (all cmds : List Cmd) :
    pairNames all cmds = (cmds.map (resolve all),
      (cmds.filter (unresolved all)).filterMap (fun c => (refersTo c).map Event.noSuchName)) := by
  induction cmds with
  | nil => rfl
  | cons c cs ih =>
    rw [pairNames, ih, needsName_eq]
    simp only
    cases hr : refersTo c with
    | none => simp [resolve, unresolved, hr]
    | some n =>
      simp only
      rw [lookupName_eq]
      cases hf : all.find? (defines n) with
      | none =>
        have hu : unresolved all c = true := by
          simp only [unresolved, hr, Bool.not_eq_true', List.any_eq_false]
          intro x hx
          rw [List.find?_eq_none] at hf
          exact hf x hx
        simp [resolve, hu, hr, hf]
      | some d =>
        have hu : unresolved all c = false := by
          simp only [unresolved, hr, Bool.not_eq_eq_eq_not, Bool.not_false, List.any_eq_true]
          exact ⟨d, List.mem_of_find?_eq_some hf, List.find?_some hf⟩
        have hmap : d.frame.map frameCopy = d.frame := by
          cases d.frame with
          | none => rfl
          | some f => simp [frameCopy_eq]
        simp [resolve, hu, hr, hf, hmap, bclone_eq]

theorem unresolved_events (all cmds : List Cmd) :
    ((cmds.filter (unresolved all)).filterMap (fun c => (refersTo c).map Event.noSuchName)).length =
      (cmds.filter (unresolved all)).length := by
  induction cmds with
  | nil => rfl
  | cons c cs ih =>
    rw [List.filter_cons]
    split
    · rename_i h
      unfold unresolved at h
      split at h
      · rename_i n hn
        simp [hn, ih]
      · simp at h
    · exact ih

/-! ## Grouping -/

theorem firsts_mem (l : List CStr) (a : CStr) : a ∈ firsts l ↔ a ∈ l := by
  induction l with
  | nil => rfl
  | cons b l ih =>
    simp only [firsts, List.mem_cons, List.mem_filter, ih]
    by_cases h : a = b <;> simp [h]

theorem firsts_nodup (l : List CStr) : (firsts l).Nodup := by
  induction l with
  | nil => simp [firsts]
  | cons b l ih =>
    simp only [firsts, List.nodup_cons, List.mem_filter]
    exact ⟨by simp, List.Pairwise.filter _ ih⟩

theorem firsts_snoc (l : List CStr) (a : CStr) :
    firsts (l ++ [a]) = if a ∈ l then firsts l else firsts l ++ [a] := by
  induction l with
  | nil => simp [firsts]
  | cons b l ih =>
    simp only [List.cons_append, firsts, ih, List.mem_cons]
    by_cases h1 : a ∈ l
    · simp [h1]
    · by_cases h2 : a = b
      · subst h2
        simp [h1, List.filter_append]
      · simp [h1, h2, List.filter_append]

theorem firsts_length (l : List CStr) : (firsts l).length ≤ l.length := by
  induction l with
  | nil => simp [firsts]
  | cons b l ih =>
    simp only [firsts, List.length_cons]
    have := List.length_filter_le (fun x => decide (x ≠ b)) (firsts l)
    omega

theorem ifaces_nodup (cmds : List Cmd) : (ifaces cmds).Nodup := firsts_nodup _

theorem ifaces_mem (cmds : List Cmd) (a : CStr) : a ∈ ifaces cmds ↔ ∃ c ∈ cmds, ioIface c = some a := by
  unfold ifaces
  rw [firsts_mem, List.mem_filterMap]

/-- The sockets with their commands. -/
def group (cmds : List Cmd) : List Resource := (ifaces cmds).map (fun a => { cmds := cmdsOn a cmds })

theorem ioIface_arg0 {c : Cmd} {a : CStr} (h : ioIface c = some a) : c.arg0 = some a := by
  unfold ioIface at h
  split at h
  · exact h
  · simp at h

theorem cmdsOn_named {cmds : List Cmd} {a : CStr} (h : a ∈ ifaces cmds) : Named a { cmds := cmdsOn a cmds } := by
  rw [ifaces_mem] at h
  obtain ⟨c, hc, hi⟩ := h
  refine ⟨?_, ?_⟩
  · intro h0
    have : c ∈ cmdsOn a cmds := by
      unfold cmdsOn; rw [List.mem_filter]; exact ⟨hc, by simp [hi]⟩
    simp only at h0
    rw [h0] at this
    simp at this
  · intro x hx
    unfold cmdsOn at hx
    simp only [List.mem_filter, beq_iff_eq] at hx
    exact ioIface_arg0 hx.2

theorem group_named (cmds : List Cmd) : NamedAll (ifaces cmds) (group cmds) := by
  unfold group
  have : ∀ as : List CStr, (∀ a ∈ as, a ∈ ifaces cmds) →
      NamedAll as (as.map (fun a => ({ cmds := cmdsOn a cmds } : Resource))) := by
    intro as
    induction as with
    | nil => intro _; trivial
    | cons a as ih =>
      intro h
      exact ⟨cmdsOn_named (h a List.mem_cons_self), ih (fun b hb => h b (List.mem_cons_of_mem _ hb))⟩
  exact this _ (fun a h => h)

theorem addToExisting_eq (c : Cmd) (a : CStr) (g : CStr → Resource) (as : List CStr) (hnd : as.Nodup)
    (hg : ∀ x ∈ as, resArg0 (g x) = .ok x) :
    addToExisting c a (as.map g) = .ok (if a ∈ as then
      some (as.map (fun x => if x = a then { g x with cmds := (g x).cmds ++ [c] } else g x)) else none) := by
  induction as with
  | nil => rfl
  | cons x as ih =>
    rw [List.nodup_cons] at hnd
    rw [List.map_cons, addToExisting, hg x List.mem_cons_self, Out.ok_bind]
    by_cases h : x = a
    · subst h
      rw [if_pos rfl, if_pos List.mem_cons_self, List.map_cons, if_pos rfl]
      have e : as.map (fun y => if y = x then { g y with cmds := (g y).cmds ++ [c] } else g y) = as.map g := by
        apply List.map_congr_left
        intro y hy
        rw [if_neg]
        rintro rfl
        exact hnd.1 hy
      rw [e]
    · rw [if_neg h, ih hnd.2 (fun y hy => hg y (List.mem_cons_of_mem _ hy)), Out.ok_bind]
      by_cases hm : a ∈ as
      · rw [if_pos hm, if_pos (List.mem_cons_of_mem _ hm), List.map_cons, if_neg h]
      · rw [if_neg hm, if_neg]
        simp only [List.mem_cons, not_or]
        exact ⟨fun e => h e.symm, hm⟩

/-- tx and rx commands have an interface. -/
def HasIface (c : Cmd) : Prop := c.type = .rx ∨ c.type = .tx → c.arg0.isSome

theorem ioIface_none {c : Cmd} (h : ¬ (c.type = .rx ∨ c.type = .tx)) : ioIface c = none := by
  unfold ioIface; rw [if_neg h]

theorem addCmd_group (pre : List Cmd) (c : Cmd) (hc : HasIface c) (hl : (ifaces (pre ++ [c])).length ≤ 100) :
    addCmd c (group pre) = .ok (group (pre ++ [c])) := by
  unfold addCmd
  by_cases hio : c.type = .rx ∨ c.type = .tx
  · rw [if_pos hio]
    obtain ⟨a, ha⟩ := Option.isSome_iff_exists.mp (hc hio)
    have hi : ioIface c = some a := by unfold ioIface; rw [if_pos hio, ha]
    have hfm : (pre ++ [c]).filterMap ioIface = pre.filterMap ioIface ++ [a] := by
      rw [List.filterMap_append]; simp [hi]
    have hon : ∀ x, cmdsOn x (pre ++ [c]) = if x = a then cmdsOn x pre ++ [c] else cmdsOn x pre := by
      intro x
      unfold cmdsOn
      rw [List.filter_append]
      by_cases hx : x = a
      · subst hx; simp [hi]
      · have : (some a == some x) = false := by
          simp only [beq_eq_false_iff_ne, ne_eq, Option.some.injEq]
          exact fun h => hx h.symm
        simp [hi, this, hx]
    rw [ha]
    simp only
    unfold group
    rw [addToExisting_eq c a _ _ (ifaces_nodup pre) (fun x hx => (cmdsOn_named hx).arg0), Out.ok_bind]
    have hif : ifaces (pre ++ [c]) = if a ∈ ifaces pre then ifaces pre else ifaces pre ++ [a] := by
      unfold ifaces
      rw [hfm, firsts_snoc]
      by_cases h : a ∈ pre.filterMap ioIface
      · rw [if_pos h, if_pos ((firsts_mem _ _).mpr h)]
      · rw [if_neg h, if_neg (fun h' => h ((firsts_mem _ _).mp h'))]
    rw [hif] at hl ⊢
    by_cases hm : a ∈ ifaces pre
    · rw [if_pos hm, if_pos hm]
      simp only [Out.ok.injEq]
      apply List.map_congr_left
      intro x _
      rw [hon x]
      split <;> rfl
    · rw [if_neg hm] at hl
      rw [if_neg hm, if_neg hm]
      simp only [List.length_map]
      rw [List.length_append, List.length_singleton] at hl
      rw [if_pos (by omega), List.map_append]
      congr 2
      · apply List.map_congr_left
        intro x hx
        rw [hon x, if_neg]
        rintro rfl
        exact hm hx
      · have : cmdsOn a pre = [] := by
          unfold cmdsOn
          rw [List.filter_eq_nil_iff]
          intro x hx h
          simp only [beq_iff_eq] at h
          exact hm ((ifaces_mem _ _).mpr ⟨x, hx, h⟩)
        simp [hon, this]
  · rw [if_neg hio]
    have hn := ioIface_none hio
    have e1 : ifaces (pre ++ [c]) = ifaces pre := by
      unfold ifaces; rw [List.filterMap_append]; simp [hn]
    have e2 : ∀ a, cmdsOn a (pre ++ [c]) = cmdsOn a pre := by
      intro a; unfold cmdsOn; rw [List.filter_append]; simp [hn]
    unfold group
    rw [e1]
    simp only [e2]

theorem ifaces_prefix_length (pre post : List Cmd) : (ifaces pre).length ≤ (ifaces (pre ++ post)).length := by
  induction post generalizing pre with
  | nil => simp
  | cons c post ih =>
    have e : pre ++ c :: post = (pre ++ [c]) ++ post := by simp
    rw [e]
    refine Nat.le_trans ?_ (ih (pre ++ [c]))
    unfold ifaces
    rw [List.filterMap_append]
    cases hi : ioIface c with
    | none => simp [hi]
    | some a =>
      simp only [List.filterMap_cons, hi, List.filterMap_nil]
      rw [firsts_snoc]
      split <;> simp

theorem mapCmds_group (pre cmds : List Cmd) (hc : ∀ c ∈ cmds, HasIface c)
    (hl : (ifaces (pre ++ cmds)).length ≤ 100) : mapCmds cmds (group pre) = .ok (group (pre ++ cmds)) := by
  induction cmds generalizing pre with
  | nil => rw [mapCmds, List.append_nil]
  | cons c cs ih =>
    have e : pre ++ c :: cs = (pre ++ [c]) ++ cs := by simp
    rw [mapCmds, addCmd_group pre c (hc c List.mem_cons_self), Out.ok_bind,
      ih (pre ++ [c]) (fun x hx => hc x (List.mem_cons_of_mem _ hx)) (by rw [← e]; exact hl), ← e]
    have := ifaces_prefix_length (pre ++ [c]) cs
    rw [← e] at this
    omega

/-! ## Opening the sockets -/

theorem openAll_eq (canOpen : CStr → Bool) {as : List CStr} {rs : List Resource} (hn : NamedAll as rs) :
    openAll canOpen rs = .ok ((as.takeWhile canOpen).map Event.opened, as.all canOpen) := by
  induction as generalizing rs with
  | nil => cases rs with
    | nil => rfl
    | cons => exact absurd hn (by simp [NamedAll])
  | cons a as ih => cases rs with
    | nil => exact absurd hn (by simp [NamedAll])
    | cons r rs =>
      rw [openAll, hn.1.arg0, Out.ok_bind]
      by_cases h : canOpen a
      · rw [if_pos h, ih hn.2, Out.ok_bind]
        simp [h]
      · simp [h]

/-! ## The final check -/

/-- Number of errors counted on the sockets. -/
def errSum (rs : List Resource) : Nat := (rs.map (·.rxErrCnt)).sum

theorem checkResults_eq (rs : List Resource) :
    checkResults rs = ((rs.map (fun r => r.rxErrCnt + (missing r).length)).sum,
      rs.flatMap (fun r => (missing r).flatMap noRxEvent)) := by
  induction rs with
  | nil => rfl
  | cons r rs ih => rw [checkResults, ih]; simp

theorem missing_events {a : CStr} (cs cs' : List Cmd) (out : List (Option Nat)) (n : Nat)
    (hl : cs'.length = cs.length)
    (h : ∀ (j : Nat) c', cs'[j]? = some c' → ∃ c, cs[j]? = some c ∧ SameStatic c c' ∧ c'.arg0 = some a ∧
      (c.type = .rx → (c'.done = true ↔ some (j + n) ∈ out))) :
    (cs'.filter (fun c => c.type == .rx && c.buf.isSome && !c.done)).flatMap noRxEvent =
      (((cs.zipIdx n).filter (fun p => p.1.type == .rx && p.1.buf.isSome && !out.contains (some p.2))).map (·.1)).map
        (noRxReport a) ∧
    (cs'.filter (fun c => c.type == .rx && c.buf.isSome && !c.done)).length =
      (((cs.zipIdx n).filter (fun p => p.1.type == .rx && p.1.buf.isSome && !out.contains (some p.2))).map (·.1)).length := by
  induction cs generalizing cs' n with
  | nil =>
    have : cs' = [] := List.length_eq_zero_iff.mp hl
    subst this
    exact ⟨rfl, rfl⟩
  | cons c cs ih =>
    cases cs' with
    | nil => simp at hl
    | cons c' cs' =>
      obtain ⟨ih1, ih2⟩ := ih cs' (n + 1) (by simpa using hl) (fun j x hx => by
        obtain ⟨y, hy, h1, h2, h3⟩ := h (j + 1) x (by simpa using hx)
        refine ⟨y, by simpa using hy, h1, h2, fun ht => ?_⟩
        rw [h3 ht, show j + 1 + n = j + (n + 1) by omega])
      obtain ⟨y, hy, hs, ha, hd⟩ := h 0 c' rfl
      simp only [List.getElem?_cons_zero, Option.some.injEq] at hy
      subst hy
      rw [Nat.zero_add] at hd
      rw [List.zipIdx_cons, List.filter_cons, List.filter_cons]
      have e : (c'.type == CmdType.rx && c'.buf.isSome && !c'.done) =
          (c.type == CmdType.rx && c.buf.isSome && !out.contains (some n)) := by
        rw [hs.1, hs.2.2.2.2.1]
        by_cases ht : c.type = .rx
        · have : c'.done = out.contains (some n) := by
            rw [Bool.eq_iff_iff, hd ht, List.contains_iff_mem]
          rw [this]
        · have : (c.type == CmdType.rx) = false := by simpa using ht
          rw [this]; simp
      simp only
      rw [e]
      split
      · rename_i hp
        simp only [Bool.and_eq_true] at hp
        obtain ⟨b, hb⟩ := Option.isSome_iff_exists.mp hp.1.2
        refine ⟨?_, by simpa using ih2⟩
        rw [List.flatMap_cons, ih1, List.map_cons, List.map_cons]
        have : noRxEvent c' = [noRxReport a c] := by
          simp [noRxEvent, noRxReport, ha, hs.2.2.2.2.1, hb, hs.2.1, hs.2.2.2.2.2]
        rw [this]
        rfl
      · exact ⟨ih1, ih2⟩

end Ef
