import Verif.Lemmas.ExecAll
import Verif.Spec.Abbrev

/-!
# Names have no influence on a run

`execResolved` with the names taken away: the same but for the names in the report.
-/

namespace Ef

open Spec

/-- The command without its name. -/
def unname (c : Cmd) : Cmd := { c with name := none }

/-- The resource without the names. -/
def unnameR (r : Resource) : Resource := { r with cmds := r.cmds.map unname }

/-- Apply a function to the result. -/
def omap {α β : Type} (g : α → β) (x : Out α) : Out β := x >>= fun a => .ok (g a)

@[simp] theorem omap_ok {α β : Type} (g : α → β) (a : α) : omap g (.ok a) = .ok (g a) := rfl
@[simp] theorem omap_ub {α β : Type} (g : α → β) (u : UB) : omap g (.ub u : Out α) = .ub u := rfl
@[simp] theorem omap_abort {α β : Type} (g : α → β) : omap g (.abort : Out α) = .abort := rfl
@[simp] theorem omap_exit {α β : Type} (g : α → β) (c : Int) : omap g (.exit c : Out α) = .exit c := rfl

theorem omap_bind {α β γ : Type} (g : β → γ) (x : Out α) (k : α → Out β) : omap g (x >>= k) = x >>= fun a => omap g (k a) := by
  cases x <;> rfl

theorem bind_omap {α β γ : Type} (g : α → β) (x : Out α) (k : β → Out γ) : omap g x >>= k = x >>= fun a => k (g a) := by
  cases x <;> rfl

theorem bind_congr {α β : Type} {x : Out α} {k k' : α → Out β} (h : ∀ a, k a = k' a) : x >>= k = x >>= k' := by
  cases x <;> simp [h]

theorem resArg0_unname (r : Resource) : resArg0 (unnameR r) = resArg0 r := by
  obtain ⟨cs, n⟩ := r
  cases cs <;> rfl

theorem addToExisting_unname (c : Cmd) (a : CStr) (rs : List Resource) :
    addToExisting (unname c) a (rs.map unnameR) = omap (Option.map (List.map unnameR)) (addToExisting c a rs) := by
  induction rs with
  | nil => rfl
  | cons r rs ih =>
    simp only [List.map_cons, addToExisting]
    rw [resArg0_unname, omap_bind]
    apply bind_congr
    intro n
    split
    · simp [unnameR]
    · rw [ih, bind_omap, omap_bind]
      apply bind_congr
      intro o
      cases o <;> rfl

theorem addCmd_unname (c : Cmd) (rs : List Resource) :
    addCmd (unname c) (rs.map unnameR) = omap (List.map unnameR) (addCmd c rs) := by
  unfold addCmd
  show (if c.type = .rx ∨ c.type = .tx then _ else _) = _
  split
  · show (match c.arg0 with | none => _ | some a => _) = _
    cases c.arg0 with
    | none =>
      simp only
      by_cases h : rs = []
      · subst h; rfl
      · rw [if_neg h, if_neg (by simpa using h)]; rfl
    | some a =>
      simp only
      rw [addToExisting_unname, bind_omap, omap_bind]
      apply bind_congr
      intro o
      cases o with
      | some rs' => rfl
      | none =>
        simp only [Option.map_none, List.length_map]
        split
        · simp [unnameR]
        · rfl
  · rfl

theorem mapCmds_unname (cs : List Cmd) : ∀ rs : List Resource,
    mapCmds (cs.map unname) (rs.map unnameR) = omap (List.map unnameR) (mapCmds cs rs) := by
  induction cs with
  | nil => intro rs; rfl
  | cons c cs ih =>
    intro rs
    simp only [List.map_cons, mapCmds]
    rw [addCmd_unname, bind_omap, omap_bind]
    apply bind_congr
    intro rs'
    exact ih rs'

theorem hasRx_unname (r : Resource) : hasRx (unnameR r) = hasRx r := by
  simp only [hasRx, unnameR, List.any_map]
  rfl

theorem hasTx_unname (r : Resource) : hasTx (unnameR r) = hasTx r := by
  simp only [hasTx, unnameR, List.any_map]
  rfl

theorem wantsIo_unname (rs : List Resource) : wantsIo (rs.map unnameR) = wantsIo rs := by
  simp only [wantsIo, List.any_map]
  congr 1
  funext r
  simp [hasRx_unname, hasTx_unname]

theorem cmdMatches_unname (b : Buf) (c : Cmd) : cmdMatches b (unname c) = cmdMatches b c := rfl

theorem matchCmds_unname (b : Buf) (cs : List Cmd) :
    matchCmds b (cs.map unname) = omap (Option.map fun p => (unname p.1, p.2.map unname)) (matchCmds b cs) := by
  induction cs with
  | nil => rfl
  | cons c cs ih =>
    simp only [List.map_cons, matchCmds]
    rw [cmdMatches_unname, omap_bind]
    apply bind_congr
    intro m
    split
    · rfl
    · rw [ih, bind_omap, omap_bind]
      apply bind_congr
      intro o
      cases o <;> rfl

/-- Without names: a resource and events. -/
def anonRE (p : Resource × List Event) : Resource × List Event := (unnameR p.1, p.2.map anonymous)

theorem rxFrame_unname (cfg : Config) (r : Resource) (m : RxMsg) : rxFrame cfg (unnameR r) m = omap anonRE (rxFrame cfg r m) := by
  unfold rxFrame
  simp only
  split
  · rfl
  · rw [omap_bind]
    apply bind_congr
    intro b
    rw [show (unnameR r).cmds = r.cmds.map unname from rfl, matchCmds_unname, bind_omap, omap_bind]
    apply bind_congr
    intro o
    cases o with
    | none =>
      simp only [Option.map_none]
      rw [resArg0_unname, omap_bind]
      rfl
    | some p =>
      obtain ⟨c, cs⟩ := p
      simp only [Option.map_some]
      show (match c.arg0 with | some a => _ | none => _) = _
      cases c.arg0 <;> rfl

theorem rxResource_unname (cfg : Config) (s : Step) (i : Nat) (r : Resource) :
    rxResource cfg s i (unnameR r) = omap anonRE (rxResource cfg s i r) := by
  unfold rxResource
  rw [hasRx_unname]
  split
  · cases s.recv i with
    | none => rfl
    | some m => exact rxFrame_unname cfg r m
  · rfl

/-- Without names: resources and events. -/
def anonRsE (p : List Resource × List Event) : List Resource × List Event := (p.1.map unnameR, p.2.map anonymous)

theorem rxAll_unname (cfg : Config) (s : Step) (rs : List Resource) : ∀ i,
    rxAll cfg s i (rs.map unnameR) = omap anonRsE (rxAll cfg s i rs) := by
  induction rs with
  | nil => intro i; rfl
  | cons r rs ih =>
    intro i
    simp only [List.map_cons, rxAll]
    rw [rxResource_unname, bind_omap, omap_bind]
    apply bind_congr
    rintro ⟨r', e⟩
    simp only [anonRE]
    rw [ih, bind_omap, omap_bind]
    apply bind_congr
    rintro ⟨rs', es⟩
    simp [anonRsE]

theorem txOne_unname (c : Cmd) (b : Buf) (a : CStr) (res : Int) :
    txOne (unname c) b a res = (unname (txOne c b a res).1, (txOne c b a res).2.1.map anonymous, (txOne c b a res).2.2) := by
  unfold txOne
  by_cases h : res = (b.length : Int) ∧ u32Sub c.rep 1 = 0
  · have h' : res = (b.length : Int) ∧ u32Sub (unname c).rep 1 = 0 := h
    simp only [if_pos h, if_pos h']
    rfl
  · have h' : ¬ (res = (b.length : Int) ∧ u32Sub (unname c).rep 1 = 0) := h
    simp only [if_neg h, if_neg h']
    rfl

theorem txFirst_unname (res : Int) (cs : List Cmd) : txFirst res (cs.map unname) =
    omap (Option.map fun p => (p.1.map unname, p.2.1.map anonymous, p.2.2)) (txFirst res cs) := by
  induction cs with
  | nil => rfl
  | cons c cs ih =>
    simp only [List.map_cons, txFirst]
    show (if c.type = .tx ∧ ¬ c.done = true then _ else _) = _
    split
    · show (match c.buf, c.arg0 with | some b, some a => _ | _, _ => _) = _
      cases c.buf with
      | none => rfl
      | some b =>
        cases c.arg0 with
        | none => rfl
        | some a =>
          simp only
          rw [txOne_unname]
          rfl
    · rw [ih, bind_omap, omap_bind]
      apply bind_congr
      intro o
      cases o with
      | none => rfl
      | some p => rfl

theorem txRound_unname (w : Nat → Bool) (send : Nat → Int) (rs : List Resource) : ∀ i k,
    txRound w send i k (rs.map unnameR) =
      omap (fun p => (p.1.map unnameR, p.2.1, p.2.2.1.map anonymous, p.2.2.2)) (txRound w send i k rs) := by
  induction rs with
  | nil => intro i k; rfl
  | cons r rs ih =>
    intro i k
    simp only [List.map_cons, txRound]
    split
    · rw [show (unnameR r).cmds = r.cmds.map unname from rfl, txFirst_unname, bind_omap, omap_bind]
      apply bind_congr
      intro o
      cases o with
      | none =>
        simp only [Option.map_none]
        rw [ih, bind_omap, omap_bind]
        rfl
      | some p =>
        obtain ⟨cs, e, m⟩ := p
        simp only [Option.map_some]
        rw [ih, bind_omap, omap_bind]
        apply bind_congr
        rintro ⟨rs', k', es, more⟩
        simp [unnameR]
    · rw [ih, bind_omap, omap_bind]
      rfl

/-- Without names: the result of a loop. -/
def anonLoop {α : Type} (p : α × List Resource × List Event) : α × List Resource × List Event := (p.1, p.2.1.map unnameR, p.2.2.map anonymous)

theorem txLoop_unname (w : Nat → Bool) (send : Nat → Int) : ∀ (fuel k : Nat) (rs : List Resource),
    txLoop w send fuel k (rs.map unnameR) = omap anonLoop (txLoop w send fuel k rs) := by
  intro fuel
  induction fuel with
  | zero => intro k rs; rfl
  | succ fuel ih =>
    intro k rs
    simp only [txLoop]
    rw [txRound_unname, bind_omap, omap_bind]
    apply bind_congr
    rintro ⟨rs', k', e, more⟩
    simp only
    split
    · rw [ih, bind_omap, omap_bind]
      apply bind_congr
      rintro ⟨fin, rs'', es⟩
      simp [anonLoop]
    · rfl

theorem writeSet_unname (s : Step) (rs : List Resource) : writeSet s (rs.map unnameR) = writeSet s rs := by
  funext i
  unfold writeSet
  rw [List.getElem?_map]
  cases rs[i]? with
  | none => rfl
  | some r => simp only [Option.map_some, hasTx_unname]

theorem process_unname (cfg : Config) (fuel : Nat) (s : Step) (rs : List Resource) :
    process cfg fuel s (rs.map unnameR) = omap anonLoop (process cfg fuel s rs) := by
  unfold process
  simp only
  rw [writeSet_unname, rxAll_unname, bind_omap, omap_bind]
  apply bind_congr
  rintro ⟨rs1, e1⟩
  simp only [anonRsE]
  rw [txLoop_unname, bind_omap, omap_bind]
  apply bind_congr
  rintro ⟨fin, rs2, e2⟩
  simp [anonLoop]

theorem mainLoop_unname (cfg : Config) (fuel : Nat) (tend : TimeVal) : ∀ (hist : List Step) (left : TimeVal) (rs : List Resource),
    mainLoop cfg fuel tend hist left (rs.map unnameR) = omap anonLoop (mainLoop cfg fuel tend hist left rs) := by
  intro hist
  induction hist with
  | nil =>
    intro left rs
    unfold mainLoop
    rw [wantsIo_unname]
    split <;> rfl
  | cons s hist ih =>
    intro left rs
    unfold mainLoop
    rw [wantsIo_unname]
    split
    · rfl
    · simp only
      split
      · rfl
      · split
        · rfl
        · rw [process_unname, bind_omap, omap_bind]
          apply bind_congr
          rintro ⟨fin, rs', e⟩
          cases fin with
          | true =>
            show (mainLoop cfg fuel tend hist (timerSub tend s.now) (rs'.map unnameR) >>= _) =
              omap anonLoop (mainLoop cfg fuel tend hist (timerSub tend s.now) rs' >>= _)
            rw [ih, bind_omap, omap_bind]
            apply bind_congr
            rintro ⟨st, rs'', es⟩
            simp [anonLoop, anonymous]
          | false => simp [anonLoop, anonymous]

theorem pcapEvents_unname (cs : List Cmd) : pcapEvents (cs.map unname) = omap (List.map anonymous) (pcapEvents cs) := by
  induction cs with
  | nil => rfl
  | cons c cs ih =>
    simp only [List.map_cons, pcapEvents]
    show (if c.type = .pcap then _ else _) = _
    split
    · show (match c.arg0, c.buf with | some a, some b => _ | _, _ => _) = _
      cases c.arg0 with
      | none => rfl
      | some a =>
        cases c.buf with
        | none => rfl
        | some b =>
          simp only
          rw [ih, bind_omap, omap_bind]
          rfl
    · exact ih

theorem hexEvents_unname (cs : List Cmd) : hexEvents (cs.map unname) = omap (List.map anonymous) (hexEvents cs) := by
  induction cs with
  | nil => rfl
  | cons c cs ih =>
    simp only [List.map_cons, hexEvents]
    show (if c.type = .hex then _ else _) = _
    split
    · show (match c.buf with | none => _ | some b => _) = _
      cases c.buf with
      | none => exact ih
      | some b =>
        simp only
        show (match c.mask with | none => _ | some m => _) = _
        cases c.mask with
        | none =>
          simp only
          rw [ih, bind_omap, omap_bind]
          rfl
        | some m =>
          simp only
          split
          · rw [ih, bind_omap, omap_bind]
            rfl
          · rfl
    · exact ih

theorem openAll_unname (canOpen : CStr → Bool) (rs : List Resource) :
    openAll canOpen (rs.map unnameR) = omap (fun p => (p.1.map anonymous, p.2)) (openAll canOpen rs) := by
  induction rs with
  | nil => rfl
  | cons r rs ih =>
    simp only [List.map_cons, openAll]
    rw [resArg0_unname, omap_bind]
    apply bind_congr
    intro a
    split
    · rw [ih, bind_omap, omap_bind]
      rfl
    · rfl

theorem missing_unname (r : Resource) : missing (unnameR r) = (missing r).map unname := by
  unfold missing unnameR
  rw [List.filter_map]
  rfl

theorem checkResults_unname (rs : List Resource) :
    checkResults (rs.map unnameR) = ((checkResults rs).1, (checkResults rs).2.map anonymous) := by
  induction rs with
  | nil => rfl
  | cons r rs ih =>
    simp only [List.map_cons, checkResults]
    rw [ih, missing_unname]
    simp only [List.length_map, List.map_append, Prod.mk.injEq]
    refine ⟨rfl, ?_⟩
    congr 1
    rw [List.flatMap_map, List.map_flatMap]
    congr 1
    funext c
    unfold noRxEvent
    show (match c.arg0, c.buf with | some a, some b => _ | _, _ => _) = _
    cases c.arg0 with
    | none => rfl
    | some a => cases c.buf <;> rfl

/-- Without names: the result of a run. -/
def anonRes (r : ExecRes) : ExecRes := { r with resources := r.resources.map unnameR, events := r.events.map anonymous }

theorem execResolved_unname (env : Env) (cmds : List Cmd) :
    execResolved env (cmds.map unname) = omap anonRes (execResolved env cmds) := by
  unfold execResolved
  have hp : pcapAll env.cfg (cmds.map unname) = omap (List.map anonymous) (pcapAll env.cfg cmds) := by
    unfold pcapAll
    split
    · exact pcapEvents_unname cmds
    · rfl
  rw [hp, bind_omap, omap_bind]
  apply bind_congr
  intro ep
  rw [hexEvents_unname, bind_omap, omap_bind]
  apply bind_congr
  intro eh
  have hm := mapCmds_unname cmds []
  rw [List.map_nil] at hm
  rw [hm, bind_omap, omap_bind]
  apply bind_congr
  intro rs
  rw [openAll_unname, bind_omap, omap_bind]
  apply bind_congr
  rintro ⟨eo, ok⟩
  simp only
  split
  · simp [anonRes]
  · rw [mainLoop_unname, bind_omap, omap_bind]
    apply bind_congr
    rintro ⟨st, rs', el⟩
    simp only [anonLoop]
    cases st with
    | finished =>
      simp only [checkResults_unname]
      simp [anonRes]
    | waiting => simp [anonRes]
    | sending => simp [anonRes]

/-! ## Definitions are not executed -/

theorem mapCmds_filter (cs : List Cmd) : ∀ rs, mapCmds (cs.filter (fun c => c.type != .name)) rs = mapCmds cs rs := by
  induction cs with
  | nil => intro rs; rfl
  | cons c cs ih =>
    intro rs
    by_cases h : c.type = .name
    · rw [List.filter_cons_of_neg (by simp [h])]
      simp only [mapCmds]
      unfold addCmd
      rw [if_neg (by rw [h]; rintro (e | e) <;> cases e)]
      exact ih rs
    · rw [List.filter_cons_of_pos (by simp [h])]
      simp only [mapCmds]
      exact bind_congr fun rs' => ih rs'

theorem pcapEvents_filter (cs : List Cmd) : pcapEvents (cs.filter (fun c => c.type != .name)) = pcapEvents cs := by
  induction cs with
  | nil => rfl
  | cons c cs ih =>
    by_cases h : c.type = .name
    · rw [List.filter_cons_of_neg (by simp [h])]
      simp only [pcapEvents]
      rw [if_neg (by rw [h]; intro e; cases e)]
      exact ih
    · rw [List.filter_cons_of_pos (by simp [h])]
      simp only [pcapEvents]
      rw [ih]

theorem hexEvents_filter (cs : List Cmd) : hexEvents (cs.filter (fun c => c.type != .name)) = hexEvents cs := by
  induction cs with
  | nil => rfl
  | cons c cs ih =>
    by_cases h : c.type = .name
    · rw [List.filter_cons_of_neg (by simp [h])]
      simp only [hexEvents]
      rw [if_neg (by rw [h]; intro e; cases e)]
      exact ih
    · rw [List.filter_cons_of_pos (by simp [h])]
      simp only [hexEvents]
      rw [ih]

theorem execResolved_filter (env : Env) (cmds : List Cmd) :
    execResolved env (cmds.filter (fun c => c.type != .name)) = execResolved env cmds := by
  unfold execResolved
  have hp : pcapAll env.cfg (cmds.filter (fun c => c.type != .name)) = pcapAll env.cfg cmds := by
    unfold pcapAll
    rw [pcapEvents_filter]
  rw [hp, hexEvents_filter, mapCmds_filter]

end Ef
