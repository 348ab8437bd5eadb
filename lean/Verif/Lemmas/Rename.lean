import Verif.Spec.Rename

/-!
# The execution with other names
-/

namespace Ef

open Spec

variable {ρ : Names}

/-- Only commands of interfaces. -/
def IoOnly (r : Resource) : Prop := ∀ c ∈ r.cmds, c.type = .rx ∨ c.type = .tx

def rnRes (ρ : Names) (r : Resource) : Resource := { r with cmds := r.cmds.map (rnCmd ρ) }

/-- `f` applied to the result. -/
def Out.onOk {α β : Type} (f : α → β) (x : Out α) : Out β := do let a ← x; .ok (f a)

@[simp] theorem Out.onOk_ok {α β : Type} (f : α → β) (a : α) : Out.onOk f (.ok a) = .ok (f a) := rfl

theorem Out.onOk_bind {α β γ : Type} (f : β → γ) (x : Out α) (k : α → Out β) :
    Out.onOk f (x >>= k) = x >>= fun a => Out.onOk f (k a) := by
  cases x <;> rfl

theorem Out.bind_onOk {α β γ : Type} (f : α → β) (x : Out α) (k : β → Out γ) :
    (Out.onOk f x) >>= k = x >>= fun a => k (f a) := by
  cases x <;> rfl

theorem rnCmd_arg0 {c : Cmd} (h : c.type = .rx ∨ c.type = .tx) : (rnCmd ρ c).arg0 = c.arg0.map ρ.iface := by
  rcases h with h | h <;> simp [rnCmd, h]

theorem resArg0_rn {r : Resource} (h : IoOnly r) : resArg0 (rnRes ρ r) = Out.onOk ρ.iface (resArg0 r) := by
  unfold resArg0 rnRes
  cases hc : r.cmds with
  | nil => rfl
  | cons c cs =>
    simp only [List.map_cons]
    rw [rnCmd_arg0 (h c (by simp [hc]))]
    cases c.arg0 <;> rfl

theorem addToExisting_rn (hd : ρ.Distinct) (c : Cmd) (a : CStr) (rs : List Resource) (h : ∀ r ∈ rs, IoOnly r) :
    addToExisting (rnCmd ρ c) (ρ.iface a) (rs.map (rnRes ρ)) = Out.onOk (Option.map (List.map (rnRes ρ))) (addToExisting c a rs) := by
  induction rs with
  | nil => rfl
  | cons r rs ih =>
    unfold addToExisting
    simp only [List.map_cons]
    rw [resArg0_rn (h r (by simp)), Out.bind_onOk, Out.onOk_bind, ih (fun x hx => h x (by simp [hx]))]
    congr 1
    funext n
    by_cases e : n = a
    · subst e; simp [rnRes]
    · rw [if_neg e, if_neg (fun e' => e (hd.iface _ _ e')), Out.bind_onOk, Out.onOk_bind]
      congr 1
      funext o
      cases o <;> simp

theorem addToExisting_io {c : Cmd} (hc : c.type = .rx ∨ c.type = .tx) {a : CStr} {rs : List Resource} (h : ∀ r ∈ rs, IoOnly r) :
    ∀ {rs'}, addToExisting c a rs = .ok (some rs') → ∀ r ∈ rs', IoOnly r := by
  induction rs with
  | nil => intro rs' e; simp [addToExisting] at e
  | cons r rs ih =>
    intro rs' e
    unfold addToExisting at e
    obtain ⟨n, _, e⟩ := Out.bind_eq_ok.mp e
    split at e
    · simp only [Out.ok.injEq, Option.some.injEq] at e
      subst e
      intro x hx
      rcases List.mem_cons.mp hx with rfl | hx
      · intro d hd
        rcases List.mem_append.mp hd with hd | hd
        · exact h r (by simp) d hd
        · rw [List.mem_singleton] at hd; subst hd; exact hc
      · exact h x (by simp [hx])
    · obtain ⟨o, ho, e⟩ := Out.bind_eq_ok.mp e
      cases o with
      | none => simp at e
      | some rs1 =>
        simp only [Out.ok.injEq, Option.some.injEq] at e
        subst e
        intro x hx
        rcases List.mem_cons.mp hx with rfl | hx
        · exact h x (by simp)
        · exact ih (fun y hy => h y (by simp [hy])) ho x hx

theorem addCmd_rn (hd : ρ.Distinct) (c : Cmd) (rs : List Resource) (h : ∀ r ∈ rs, IoOnly r) :
    addCmd (rnCmd ρ c) (rs.map (rnRes ρ)) = Out.onOk (List.map (rnRes ρ)) (addCmd c rs) := by
  unfold addCmd
  have ht : (rnCmd ρ c).type = c.type := rfl
  rw [ht]
  split
  · rename_i hc
    rw [rnCmd_arg0 hc]
    cases ha : c.arg0 with
    | none => cases rs <;> simp [rnRes, Out.onOk] <;> rfl
    | some a =>
      simp only [Option.map_some]
      rw [addToExisting_rn hd c a rs h, Out.bind_onOk, Out.onOk_bind]
      congr 1
      funext o
      cases o with
      | some rs' => rfl
      | none =>
        simp only [Option.map_none, List.length_map]
        split
        · simp [rnRes]
        · rfl
  · rfl

theorem addCmd_io {c : Cmd} {rs rs' : List Resource} (h : ∀ r ∈ rs, IoOnly r) (e : addCmd c rs = .ok rs') : ∀ r ∈ rs', IoOnly r := by
  unfold addCmd at e
  split at e
  · rename_i hc
    have app : ∀ r ∈ rs ++ [({ cmds := [c] } : Resource)], IoOnly r := by
      intro r hr
      rcases List.mem_append.mp hr with hr | hr
      · exact h r hr
      · rw [List.mem_singleton] at hr
        subst hr
        intro d hd
        rw [List.mem_singleton] at hd
        subst hd
        exact hc
    cases ha : c.arg0 with
    | none =>
      rw [ha] at e
      simp only at e
      split at e
      · simp only [Out.ok.injEq] at e; subst e; exact app
      · simp at e
    | some a =>
      rw [ha] at e
      obtain ⟨o, ho, e⟩ := Out.bind_eq_ok.mp e
      cases o with
      | some rs1 =>
        simp only [Out.ok.injEq] at e; subst e
        exact addToExisting_io hc h ho
      | none =>
        simp only at e
        split at e
        · simp only [Out.ok.injEq] at e; subst e; exact app
        · simp at e
  · simp only [Out.ok.injEq] at e; subst e; exact h

theorem mapCmds_rn (hd : ρ.Distinct) (cs : List Cmd) : ∀ (rs : List Resource), (∀ r ∈ rs, IoOnly r) →
    mapCmds (cs.map (rnCmd ρ)) (rs.map (rnRes ρ)) = Out.onOk (List.map (rnRes ρ)) (mapCmds cs rs) := by
  induction cs with
  | nil => intro rs _; rfl
  | cons c cs ih =>
    intro rs h
    simp only [List.map_cons, mapCmds]
    rw [addCmd_rn hd c rs h]
    cases e : addCmd c rs with
    | ok rs1 =>
      simp only [Out.onOk_ok, Out.ok_bind]
      exact ih rs1 (addCmd_io h e)
    | _ => rfl

theorem mapCmds_io (cs : List Cmd) : ∀ {rs rs' : List Resource}, (∀ r ∈ rs, IoOnly r) → mapCmds cs rs = .ok rs' → ∀ r ∈ rs', IoOnly r := by
  induction cs with
  | nil => intro rs rs' h e; simp only [mapCmds, Out.ok.injEq] at e; subst e; exact h
  | cons c cs ih =>
    intro rs rs' h e
    unfold mapCmds at e
    obtain ⟨rs1, e1, e⟩ := Out.bind_eq_ok.mp e
    exact ih (addCmd_io h e1) e

theorem openAll_rn {o o' : CStr → Bool} (ho : ∀ a, o' (ρ.iface a) = o a) (rs : List Resource) (h : ∀ r ∈ rs, IoOnly r) :
    openAll o' (rs.map (rnRes ρ)) = Out.onOk (fun p => (p.1.map ρ.event, p.2)) (openAll o rs) := by
  induction rs with
  | nil => rfl
  | cons r rs ih =>
    simp only [List.map_cons, openAll]
    rw [resArg0_rn (h r (by simp)), Out.bind_onOk, Out.onOk_bind]
    congr 1
    funext a
    rw [ho]
    split
    · rw [ih (fun x hx => h x (by simp [hx])), Out.bind_onOk, Out.onOk_bind]
      rfl
    · rfl

theorem cmdMatches_rn (b : Buf) (c : Cmd) : cmdMatches b (rnCmd ρ c) = cmdMatches b c := rfl

theorem rn_done (c : Cmd) : rnCmd ρ { c with done := true } = { rnCmd ρ c with done := true } := rfl

theorem matchCmds_rn (b : Buf) (cs : List Cmd) :
    matchCmds b (cs.map (rnCmd ρ)) = Out.onOk (Option.map (fun p => (rnCmd ρ p.1, p.2.map (rnCmd ρ)))) (matchCmds b cs) := by
  induction cs with
  | nil => rfl
  | cons c cs ih =>
    simp only [List.map_cons, matchCmds]
    rw [cmdMatches_rn, Out.onOk_bind]
    congr 1
    funext x
    cases x with
    | true => rfl
    | false =>
      simp only [Bool.false_eq_true, ↓reduceIte]
      rw [ih, Out.bind_onOk, Out.onOk_bind]
      congr 1
      funext o
      cases o <;> rfl

theorem matchCmds_mem {b : Buf} {cs : List Cmd} : ∀ {c cs'}, matchCmds b cs = .ok (some (c, cs')) →
    c ∈ cs ∧ ∀ d ∈ cs', ∃ e ∈ cs, d.type = e.type := by
  induction cs with
  | nil => intro c cs' h; simp [matchCmds] at h
  | cons x cs ih =>
    intro c cs' h
    unfold matchCmds at h
    obtain ⟨m, _, h⟩ := Out.bind_eq_ok.mp h
    split at h
    · simp only [Out.ok.injEq, Option.some.injEq, Prod.mk.injEq] at h
      obtain ⟨rfl, rfl⟩ := h
      refine ⟨by simp, fun d hd => ?_⟩
      rcases List.mem_cons.mp hd with rfl | hd
      · exact ⟨x, by simp, rfl⟩
      · exact ⟨d, by simp [hd], rfl⟩
    · obtain ⟨o, ho, h⟩ := Out.bind_eq_ok.mp h
      cases o with
      | none => simp at h
      | some p =>
        obtain ⟨m', cs1⟩ := p
        simp only [Out.ok.injEq, Option.some.injEq, Prod.mk.injEq] at h
        obtain ⟨rfl, rfl⟩ := h
        obtain ⟨h1, h2⟩ := ih ho
        refine ⟨by simp [h1], fun d hd => ?_⟩
        rcases List.mem_cons.mp hd with rfl | hd
        · exact ⟨d, by simp, rfl⟩
        · obtain ⟨e, he, ht⟩ := h2 d hd
          exact ⟨e, by simp [he], ht⟩

theorem ioOnly_of {r : Resource} (h : IoOnly r) {cs : List Cmd} (hc : ∀ d ∈ cs, ∃ e ∈ r.cmds, d.type = e.type) (n : Nat) :
    IoOnly { cmds := cs, rxErrCnt := n } := by
  intro d hd
  obtain ⟨e, he, ht⟩ := hc d hd
  rw [ht]
  exact h e he

/-- Resource and events with the other names. -/
def rnStep (ρ : Names) (p : Resource × List Event) : Resource × List Event := (rnRes ρ p.1, p.2.map ρ.event)

theorem rxFrame_rn (cfg : Config) (r : Resource) (m : RxMsg) (h : IoOnly r) :
    rxFrame cfg (rnRes ρ r) m = Out.onOk (rnStep ρ) (rxFrame cfg r m) := by
  unfold rxFrame
  simp only
  split
  · rfl
  · rw [Out.onOk_bind]
    congr 1
    funext b
    have hc : (rnRes ρ r).cmds = r.cmds.map (rnCmd ρ) := rfl
    rw [hc, matchCmds_rn]
    cases e : matchCmds b r.cmds with
    | ok o =>
      simp only [Out.onOk_ok, Out.ok_bind]
      cases o with
      | none =>
        simp only [Option.map_none]
        rw [resArg0_rn h, Out.bind_onOk, Out.onOk_bind]
        rfl
      | some p =>
        obtain ⟨c, cs⟩ := p
        simp only [Option.map_some]
        rw [rnCmd_arg0 (h c (matchCmds_mem e).1)]
        cases c.arg0 <;> rfl
    | _ => rfl

theorem rxFrame_io {cfg : Config} {r : Resource} {m : RxMsg} (h : IoOnly r) {p} (e : rxFrame cfg r m = .ok p) : IoOnly p.1 := by
  unfold rxFrame at e
  simp only at e
  split at e
  · simp only [Out.ok.injEq] at e; subst e; exact h
  · obtain ⟨b, _, e⟩ := Out.bind_eq_ok.mp e
    obtain ⟨o, ho, e⟩ := Out.bind_eq_ok.mp e
    cases o with
    | none =>
      obtain ⟨a, _, e⟩ := Out.bind_eq_ok.mp e
      simp only [Out.ok.injEq] at e; subst e; exact h
    | some q =>
      obtain ⟨c, cs⟩ := q
      simp only at e
      cases ha : c.arg0 with
      | none => rw [ha] at e; simp at e
      | some a =>
        rw [ha] at e
        simp only [Out.ok.injEq] at e
        subst e
        exact ioOnly_of h (matchCmds_mem ho).2 _

theorem hasRx_rn (r : Resource) : hasRx (rnRes ρ r) = hasRx r := by
  unfold hasRx rnRes
  rw [List.any_map]
  rfl

theorem hasTx_rn (r : Resource) : hasTx (rnRes ρ r) = hasTx r := by
  unfold hasTx rnRes
  rw [List.any_map]
  rfl

theorem wantsIo_rn (rs : List Resource) : wantsIo (rs.map (rnRes ρ)) = wantsIo rs := by
  unfold wantsIo
  rw [List.any_map]
  congr 1
  funext r
  simp [hasRx_rn, hasTx_rn]

theorem rxResource_rn (cfg : Config) (s : Step) (i : Nat) (r : Resource) (h : IoOnly r) :
    rxResource cfg s i (rnRes ρ r) = Out.onOk (rnStep ρ) (rxResource cfg s i r) := by
  unfold rxResource
  rw [hasRx_rn]
  split
  · split
    · rfl
    · exact rxFrame_rn cfg r _ h
  · rfl

theorem rxResource_io {cfg : Config} {s : Step} {i : Nat} {r : Resource} (h : IoOnly r) {p} (e : rxResource cfg s i r = .ok p) : IoOnly p.1 := by
  unfold rxResource at e
  split at e
  · split at e
    · simp only [Out.ok.injEq] at e; subst e; exact h
    · exact rxFrame_io h e
  · simp only [Out.ok.injEq] at e; subst e; exact h

def rnAll (ρ : Names) (p : List Resource × List Event) : List Resource × List Event := (p.1.map (rnRes ρ), p.2.map ρ.event)

theorem rxAll_rn (cfg : Config) (s : Step) (rs : List Resource) : ∀ (i : Nat), (∀ r ∈ rs, IoOnly r) →
    rxAll cfg s i (rs.map (rnRes ρ)) = Out.onOk (rnAll ρ) (rxAll cfg s i rs) := by
  induction rs with
  | nil => intro i _; rfl
  | cons r rs ih =>
    intro i h
    simp only [List.map_cons, rxAll]
    rw [rxResource_rn cfg s i r (h r (by simp)), Out.bind_onOk, Out.onOk_bind]
    congr 1
    funext p
    rw [ih (i + 1) (fun x hx => h x (by simp [hx])), Out.bind_onOk, Out.onOk_bind]
    congr 1
    funext q
    simp [rnAll, rnStep]

theorem rxAll_io {cfg : Config} {s : Step} {rs : List Resource} : ∀ {i : Nat}, (∀ r ∈ rs, IoOnly r) → ∀ {p},
    rxAll cfg s i rs = .ok p → ∀ r ∈ p.1, IoOnly r := by
  induction rs with
  | nil => intro i h p e; simp only [rxAll, Out.ok.injEq] at e; subst e; simp
  | cons r rs ih =>
    intro i h p e
    unfold rxAll at e
    obtain ⟨q, hq, e⟩ := Out.bind_eq_ok.mp e
    obtain ⟨t, ht, e⟩ := Out.bind_eq_ok.mp e
    simp only [Out.ok.injEq] at e
    subst e
    intro x hx
    rcases List.mem_cons.mp hx with rfl | hx
    · exact rxResource_io (h r (by simp)) hq
    · exact ih (fun y hy => h y (by simp [hy])) ht x hx

theorem txOne_rn (c : Cmd) (b : Buf) (a : CStr) (res : Int) :
    txOne (rnCmd ρ c) b (ρ.iface a) res = (rnCmd ρ (txOne c b a res).1, (txOne c b a res).2.1.map ρ.event, (txOne c b a res).2.2) := by
  have e : (rnCmd ρ c).rep = c.rep := rfl
  unfold txOne
  by_cases h : res = (b.length : Int) ∧ u32Sub c.rep 1 = 0
  · simp only [e, if_pos h]; rfl
  · simp only [e, if_neg h]; rfl

def rnTx (ρ : Names) (p : List Cmd × List Event × Bool) : List Cmd × List Event × Bool :=
  (p.1.map (rnCmd ρ), p.2.1.map ρ.event, p.2.2)

theorem txFirst_rn (res : Int) (cs : List Cmd) (h : ∀ c ∈ cs, c.type = .rx ∨ c.type = .tx) :
    txFirst res (cs.map (rnCmd ρ)) = Out.onOk (Option.map (rnTx ρ)) (txFirst res cs) := by
  induction cs with
  | nil => rfl
  | cons c cs ih =>
    simp only [List.map_cons, txFirst]
    have ht : (rnCmd ρ c).type = c.type := rfl
    have hdn : (rnCmd ρ c).done = c.done := rfl
    have hb : (rnCmd ρ c).buf = c.buf := rfl
    rw [ht, hdn, hb, rnCmd_arg0 (h c (by simp))]
    split
    · cases c.buf with
      | none => rfl
      | some b =>
        cases c.arg0 with
        | none => rfl
        | some a =>
          simp only [Option.map_some, txOne_rn]
          rfl
    · rw [ih (fun x hx => h x (by simp [hx])), Out.bind_onOk, Out.onOk_bind]
      congr 1
      funext o
      cases o <;> rfl

theorem txOne_type (c : Cmd) (b : Buf) (a : CStr) (res : Int) : (txOne c b a res).1.type = c.type := by
  unfold txOne
  by_cases h : res = (b.length : Int) ∧ u32Sub c.rep 1 = 0
  · simp only [if_pos h]
  · simp only [if_neg h]

theorem txFirst_types {res : Int} {cs : List Cmd} : ∀ {p}, txFirst res cs = .ok (some p) → ∀ d ∈ p.1, ∃ e ∈ cs, d.type = e.type := by
  induction cs with
  | nil => intro p h; simp [txFirst] at h
  | cons c cs ih =>
    intro p h
    unfold txFirst at h
    split at h
    · split at h
      · simp only [Out.ok.injEq, Option.some.injEq] at h
        subst h
        intro d hd
        rcases List.mem_cons.mp hd with rfl | hd
        · exact ⟨c, by simp, txOne_type _ _ _ _⟩
        · exact ⟨d, by simp [hd], rfl⟩
      · simp at h
    · obtain ⟨o, ho, h⟩ := Out.bind_eq_ok.mp h
      cases o with
      | none => simp at h
      | some q =>
        simp only [Out.ok.injEq, Option.some.injEq] at h
        subst h
        intro d hd
        rcases List.mem_cons.mp hd with rfl | hd
        · exact ⟨d, by simp, rfl⟩
        · obtain ⟨e, he, ht⟩ := ih ho d hd
          exact ⟨e, by simp [he], ht⟩

def rnRound (ρ : Names) (p : List Resource × Nat × List Event × Bool) : List Resource × Nat × List Event × Bool :=
  (p.1.map (rnRes ρ), p.2.1, p.2.2.1.map ρ.event, p.2.2.2)

theorem txRound_rn (w : Nat → Bool) (send : Nat → Int) (rs : List Resource) : ∀ (i k : Nat), (∀ r ∈ rs, IoOnly r) →
    txRound w send i k (rs.map (rnRes ρ)) = Out.onOk (rnRound ρ) (txRound w send i k rs) := by
  induction rs with
  | nil => intro i k _; rfl
  | cons r rs ih =>
    intro i k h
    have ih' := fun k => ih (i + 1) k (fun x hx => h x (by simp [hx]))
    simp only [List.map_cons, txRound]
    split
    · rw [show (rnRes ρ r).cmds = r.cmds.map (rnCmd ρ) from rfl, txFirst_rn _ _ (h r (by simp)), Out.bind_onOk, Out.onOk_bind]
      congr 1
      funext o
      cases o with
      | none =>
        simp only [Option.map_none]
        rw [ih', Out.bind_onOk, Out.onOk_bind]
        rfl
      | some p =>
        simp only [Option.map_some, rnTx]
        rw [ih', Out.bind_onOk, Out.onOk_bind]
        congr 1
        funext q
        simp [rnRound, rnRes]
    · rw [ih', Out.bind_onOk, Out.onOk_bind]
      rfl

theorem txRound_io {w : Nat → Bool} {send : Nat → Int} {rs : List Resource} : ∀ {i k : Nat}, (∀ r ∈ rs, IoOnly r) → ∀ {p},
    txRound w send i k rs = .ok p → ∀ r ∈ p.1, IoOnly r := by
  induction rs with
  | nil => intro i k h p e; simp only [txRound, Out.ok.injEq] at e; subst e; simp
  | cons r rs ih =>
    intro i k h p e
    unfold txRound at e
    have hr := h r (by simp)
    have hrs : ∀ x ∈ rs, IoOnly x := fun x hx => h x (by simp [hx])
    split at e
    · obtain ⟨o, ho, e⟩ := Out.bind_eq_ok.mp e
      cases o with
      | none =>
        obtain ⟨q, hq, e⟩ := Out.bind_eq_ok.mp e
        simp only [Out.ok.injEq] at e
        subst e
        intro x hx
        rcases List.mem_cons.mp hx with rfl | hx
        · exact hr
        · exact ih hrs hq x hx
      | some t =>
        obtain ⟨q, hq, e⟩ := Out.bind_eq_ok.mp e
        simp only [Out.ok.injEq] at e
        subst e
        intro x hx
        rcases List.mem_cons.mp hx with rfl | hx
        · exact ioOnly_of hr (txFirst_types ho) _
        · exact ih hrs hq x hx
    · obtain ⟨q, hq, e⟩ := Out.bind_eq_ok.mp e
      simp only [Out.ok.injEq] at e
      subst e
      intro x hx
      rcases List.mem_cons.mp hx with rfl | hx
      · exact hr
      · exact ih hrs hq x hx

def rnLoop {α : Type} (ρ : Names) (p : α × List Resource × List Event) : α × List Resource × List Event :=
  (p.1, p.2.1.map (rnRes ρ), p.2.2.map ρ.event)

theorem txLoop_rn (w : Nat → Bool) (send : Nat → Int) (fuel : Nat) : ∀ (k : Nat) (rs : List Resource), (∀ r ∈ rs, IoOnly r) →
    txLoop w send fuel k (rs.map (rnRes ρ)) = Out.onOk (rnLoop ρ) (txLoop w send fuel k rs) := by
  induction fuel with
  | zero => intro k rs _; rfl
  | succ fuel ih =>
    intro k rs h
    simp only [txLoop]
    rw [txRound_rn w send rs 0 k h]
    cases e : txRound w send 0 k rs with
    | ok p =>
      simp only [Out.onOk_ok, Out.ok_bind, rnRound]
      split
      · rw [ih _ _ (txRound_io h e), Out.bind_onOk, Out.onOk_bind]
        congr 1
        funext q
        simp [rnLoop]
      · rfl
    | _ => rfl

theorem txLoop_io {w : Nat → Bool} {send : Nat → Int} {fuel : Nat} : ∀ {k : Nat} {rs : List Resource}, (∀ r ∈ rs, IoOnly r) → ∀ {p},
    txLoop w send fuel k rs = .ok p → ∀ r ∈ p.2.1, IoOnly r := by
  induction fuel with
  | zero => intro k rs h p e; simp only [txLoop, Out.ok.injEq] at e; subst e; exact h
  | succ fuel ih =>
    intro k rs h p e
    unfold txLoop at e
    obtain ⟨⟨rs1, k1, es1, m⟩, hq, e⟩ := Out.bind_eq_ok.mp e
    simp only at e
    split at e
    · obtain ⟨t, ht, e⟩ := Out.bind_eq_ok.mp e
      simp only [Out.ok.injEq] at e
      subst e
      have := ih (txRound_io h hq) ht
      exact this
    · simp only [Out.ok.injEq] at e
      subst e
      exact txRound_io h hq

theorem writeSet_rn (s : Step) (rs : List Resource) : writeSet s (rs.map (rnRes ρ)) = writeSet s rs := by
  funext i
  unfold writeSet
  rw [List.getElem?_map]
  cases rs[i]? with
  | none => rfl
  | some r => simp [hasTx_rn]

theorem process_rn (cfg : Config) (fuel : Nat) (s : Step) (rs : List Resource) (h : ∀ r ∈ rs, IoOnly r) :
    process cfg fuel s (rs.map (rnRes ρ)) = Out.onOk (rnLoop ρ) (process cfg fuel s rs) := by
  unfold process
  simp only
  rw [writeSet_rn, rxAll_rn cfg s rs 0 h]
  cases e : rxAll cfg s 0 rs with
  | ok p =>
    simp only [Out.onOk_ok, Out.ok_bind, rnAll]
    rw [txLoop_rn _ _ _ _ _ (rxAll_io h e), Out.bind_onOk, Out.onOk_bind]
    congr 1
    funext q
    simp [rnLoop]
  | _ => rfl

theorem process_io {cfg : Config} {fuel : Nat} {s : Step} {rs : List Resource} (h : ∀ r ∈ rs, IoOnly r) {p}
    (e : process cfg fuel s rs = .ok p) : ∀ r ∈ p.2.1, IoOnly r := by
  unfold process at e
  obtain ⟨q, hq, e⟩ := Out.bind_eq_ok.mp e
  obtain ⟨t, ht, e⟩ := Out.bind_eq_ok.mp e
  simp only [Out.ok.injEq] at e
  subst e
  have := txLoop_io (rxAll_io h hq) ht
  exact this

theorem mainLoop_rn (cfg : Config) (fuel : Nat) (tend : TimeVal) (hist : List Step) : ∀ (left : TimeVal) (rs : List Resource),
    (∀ r ∈ rs, IoOnly r) →
    mainLoop cfg fuel tend hist left (rs.map (rnRes ρ)) = Out.onOk (rnLoop ρ) (mainLoop cfg fuel tend hist left rs) := by
  induction hist with
  | nil =>
    intro left rs h
    unfold mainLoop
    rw [wantsIo_rn]
    split <;> rfl
  | cons s hist ih =>
    intro left rs h
    unfold mainLoop
    rw [wantsIo_rn]
    split
    · rfl
    · simp only
      split
      · rfl
      · split
        · rfl
        · rw [process_rn cfg fuel s rs h]
          cases e : process cfg fuel s rs with
          | ok p =>
            simp only [Out.onOk_ok, Out.ok_bind, rnLoop]
            split
            · rw [ih _ _ (process_io h e), Out.bind_onOk, Out.onOk_bind]
              congr 1
              funext q
              simp [rnLoop, Names.event]
            · rfl
          | _ => rfl

theorem mainLoop_io {cfg : Config} {fuel : Nat} {tend : TimeVal} {hist : List Step} : ∀ {left : TimeVal} {rs : List Resource},
    (∀ r ∈ rs, IoOnly r) → ∀ {p}, mainLoop cfg fuel tend hist left rs = .ok p → ∀ r ∈ p.2.1, IoOnly r := by
  induction hist with
  | nil =>
    intro left rs h p e
    unfold mainLoop at e
    split at e <;> (simp only [Out.ok.injEq] at e; subst e; exact h)
  | cons s hist ih =>
    intro left rs h p e
    unfold mainLoop at e
    split at e
    · simp only [Out.ok.injEq] at e; subst e; exact h
    · simp only at e
      split at e
      · simp only [Out.ok.injEq] at e; subst e; exact h
      · split at e
        · simp only [Out.ok.injEq] at e; subst e; exact h
        · obtain ⟨q, hq, e⟩ := Out.bind_eq_ok.mp e
          split at e
          · obtain ⟨t, ht, e⟩ := Out.bind_eq_ok.mp e
            simp only [Out.ok.injEq] at e
            subst e
            have := ih (process_io h hq) ht
            exact this
          · simp only [Out.ok.injEq] at e
            subst e
            exact process_io h hq

theorem missing_rn (r : Resource) : missing (rnRes ρ r) = (missing r).map (rnCmd ρ) := by
  unfold missing rnRes
  rw [List.filter_map]
  rfl

theorem checkResults_rn (rs : List Resource) (h : ∀ r ∈ rs, IoOnly r) :
    checkResults (rs.map (rnRes ρ)) = ((checkResults rs).1, (checkResults rs).2.map ρ.event) := by
  induction rs with
  | nil => rfl
  | cons r rs ih =>
    have hr := h r (by simp)
    simp only [List.map_cons, checkResults]
    rw [ih (fun x hx => h x (by simp [hx])), missing_rn]
    have hn : ∀ c ∈ missing r, noRxEvent (rnCmd ρ c) = (noRxEvent c).map ρ.event := by
      intro c hc
      unfold noRxEvent
      rw [rnCmd_arg0 (hr c (List.mem_filter.mp hc).1), show (rnCmd ρ c).buf = c.buf from rfl]
      cases c.arg0 <;> cases c.buf <;> rfl
    simp only [List.length_map, List.map_append, Prod.mk.injEq]
    refine ⟨rfl, ?_⟩
    congr 1
    rw [List.flatMap_map, List.map_flatMap]
    generalize missing r = l at hn
    induction l with
    | nil => rfl
    | cons c cs ihc =>
      simp only [List.flatMap_cons]
      rw [hn c (by simp), ihc (fun x hx => hn x (by simp [hx]))]

theorem pcapEvents_rn (cs : List Cmd) : pcapEvents (cs.map (rnCmd ρ)) = Out.onOk (List.map ρ.event) (pcapEvents cs) := by
  induction cs with
  | nil => rfl
  | cons c cs ih =>
    simp only [List.map_cons, pcapEvents]
    rw [show (rnCmd ρ c).type = c.type from rfl]
    split
    · rename_i ht
      rw [show (rnCmd ρ c).buf = c.buf from rfl, show (rnCmd ρ c).arg0 = c.arg0.map ρ.file from by simp [rnCmd, ht]]
      cases c.arg0 with
      | none => rfl
      | some a =>
        cases c.buf with
        | none => rfl
        | some b =>
          simp only [Option.map_some]
          rw [ih, Out.bind_onOk, Out.onOk_bind]
          rfl
    · exact ih

theorem hexEvents_rn (cs : List Cmd) : hexEvents (cs.map (rnCmd ρ)) = Out.onOk (List.map ρ.event) (hexEvents cs) := by
  induction cs with
  | nil => rfl
  | cons c cs ih =>
    simp only [List.map_cons, hexEvents]
    rw [show (rnCmd ρ c).type = c.type from rfl]
    split
    · rw [show (rnCmd ρ c).buf = c.buf from rfl, show (rnCmd ρ c).mask = c.mask from rfl]
      cases c.buf with
      | none => exact ih
      | some b =>
        simp only
        cases c.mask with
        | none => simp only; rw [ih, Out.bind_onOk, Out.onOk_bind]; rfl
        | some m =>
          simp only
          split
          · rw [ih, Out.bind_onOk, Out.onOk_bind]; rfl
          · rfl
    · exact ih

/-- Results of the execution with the other names. -/
def rnExec (ρ : Names) (r : ExecRes) : ExecRes :=
  { r with resources := r.resources.map (rnRes ρ), events := r.events.map ρ.event }

theorem execResolved_rn (hd : ρ.Distinct) {env : Env} {o : CStr → Bool} (ho : ∀ a, o (ρ.iface a) = env.canOpen a) (cs : List Cmd) :
    execResolved { env with canOpen := o } (cs.map (rnCmd ρ)) = Out.onOk (rnExec ρ) (execResolved env cs) := by
  unfold execResolved
  have hp : pcapAll env.cfg (cs.map (rnCmd ρ)) = Out.onOk (List.map ρ.event) (pcapAll env.cfg cs) := by
    unfold pcapAll
    split
    · exact pcapEvents_rn cs
    · rfl
  simp only
  rw [hp, Out.bind_onOk, Out.onOk_bind]
  congr 1
  funext ep
  rw [hexEvents_rn, Out.bind_onOk, Out.onOk_bind]
  congr 1
  funext eh
  rw [show ([] : List Resource) = ([] : List Resource).map (rnRes ρ) from rfl, mapCmds_rn hd cs [] (by simp)]
  simp only [List.map_nil]
  cases e : mapCmds cs [] with
  | ok rs =>
    have hio := mapCmds_io cs (by simp) e
    simp only [Out.onOk_ok, Out.ok_bind]
    rw [openAll_rn ho rs hio, Out.bind_onOk, Out.onOk_bind]
    congr 1
    funext p
    obtain ⟨eo, ok⟩ := p
    cases ok with
    | false => simp [rnExec]
    | true =>
      simp only [not_true_eq_false, ↓reduceIte]
      rw [mainLoop_rn _ _ _ _ _ _ hio]
      cases e2 : mainLoop env.cfg env.fuel (timerAdd env.begin (timeoutVal env.timeoutMs)) env.hist (timeoutVal env.timeoutMs) rs with
      | ok q =>
        obtain ⟨st, rs', el⟩ := q
        simp only [Out.onOk_ok, Out.ok_bind, rnLoop]
        cases st with
        | finished =>
          simp only
          rw [checkResults_rn rs' (mainLoop_io hio e2)]
          simp [rnExec]
        | waiting => simp [rnExec]
        | sending => simp [rnExec]
      | _ => rfl
  | _ => rfl

theorem inventory_rn (cs : List Cmd) : inventory (cs.map (rnCmd ρ)) = (inventory cs).map ρ.event := by
  induction cs with
  | nil => rfl
  | cons c cs ih =>
    simp only [List.map_cons, inventory]
    rw [show (rnCmd ρ c).type = c.type from rfl, show (rnCmd ρ c).buf = c.buf from rfl,
      show (rnCmd ρ c).name = c.name.map ρ.frame from rfl, show (rnCmd ρ c).mask = c.mask from rfl, ih]
    split
    · cases c.buf <;> cases c.name <;> rfl
    · rfl

theorem lookupName_rn (hd : ρ.Distinct) (n : CStr) (cs : List Cmd) :
    lookupName (ρ.frame n) (cs.map (rnCmd ρ)) = (lookupName n cs).map (rnCmd ρ) := by
  induction cs with
  | nil => rfl
  | cons c cs ih =>
    simp only [List.map_cons, lookupName]
    rw [show (rnCmd ρ c).type = c.type from rfl, show (rnCmd ρ c).buf = c.buf from rfl,
      show (rnCmd ρ c).name = c.name.map ρ.frame from rfl, ih]
    have : (c.name.map ρ.frame = some (ρ.frame n)) ↔ c.name = some n := by
      cases c.name with
      | none => simp
      | some m =>
        simp only [Option.map_some, Option.some.injEq]
        exact ⟨hd.frame _ _, fun e => by rw [e]⟩
    simp only [this]
    split <;> rfl

theorem pairNames_rn (hd : ρ.Distinct) (all cs : List Cmd) :
    pairNames (all.map (rnCmd ρ)) (cs.map (rnCmd ρ)) =
      ((pairNames all cs).1.map (rnCmd ρ), (pairNames all cs).2.map ρ.event) := by
  induction cs with
  | nil => rfl
  | cons c cs ih =>
    simp only [List.map_cons, pairNames]
    rw [ih]
    have hn : needsName (rnCmd ρ c) = (needsName c).map ρ.frame := by
      unfold needsName
      rw [show (rnCmd ρ c).type = c.type from rfl, show (rnCmd ρ c).buf = c.buf from rfl, show (rnCmd ρ c).name = c.name.map ρ.frame from rfl]
      split
      · rfl
      · split <;> rfl
    rw [hn]
    cases needsName c with
    | none => rfl
    | some n =>
      simp only [Option.map_some]
      rw [lookupName_rn hd]
      cases lookupName n all with
      | none => rfl
      | some d => rfl

theorem execCmds_rn (hd : ρ.Distinct) {env : Env} {o : CStr → Bool} (ho : ∀ a, o (ρ.iface a) = env.canOpen a) (cs : List Cmd) :
    execCmds { env with canOpen := o } (cs.map (rnCmd ρ)) = Out.onOk (rnExec ρ) (execCmds env cs) := by
  unfold execCmds
  rw [pairNames_rn hd]
  simp only [ne_eq, List.map_eq_nil_iff]
  split
  · simp [rnExec, inventory_rn]
  · rw [execResolved_rn hd ho, Out.bind_onOk, Out.onOk_bind]
    congr 1
    funext r
    simp [rnExec, inventory_rn]

end Ef
