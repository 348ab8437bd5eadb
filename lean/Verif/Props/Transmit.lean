import Verif.Lemmas.Deaf
import Verif.Props.Run

/-!
# Properties of a run: transmission and time (C60–C64)
-/

namespace Ef.Props

open Spec

theorem sent_onIface (a : CStr) (es : List Event) :
    es.filterMap (sentOn a) = (onIface a es).filterMap (sentOn a) := by
  unfold onIface
  induction es with
  | nil => rfl
  | cons e es ih =>
    rw [List.filterMap_cons, List.filter_cons]
    by_cases he : ifaceOf e = some a
    · simp only [he, beq_self_eq_true, ↓reduceIte]
      rw [List.filterMap_cons, ih]
    · have h1 : sentOn a e = none := by
        cases e <;> simp_all [sentOn, ifaceOf]
      have h2 : (ifaceOf e == some a) = false := by simpa using he
      rw [h1, h2, ih]
      rfl

theorem sent_eq {env : Env} {cs : List Cmd} {i : Nat} {a : CStr} {r : ExecRes} {n : Nat} {ops : List Op}
    {r' : Resource} (h : SocketRun env cs i a r n ops r') :
    r.events.filterMap (sentOn a) = transmissions cs (fun j => (txIdx ops).count j) := by
  rw [sent_onIface, h.events, List.filterMap_append, h.run.transmissions]
  have : ∀ l : List Cmd, (l.map (noRxReport a)).filterMap (sentOn a) = [] := by
    intro l
    rw [List.filterMap_eq_nil_iff]
    intro e he
    obtain ⟨c, _, rfl⟩ := List.mem_map.mp he
    rfl
  split
  · rw [this, List.append_nil]
  · simp

/-- If the main loop does the same in another environment, so does the whole run. -/
theorem exec_more {env env2 : Env} {cmds : List Cmd} {r0 : ExecRes} (hu : ∀ c ∈ cmds, unresolved cmds c = false)
    (h : execResolved env (cmds.map (resolve cmds)) = .ok r0) (hcfg : env2.cfg = env.cfg)
    (hop : env2.canOpen = env.canOpen)
    (hml : ∀ rs, mapCmds (cmds.map (resolve cmds)) [] = .ok rs → ∀ x,
      mainLoop env.cfg env.fuel (deadline env) env.hist (timeoutVal env.timeoutMs) rs = .ok x →
      mainLoop env2.cfg env2.fuel (deadline env2) env2.hist (timeoutVal env2.timeoutMs) rs = .ok x) :
    execCmds env2 cmds = .ok { r0 with events := inventory cmds ++ r0.events } := by
  have hpn : pairNames cmds cmds = (cmds.map (resolve cmds), []) := by
    rw [pairNames_eq]
    have : cmds.filter (unresolved cmds) = [] := by
      rw [List.filter_eq_nil_iff]; intro c hc; simp [hu c hc]
    rw [this]; rfl
  unfold execResolved at h
  simp only [Out.bind_eq_ok] at h
  obtain ⟨ep, hp, eh, hh, rs, hm, ⟨eo, ok⟩, ho, h⟩ := h
  have : execResolved env2 (cmds.map (resolve cmds)) = .ok r0 := by
    unfold execResolved
    simp only [Out.bind_eq_ok]
    refine ⟨ep, by rw [hcfg]; exact hp, eh, hh, rs, hm, (eo, ok), by rw [hop]; exact ho, ?_⟩
    simp only at h ⊢
    split at h
    · rename_i hk
      rw [if_pos hk]
      exact h
    · rename_i hk
      rw [if_neg hk]
      simp only [Out.bind_eq_ok] at h ⊢
      obtain ⟨x, hx, h⟩ := h
      exact ⟨x, hml rs hm x hx, h⟩
  unfold execCmds
  rw [hpn]
  simp only [ne_eq, not_true_eq_false, ↓reduceIte, this]
  rfl

/-! ## C61: transmission order -/

/-- C61: on each interface, the frames handed to `send` are: the frame of the first tx command some number of
times, then that of the second tx command, and so on in command line order — whatever is received, whichever
sockets are ready and whether or not the transmissions succeed. A command is transmitted only after all earlier tx
commands of the interface are done. -/
theorem C61_order (env : Env) (cmds : List Cmd) (r : ExecRes) (hr : Ready cmds)
    (hu : ∀ c ∈ cmds, unresolved cmds c = false) (hopen : ∀ a ∈ ifaces cmds, env.canOpen a = true)
    (h : execCmds env cmds = .ok r) (i : Nat) (a : CStr) (hi : (ifaces cmds)[i]? = some a) :
    ∃ ks : Nat → Nat, r.events.filterMap (sentOn a) = transmissions (onSocket a cmds) ks ∧
      ∃ q, r.resources[i]? = some q ∧ ∀ (j j' : Nat) c, j < j' → 0 < ks j' → q.cmds[j]? = some c → c.type = .tx →
        c.done = true := by
  obtain ⟨⟨n, hn, hfull, hs⟩, _⟩ := exec_report hr hu hopen h
  obtain ⟨ops, r', hS⟩ := hs i a hi
  refine ⟨fun j => (txIdx ops).count j, ?_, r', hS.state, ?_⟩
  · exact sent_eq hS
  · intro j j' c hjj hpos hc ht
    have hm : j' ∈ txIdx ops := List.count_pos_iff.mp hpos
    have := hS.run.order.2 j' hm j c hjj hc
    cases hd : c.done with
    | true => rfl
    | false => exact absurd ⟨ht, hd⟩ this

/-! ## C60: number of transmissions -/

/-- **C60, full statement.** -/
def C60_statement : Prop :=
  ∀ (env : Env) (cmds : List Cmd) (r : ExecRes) (i : Nat) (a : CStr), Ready cmds → (∀ c ∈ cmds, c.rep < 2 ^ 32) →
    (∀ c ∈ cmds, unresolved cmds c = false) → (∀ a ∈ ifaces cmds, env.canOpen a = true) →
    execCmds env cmds = .ok r → (ifaces cmds)[i]? = some a →
    ∃ ks : Nat → Nat, r.events.filterMap (sentOn a) = transmissions (onSocket a cmds) ks ∧
      ∀ (j : Nat) c, (onSocket a cmds)[j]? = some c → c.type = .tx →
        ks j ≤ c.rep ∧
        (r.status = .finished → (∀ s ∈ env.hist, ¬ timerGt s.now (deadline env) ∧ 0 < s.res) →
          (∀ e ∈ r.events, sendOk e = true) → ks j = c.rep)

/-- **C60, the part that holds**: if every send succeeds, a tx command with repeat count `n ≥ 1` is transmitted at
most `n` times, and exactly `n` times if the run ends and is not cut short, unless a received frame was credited to
the tx command (`some j ∈ out`, see C62). Missing: when a send fails or with `rep 0`, the count may be exceeded
(false, see `C60_false` and `C60_rep_zero`). -/
theorem C60_count_partial (env : Env) (cmds : List Cmd) (r : ExecRes) (i : Nat) (a : CStr) (hr : Ready cmds)
    (hrep : ∀ c ∈ cmds, c.rep < 2 ^ 32) (hu : ∀ c ∈ cmds, unresolved cmds c = false)
    (hopen : ∀ a ∈ ifaces cmds, env.canOpen a = true) (h : execCmds env cmds = .ok r)
    (hi : (ifaces cmds)[i]? = some a) (hsend : ∀ e ∈ r.events, ifaceOf e = some a → sendOk e = true) :
    ∃ (n : Nat) (out : List (Option Nat)) (ks : Nat → Nat),
      Credited (onSocket a cmds) (heard env (onSocket a cmds) i n) out ∧
      r.events.filterMap (sentOn a) = transmissions (onSocket a cmds) ks ∧
      ∀ (j : Nat) c, (onSocket a cmds)[j]? = some c → c.type = .tx → 1 ≤ c.rep →
        ks j ≤ c.rep ∧
        (r.status = .finished → (∀ s ∈ env.hist, ¬ timerGt s.now (deadline env) ∧ 0 < s.res) → some j ∉ out →
          ks j = c.rep) := by
  obtain ⟨⟨n, hn, hfull, hs⟩, _⟩ := exec_report hr hu hopen h
  obtain ⟨ops, r', hS⟩ := hs i a hi
  have hf : Fresh (onSocket a cmds) := cmdsOn_fresh (hr.resolve cmds).fresh a
  have hc := hS.run.credited hf
  rw [hS.frames] at hc
  refine ⟨n, rxOuts ops, fun j => (txIdx ops).count j, hc, sent_eq hS, ?_⟩
  -- every transmission succeeded
  have hall : AllSent (onSocket a cmds) ops := by
    intro j res fin c b hop hcj hb
    have hev : Event.send a b res ∈ onIface a r.events := by
      rw [hS.events]
      apply List.mem_append_left
      refine List.mem_flatMap.mpr ⟨_, hop, ?_⟩
      have hcj' : (cmdsOn a (cmds.map (resolve cmds)))[j]? = some c := hcj
      simp only [opEvents, hcj', hb, Option.getD_some]
      exact List.mem_cons_self
    have := hsend _ (List.mem_filter.mp hev).1 rfl
    simpa [sendOk] using this
  intro j c hcj ht h1
  have hlt : c.rep < 2 ^ 32 := by
    have hm := (List.mem_filter.mp (List.mem_of_getElem? hcj)).1
    obtain ⟨c0, hc0, rfl⟩ := List.mem_map.mp hm
    rw [resolve_rep]
    exact hrep c0 hc0
  have hjl : j < r'.cmds.length := by
    rw [hS.run.same.1]; exact (List.getElem?_eq_some_iff.mp hcj).1
  have hcount := hS.run.count hf hall j c _ hcj (List.getElem?_eq_getElem hjl) h1 hlt
  refine ⟨hcount.1, fun hst hnc hno => ?_⟩
  rw [← hcount.2.1]
  -- nothing is pending at the end
  obtain ⟨pre, hpre, hcase⟩ := execCmds_parts hr hu h
  rcases hcase with ⟨hopf, _⟩ | ⟨_, el, hml, _⟩
  · exfalso
    rw [List.all_eq_false] at hopf
    obtain ⟨x, hx, hf⟩ := hopf
    exact hf (hopen x hx)
  · rcases (mainLoop_status hml).1 hst with hw | ⟨s, hs', hl⟩
    · have hnt : hasTx r' = false := by
        unfold wantsIo at hw
        rw [List.any_eq_false] at hw
        have := hw r' (List.mem_of_getElem? hS.state)
        cases hx : hasTx r' with
        | false => rfl
        | true => rw [hx] at this; simp at this
      unfold hasTx at hnt
      rw [List.any_eq_false] at hnt
      have hpend := hnt _ (List.mem_of_getElem? (List.getElem?_eq_getElem hjl))
      have hty : r'.cmds[j].type = .tx := by
        obtain ⟨c0, hc0, hst0⟩ := hS.run.same.back (List.getElem?_eq_getElem hjl)
        have hcj' : (cmdsOn a (cmds.map (resolve cmds)))[j]? = some c := hcj
        rw [hcj'] at hc0
        simp only [Option.some.injEq] at hc0
        rw [hst0.1, ← hc0]
        exact ht
      have hd : r'.cmds[j].done = true := by
        cases hx : r'.cmds[j].done with
        | true => rfl
        | false => rw [hty, hx] at hpend; simp at hpend
      rcases (hS.run.done_iff hf j _ (List.getElem?_eq_getElem hjl)).mp hd with h3 | h3
      · exact absurd h3 hno
      · exact h3
    · exfalso
      obtain ⟨h3, h4⟩ := hnc s hs'
      unfold lastStep at hl
      simp only [Bool.or_eq_true, decide_eq_true_eq] at hl
      rcases hl with hl | hl
      · exact h3 hl
      · omega

/-- A tx command. -/
def transmit (b : Buf) (n : Nat) : Cmd :=
  { type := .tx, arg0 := some c!"e", frame := some plainFrame, buf := some b, rep := n }

/-- `n` times a writable socket on which each `send` returns `res`. -/
def writable (n : Nat) (res : Int) : Env :=
  Env.mk ⟨true, true⟩ (fun _ => true) ⟨0, 0⟩ 100
    (List.replicate n (Step.mk 1 ⟨0, 0⟩ (fun _ => false) (fun _ => true) (fun _ => none) (fun _ => res))) 10

/-- **C60 does not hold**: if the only transmission fails, the counter wraps around and the frame is transmitted
again and again. -/
theorem C60_false : ¬ C60_statement := by
  intro hs
  obtain ⟨ks, hk, hle⟩ := hs (writable 2 (-1)) [transmit [1#8] 1] (result (writable 2 (-1)) [transmit [1#8] 1]) 0 c!"e"
    ⟨by unfold Fresh; decide +kernel, by unfold HasIface; decide +kernel, by decide +kernel⟩
    (by decide +kernel) (by decide +kernel) (fun _ _ => rfl) (result_ok (by decide +kernel)) (by decide +kernel)
  have h1 := (hle 0 (transmit [1#8] 1) (by decide +kernel) rfl).1
  have h2 : (result (writable 2 (-1)) [transmit [1#8] 1]).events.filterMap (sentOn c!"e") =
      List.replicate 11 [1#8] := by decide +kernel
  have h3 : onSocket c!"e" [transmit [1#8] 1] = [transmit [1#8] 1] := by decide +kernel
  rw [h2, h3] at hk
  have h4 := congrArg List.length hk
  simp [transmissions, transmit] at h4
  have h5 : ks 0 ≤ 1 := h1
  omega

/-- With `rep 0` the frame is transmitted although all transmissions succeed (up to 2³² times; here 10 rounds of
the transmit loop). -/
theorem C60_rep_zero : (result (writable 1 1) [transmit [1#8] 0]).events.filterMap (sentOn c!"e") =
    List.replicate 10 [1#8] := by decide +kernel

/-- Non-vacuity of `C60_count_partial`: three successful transmissions. -/
example : let r := result (writable 1 1) [transmit [1#8] 3]
    (execCmds (writable 1 1) [transmit [1#8] 3]).get?.isSome ∧ r.status = .finished ∧
    (∀ e ∈ r.events, ifaceOf e = some c!"e" → sendOk e = true) ∧
    (∀ s ∈ (writable 1 1).hist, ¬ timerGt s.now (deadline (writable 1 1)) ∧ 0 < s.res) ∧
    r.events.filterMap (sentOn c!"e") = List.replicate 3 [1#8] := by decide +kernel

/-! ## C62: received frames and transmissions -/

/-- **C62, full statement**: what is transmitted does not depend on what is received. -/
def C62_statement : Prop :=
  ∀ (env : Env) (cmds : List Cmd) (r r' : ExecRes), Ready cmds → (∀ c ∈ cmds, unresolved cmds c = false) →
    (∀ a ∈ ifaces cmds, env.canOpen a = true) → execCmds env cmds = .ok r → execCmds (deaf env) cmds = .ok r' →
    sends r.events = sends r'.events

/-- A frame arrives while the socket is not writable, then the socket is writable. -/
def arriveThenWritable (b : Buf) : Env :=
  Env.mk ⟨true, true⟩ (fun _ => true) ⟨0, 0⟩ 100
    [Step.mk 1 ⟨0, 0⟩ (fun _ => true) (fun _ => false) (fun _ => some ⟨b, none⟩) (fun _ => 0),
      Step.mk 1 ⟨0, 0⟩ (fun _ => false) (fun _ => true) (fun _ => none) (fun _ => 1),
      Step.mk 0 ⟨0, 0⟩ (fun _ => false) (fun _ => false) (fun _ => none) (fun _ => 0)] 10

/-- **C62 does not hold**: a received frame that equals the frame of a pending tx command marks this command as
done, and it is never transmitted. -/
theorem C62_false : ¬ C62_statement := by
  intro hs
  have h := hs (arriveThenWritable [1#8]) [expect [2#8] none, transmit [1#8] 1]
    (result (arriveThenWritable [1#8]) [expect [2#8] none, transmit [1#8] 1])
    (result (deaf (arriveThenWritable [1#8])) [expect [2#8] none, transmit [1#8] 1])
    ⟨by unfold Fresh; decide +kernel, by unfold HasIface; decide +kernel, by decide +kernel⟩
    (by decide +kernel) (fun _ _ => rfl) (result_ok (by decide +kernel)) (result_ok (by decide +kernel))
  revert h
  decide +kernel

/-- **C62, the part that holds**: if no received frame equals (under its mask) the frame of a tx command of the same
interface, then everything is transmitted exactly as if nothing was received at all, and the run ends in the same
way. Interfaces without rx command are never read, so nothing can happen there. Missing: frames that match a pending
tx command do cancel it (false, see `C62_false`). -/
theorem C62_independent_partial (env : Env) (cmds : List Cmd) (r : ExecRes) (hr : Ready cmds)
    (hu : ∀ c ∈ cmds, unresolved cmds c = false) (h : execCmds env cmds = .ok r)
    (hno : ∀ (i : Nat) a, (ifaces cmds)[i]? = some a → (∃ c ∈ onSocket a cmds, c.type = .rx) →
      ∀ s ∈ usable (deadline env) env.hist, ∀ b ∈ delivered env.cfg i s, ∀ c ∈ onSocket a cmds, c.type = .tx →
        ¬ Wants c b) :
    ∃ r', execCmds (deaf env) cmds = .ok r' ∧ sends r'.events = sends r.events ∧ r'.status = r.status := by
  obtain ⟨r0, h0, rfl⟩ := execCmds_ok hu h
  have hr' := hr.resolve cmds
  have hif := ifaces_resolve cmds cmds
  have hen : (pairNames cmds cmds).2 = [] := by
    rw [pairNames_eq]
    have : cmds.filter (unresolved cmds) = [] := by
      rw [List.filter_eq_nil_iff]; intro c hc; simp [hu c hc]
    rw [this]; rfl
  unfold execResolved at h0
  simp only [Out.bind_eq_ok] at h0
  obtain ⟨ep, hp, eh, hh, rs, hm, ⟨eo, ok⟩, ho, h0⟩ := h0
  have hm' := mapCmds_group [] (cmds.map (resolve cmds)) hr'.iface (by simpa using hr'.slots)
  rw [show group [] = [] from rfl, hm] at hm'
  simp only [List.nil_append, Out.ok.injEq] at hm'
  have hcmds : (pairNames cmds cmds).1 = cmds.map (resolve cmds) := by rw [pairNames_eq]
  have hex : ∀ r1, execResolved (deaf env) (cmds.map (resolve cmds)) = .ok r1 →
      execCmds (deaf env) cmds = .ok { r1 with events := inventory cmds ++ r1.events } := by
    intro r1 h1
    unfold execCmds
    have : pairNames cmds cmds = (cmds.map (resolve cmds), []) := by
      rw [← hcmds, ← hen]
    rw [this]
    simp only [ne_eq, not_true_eq_false, ↓reduceIte, h1]
    rfl
  simp only at h0
  cases ok with
  | false =>
    simp only [Bool.false_eq_true, not_false_eq_true, ↓reduceIte, Out.ok.injEq] at h0
    refine ⟨_, hex r0 ?_, rfl, rfl⟩
    unfold execResolved
    simp only [Out.bind_eq_ok]
    refine ⟨ep, hp, eh, hh, rs, hm, (eo, false), ho, ?_⟩
    simp only [Bool.false_eq_true, not_false_eq_true, ↓reduceIte, Out.ok.injEq]
    exact h0
  | true =>
    simp only [not_true_eq_false, ↓reduceIte, Out.bind_eq_ok] at h0
    obtain ⟨⟨st, rs1, el⟩, hml, h0⟩ := h0
    have hnoecho : ∀ s ∈ usable (deadline env) env.hist, NoEcho env.cfg rs s := by
      intro s hs k q hk hx b hb c hc ht
      rw [hm'] at hk
      have hlt : k < (ifaces cmds).length := by
        have := (List.getElem?_eq_some_iff.mp hk).1
        simpa [group, hif] using this
      have hg := group_get (cmds := cmds.map (resolve cmds)) (i := k) (a := (ifaces cmds)[k])
        (by rw [hif]; exact List.getElem?_eq_getElem hlt)
      rw [hk] at hg
      simp only [Option.some.injEq] at hg
      subst hg
      refine hno k _ (List.getElem?_eq_getElem hlt) ?_ s hs b hb c hc ht
      unfold hasRx at hx
      rw [List.any_eq_true] at hx
      obtain ⟨c1, hc1, ht1⟩ := hx
      exact ⟨c1, hc1, by simpa using ht1⟩
    have hnm : NamedAll (ifaces (cmds.map (resolve cmds))) rs := by rw [hm']; exact group_named _
    obtain ⟨rs2, el2, hml2, hsim, hse⟩ := mainLoop_sim (ifaces_nodup _) hnm (.refl rs) hml hnoecho
    have hck : ∀ q : List Resource, sends (checkResults q).2 = [] := by
      intro q
      apply sends_none
      intro e he a b n
      rw [checkResults_eq] at he
      simp only [List.mem_flatMap] at he
      obtain ⟨q, _, c, _, he⟩ := he
      unfold noRxEvent at he
      split at he
      · simp only [List.mem_singleton] at he
        rw [he]
        simp
      · simp at he
    cases st with
    | finished =>
      simp only [Out.ok.injEq] at h0
      refine ⟨_, hex ⟨some ((checkResults rs2).1 : Int), .finished, rs2, ep ++ eh ++ eo ++ el2 ++ (checkResults rs2).2⟩ ?_, ?_, ?_⟩
      · unfold execResolved
        simp only [Out.bind_eq_ok]
        refine ⟨ep, hp, eh, hh, rs, hm, (eo, true), ho, ?_⟩
        simp only [not_true_eq_false, ↓reduceIte, Out.bind_eq_ok]
        exact ⟨_, hml2, rfl⟩
      · rw [← h0]
        simp only [sends_append, hse, hck]
      · rw [← h0]
    | waiting =>
      simp only [Out.ok.injEq] at h0
      refine ⟨_, hex ⟨none, .waiting, rs2, ep ++ eh ++ eo ++ el2⟩ ?_, ?_, ?_⟩
      · unfold execResolved
        simp only [Out.bind_eq_ok]
        refine ⟨ep, hp, eh, hh, rs, hm, (eo, true), ho, ?_⟩
        simp only [not_true_eq_false, ↓reduceIte, Out.bind_eq_ok]
        exact ⟨_, hml2, rfl⟩
      · rw [← h0]
        simp only [sends_append, hse]
      · rw [← h0]
    | sending =>
      simp only [Out.ok.injEq] at h0
      refine ⟨_, hex ⟨none, .sending, rs2, ep ++ eh ++ eo ++ el2⟩ ?_, ?_, ?_⟩
      · unfold execResolved
        simp only [Out.bind_eq_ok]
        refine ⟨ep, hp, eh, hh, rs, hm, (eo, true), ho, ?_⟩
        simp only [not_true_eq_false, ↓reduceIte, Out.bind_eq_ok]
        exact ⟨_, hml2, rfl⟩
      · rw [← h0]
        simp only [sends_append, hse]
      · rw [← h0]

/-- Non-vacuity of `C62_independent_partial`: something is received and something is transmitted. -/
example : let cmds := [expect [2#8] none, transmit [1#8] 1]
    (execCmds (arriveThenWritable [2#8]) cmds).get?.isSome ∧
    sends (result (arriveThenWritable [2#8]) cmds).events = [(c!"e", [1#8], 1)] ∧
    (result (arriveThenWritable [2#8]) cmds).ret = some 0 := by decide +kernel

/-! ## C63: how long a run lasts -/

theorem mem_takeWhile {α : Type} {p : α → Bool} {l : List α} {x : α} (h : x ∈ l.takeWhile p) : p x = true := by
  induction l with
  | nil => simp at h
  | cons y l ih =>
    rw [List.takeWhile_cons] at h
    split at h
    · rename_i hy
      rcases List.mem_cons.mp h with rfl | h
      · exact hy
      · exact ih h
    · simp at h

theorem ends_iff {env : Env} (hb : Normalised env.begin) (ht : 0 ≤ env.timeoutMs) {s : Step} (hs : Normalised s.now) :
    lastStep (deadline env) s = true ↔ Ends (micros env.begin + 1000 * env.timeoutMs) s := by
  obtain ⟨t1, t2⟩ := micros_timeout ht
  obtain ⟨d1, d2⟩ := micros_add hb t2
  unfold lastStep Ends
  simp only [Bool.or_eq_true, decide_eq_true_eq]
  have : timerGt s.now (deadline env) = true ↔ micros (deadline env) < micros s.now := micros_gt hs d2
  rw [this]
  unfold deadline
  rw [d1, t1]

/-- C63: with an rx command, the run ends if and only if the operating system reports a time after start + timeout,
or waiting times out or fails — never because all expectations are met. Without rx command, a run that is still
waiting has an unfinished tx command, so it ends as soon as all frames are transmitted; what happens after the end
of a run has no influence on it. (`sending`: the transmit loop is still busy.) -/
theorem C63_duration (env : Env) (cmds : List Cmd) (r : ExecRes) (hr : Ready cmds)
    (hu : ∀ c ∈ cmds, unresolved cmds c = false) (hopen : ∀ a ∈ ifaces cmds, env.canOpen a = true)
    (hb : Normalised env.begin) (ht : 0 ≤ env.timeoutMs) (hclock : ∀ s ∈ env.hist, Normalised s.now)
    (h : execCmds env cmds = .ok r) :
    ((∃ c ∈ cmds, c.type = .rx) → r.status ≠ .sending →
      (r.status = .finished ↔ ∃ s ∈ env.hist, Ends (micros env.begin + 1000 * env.timeoutMs) s)) ∧
    ((∀ c ∈ cmds, c.type ≠ .rx) → r.status = .waiting →
      (∀ s ∈ env.hist, ¬ Ends (micros env.begin + 1000 * env.timeoutMs) s) ∧
      ∃ q ∈ r.resources, ∃ c ∈ q.cmds, c.type = .tx ∧ c.done = false) ∧
    (r.status = .finished → ∀ more, ∃ r', execCmds { env with hist := env.hist ++ more } cmds = .ok r' ∧
      r'.events = r.events ∧ r'.ret = r.ret) := by
  obtain ⟨pre, hpre, hcase⟩ := execCmds_parts hr hu h
  rcases hcase with ⟨hopf, _⟩ | ⟨_, el, hml, hfin, hnf⟩
  · exfalso
    rw [List.all_eq_false] at hopf
    obtain ⟨x, hx, hf⟩ := hopf
    exact hf (hopen x hx)
  have hst := mainLoop_status hml
  have hr' := hr.resolve cmds
  obtain ⟨n, hn, hch, hfull⟩ := mainLoop_changes (ifaces_nodup _) (group_named _) hml
  refine ⟨?_, ?_, ?_⟩
  · intro hrx hns
    have hio : wantsIo r.resources = true := by
      have hg := (group_hasRx hr'.iface).mpr (by
        obtain ⟨c, hc, ht⟩ := hrx
        exact ⟨resolve cmds c, List.mem_map_of_mem hc, by rw [resolve_type]; exact ht⟩)
      obtain ⟨q, hq, hx⟩ := hg
      obtain ⟨i, hi⟩ := List.mem_iff_getElem?.mp hq
      have hlt : i < (ifaces (cmds.map (resolve cmds))).length := by
        rw [namedAll_length (group_named _)]; exact (List.getElem?_eq_some_iff.mp hi).1
      obtain ⟨q', ops, hq', hc⟩ := hch.each i _ q (List.getElem?_eq_getElem hlt) hi
      unfold wantsIo
      rw [List.any_eq_true]
      refine ⟨q', List.mem_of_getElem? hq', ?_⟩
      rw [hasRx_same hc.run.same, hx]
      rfl
    constructor
    · intro hf
      rcases hst.1 hf with hw | ⟨s, hs, hl⟩
      · rw [hio] at hw; exact Bool.noConfusion hw
      · exact ⟨s, hs, (ends_iff hb ht (hclock s hs)).mp hl⟩
    · rintro ⟨s, hs, he⟩
      cases hx : r.status with
      | finished => rfl
      | sending => exact absurd hx hns
      | waiting =>
        have := (hst.2 hx).2 s hs
        rw [(ends_iff hb ht (hclock s hs)).mpr he] at this
        exact Bool.noConfusion this
  · intro hno hw
    obtain ⟨h1, h2⟩ := hst.2 hw
    refine ⟨fun s hs he => ?_, ?_⟩
    · have := h2 s hs
      rw [(ends_iff hb ht (hclock s hs)).mpr he] at this
      exact Bool.noConfusion this
    · unfold wantsIo at h1
      rw [List.any_eq_true] at h1
      obtain ⟨q, hq, hx⟩ := h1
      have hnorx : hasRx q = false := by
        cases hx' : hasRx q with
        | false => rfl
        | true =>
          exfalso
          obtain ⟨i, hi⟩ := List.mem_iff_getElem?.mp hq
          have hil : i < (group (cmds.map (resolve cmds))).length := by
            rw [← hch.len]; exact (List.getElem?_eq_some_iff.mp hi).1
          have hlt : i < (ifaces (cmds.map (resolve cmds))).length := by
            rw [namedAll_length (group_named _)]; exact hil
          obtain ⟨q', ops, hq', hc⟩ := hch.each i _ _ (List.getElem?_eq_getElem hlt) (List.getElem?_eq_getElem hil)
          rw [hi] at hq'
          simp only [Option.some.injEq] at hq'
          subst hq'
          rw [hasRx_same hc.run.same] at hx'
          obtain ⟨c, hc, htc⟩ := (group_hasRx hr'.iface).mp ⟨_, List.getElem_mem hil, hx'⟩
          obtain ⟨c0, hc0, rfl⟩ := List.mem_map.mp hc
          rw [resolve_type] at htc
          exact hno c0 hc0 htc
      rw [hnorx, Bool.false_or] at hx
      unfold hasTx at hx
      rw [List.any_eq_true] at hx
      obtain ⟨c, hc, hx⟩ := hx
      simp only [Bool.and_eq_true, beq_iff_eq, Bool.not_eq_true'] at hx
      exact ⟨q, hq, c, hc, hx⟩
  · intro hf more
    obtain ⟨r0, h0, rfl⟩ := execCmds_ok hu h
    have hp := mainLoop_prefix hml (by simp only at hf ⊢; rw [hf]; exact LoopEnd.noConfusion) more
    refine ⟨_, exec_more hu h0 rfl rfl (fun rs hrs x hx => ?_), rfl, rfl⟩
    have hm' := mapCmds_group [] (cmds.map (resolve cmds)) hr'.iface (by simpa using hr'.slots)
    rw [show group [] = [] from rfl, hrs] at hm'
    simp only [List.nil_append, Out.ok.injEq] at hm'
    subst hm'
    rw [hml] at hx
    rw [← hx]
    exact hp

/-- Non-vacuity of `C63_duration`: all expectations are met, the run is still waiting. -/
example : (result (Env.mk ⟨true, true⟩ (fun _ => true) ⟨0, 0⟩ 100
      [Step.mk 1 ⟨0, 0⟩ (fun _ => true) (fun _ => false) (fun _ => some ⟨[1#8], none⟩) (fun _ => 0)] 10)
    [expect [1#8] none]).status = .waiting ∧
    (result (writable 1 1) [transmit [1#8] 3]).status = .finished := by decide +kernel

/-! ## C64: timeouts -/

/-- C64: the timeout of the first wait is exactly the given number of milliseconds, and that of each later wait is
exactly the time from the last clock reading to the deadline, which is the start time plus the timeout. All timeouts
are properly normalised and not negative. -/
theorem C64_timeouts (env : Env) (cmds : List Cmd) (r : ExecRes) (hr : Ready cmds)
    (hu : ∀ c ∈ cmds, unresolved cmds c = false) (hb : Normalised env.begin) (ht : 0 ≤ env.timeoutMs)
    (hclock : ∀ s ∈ env.hist, Normalised s.now) (h : execCmds env cmds = .ok r) :
    ∀ (k : Nat) t, (waits r.events)[k]? = some t → Normalised t ∧ 0 ≤ micros t ∧
      (k = 0 → micros t = 1000 * env.timeoutMs) ∧
      (∀ j, k = j + 1 → ∃ s, env.hist[j]? = some s ∧
        micros t = (micros env.begin + 1000 * env.timeoutMs) - micros s.now) := by
  obtain ⟨t1, t2⟩ := micros_timeout ht
  obtain ⟨d1, d2⟩ := micros_add hb t2
  have hearly : ∀ pre, (∀ e ∈ pre, Early e) → waits pre = [] := by
    intro pre hpre
    apply waits_none
    intro e he t
    rcases hpre e he with ⟨_, _, _, rfl⟩ | ⟨_, _, rfl⟩ | ⟨_, _, rfl⟩ <;> exact fun h => Event.noConfusion h
  have hop : ∀ l : List CStr, waits (l.map .opened) = [] := by
    intro l
    apply waits_none
    intro e he t
    obtain ⟨a, _, rfl⟩ := List.mem_map.mp he
    exact fun h => Event.noConfusion h
  have hck : ∀ q : List Resource, waits (checkResults q).2 = [] := by
    intro q
    apply waits_none
    intro e he t
    rw [checkResults_eq] at he
    simp only [List.mem_flatMap] at he
    obtain ⟨q, _, c, _, he⟩ := he
    unfold noRxEvent at he
    split at he
    · simp only [List.mem_singleton] at he
      rw [he]
      simp
    · simp at he
  obtain ⟨pre, hpre, hcase⟩ := execCmds_parts hr hu h
  rcases hcase with ⟨hopf, _, _, hev⟩ | ⟨_, el, hml, hfin, hnf⟩
  · intro k t hk
    rw [hev, waits_append, hearly pre hpre, hop] at hk
    simp at hk
  · have hwe : waits r.events = waits el := by
      by_cases hst : r.status = .finished
      · rw [(hfin hst).1]
        simp only [waits_append, hearly pre hpre, hop, hck, List.nil_append, List.append_nil]
      · rw [(hnf hst).1]
        simp only [waits_append, hearly pre hpre, hop, List.nil_append]
    obtain ⟨m, hm, _⟩ := mainLoop_waits (ifaces_nodup _) (group_named _) hml
    intro k t hk
    rw [hwe, hm, List.getElem?_take] at hk
    split at hk
    · cases k with
      | zero =>
        simp only [List.getElem?_cons_zero, Option.some.injEq] at hk
        subst hk
        exact ⟨t2, by omega, fun _ => t1, fun j hj => by omega⟩
      | succ k =>
        simp only [List.getElem?_cons_succ, List.getElem?_map] at hk
        obtain ⟨s, hs, rfl⟩ := Option.map_eq_some_iff.mp hk
        have hsh : env.hist[k]? = some s := by
          have hpre : usable (deadline env) env.hist <+: env.hist := List.takeWhile_prefix _
          obtain ⟨hlt, hg⟩ := List.getElem?_eq_some_iff.mp hs
          rw [List.prefix_iff_getElem?.mp hpre k hlt, hg]
        have hsm : s ∈ env.hist := List.mem_of_getElem? hsh
        obtain ⟨s1, s2⟩ := micros_sub d2 (hclock s hsm)
        have hlate : lastStep (deadline env) s = false := by
          have hall := mem_takeWhile (List.mem_of_getElem? hs)
          simp only [Bool.and_eq_true, Bool.not_eq_true', decide_eq_true_eq] at hall
          unfold lastStep
          simp only [Bool.or_eq_false_iff, decide_eq_false_iff_not]
          exact ⟨hall.1, by omega⟩
        have hnot : ¬ Ends (micros env.begin + 1000 * env.timeoutMs) s := by
          intro he
          rw [(ends_iff hb ht (hclock s hsm)).mpr he] at hlate
          exact Bool.noConfusion hlate
        unfold Ends at hnot
        have hle : micros s.now ≤ micros env.begin + 1000 * env.timeoutMs := by omega
        have e : deadline env = timerAdd env.begin (timeoutVal env.timeoutMs) := rfl
        rw [e]
        refine ⟨s2, by rw [s1, d1, t1]; omega, fun h => by omega, fun j hj => ?_⟩
        have : j = k := by omega
        subst this
        exact ⟨s, hsh, by rw [s1, d1, t1]⟩
    · simp at hk

/-- Non-vacuity of `C64_timeouts`: 2.5 s timeout, one answer after 0.6 s. -/
example : waits (result (Env.mk ⟨true, true⟩ (fun _ => true) ⟨10, 700000⟩ 2500
      [Step.mk 1 ⟨11, 300000⟩ (fun _ => true) (fun _ => false) (fun _ => some ⟨[1#8], none⟩) (fun _ => 0)] 10)
    [expect [1#8] none]).events = [⟨2, 500000⟩, ⟨1, 900000⟩] := by decide +kernel

/-- A negative timeout (`-t -1`) is not normalised. -/
example : timeoutVal (-1) = ⟨0, -1000⟩ := by decide +kernel

end Ef.Props
