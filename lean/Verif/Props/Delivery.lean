import Verif.Lemmas.Progress
import Verif.Props.Transmit

/-!
# Properties of the transmissions before the deadline (C89)
-/

namespace Ef.Props

open Ef Ef.Spec

attribute [local irreducible] txOne

/-! ## C89: what can be transmitted in time is transmitted -/

/-- All that the tx commands of a socket ask for. -/
def requested (cs : List Cmd) : List Buf :=
  cs.flatMap (fun c => if c.type = .tx then List.replicate c.rep (c.buf.getD []) else [])

theorem transmissions_requested {cs : List Cmd} {ks : Nat → Nat}
    (h : ∀ (j : Nat) c, cs[j]? = some c → c.type = .tx → ks j = c.rep) : transmissions cs ks = requested cs := by
  unfold transmissions requested
  have key : ∀ (l : List Cmd) (m : Nat), (∀ (j : Nat) c, l[j]? = some c → c.type = .tx → ks (m + j) = c.rep) →
      (l.zipIdx m).flatMap (fun p => if p.1.type = .tx then List.replicate (ks p.2) (p.1.buf.getD []) else []) =
      l.flatMap (fun c => if c.type = .tx then List.replicate c.rep (c.buf.getD []) else []) := by
    intro l
    induction l with
    | nil => intro m _; rfl
    | cons c l ih =>
      intro m hk
      rw [List.zipIdx_cons, List.flatMap_cons, List.flatMap_cons]
      congr 1
      · split
        · rename_i ht
          have := hk 0 c rfl ht
          rw [Nat.add_zero] at this
          rw [this]
        · rfl
      · refine ih (m + 1) (fun j x hx ht => ?_)
        have := hk (j + 1) x (by simpa using hx) ht
        rw [← this]
        congr 1
        omega
  exact key cs 0 (fun j c hc ht => by rw [Nat.zero_add]; exact h j c hc ht)

/-- **C89.** If every transmission on interface `a` succeeds, and before the deadline the interface is ready for
transmission at least as often as it has tx commands, then every tx command is transmitted as often as requested, also
if the run ends because the time is over. The only exception is a command to which a received frame is credited (see
C62), so without expectations on the same interface exactly the requested frames are transmitted, in order. -/
theorem C89_sent_in_time (env : Env) (cmds : List Cmd) (r : ExecRes) (i : Nat) (a : CStr) (hr : Ready cmds)
    (hrep : ∀ c ∈ cmds, c.type = .tx → 1 ≤ c.rep ∧ c.rep < 2 ^ 32) (hu : ∀ c ∈ cmds, unresolved cmds c = false)
    (hopen : ∀ a ∈ ifaces cmds, env.canOpen a = true) (h : execCmds env cmds = .ok r) (hst : r.status ≠ .sending)
    (hi : (ifaces cmds)[i]? = some a) (hsend : ∀ e ∈ r.events, ifaceOf e = some a → sendOk e = true)
    (hready : (onSocket a cmds).countP (fun c => c.type == .tx) ≤
      (usable (deadline env) env.hist).countP (fun s => s.writable i)) :
    (∃ (n : Nat) (out : List (Option Nat)) (ks : Nat → Nat),
      Credited (onSocket a cmds) (heard env (onSocket a cmds) i n) out ∧
      r.events.filterMap (sentOn a) = transmissions (onSocket a cmds) ks ∧
      ∀ (j : Nat) c, (onSocket a cmds)[j]? = some c → c.type = .tx → some j ∉ out → ks j = c.rep) ∧
    ((∀ c ∈ onSocket a cmds, c.type ≠ .rx) → r.events.filterMap (sentOn a) = requested (onSocket a cmds)) := by
  have key : ∃ (n : Nat) (out : List (Option Nat)) (ks : Nat → Nat),
      Credited (onSocket a cmds) (heard env (onSocket a cmds) i n) out ∧
      r.events.filterMap (sentOn a) = transmissions (onSocket a cmds) ks ∧
      ∀ (j : Nat) c, (onSocket a cmds)[j]? = some c → c.type = .tx → some j ∉ out → ks j = c.rep := by
    obtain ⟨⟨n, hn, hfull, hs⟩, _⟩ := exec_report hr hu hopen h
    obtain ⟨ops, r', hS⟩ := hs i a hi
    have hf : Fresh (onSocket a cmds) := cmdsOn_fresh (hr.resolve cmds).fresh a
    have hc := hS.run.credited hf
    rw [hS.frames] at hc
    refine ⟨n, rxOuts ops, fun j => (txIdx ops).count j, hc, sent_eq hS, ?_⟩
    have hall : AllSent (onSocket a cmds) ops := by
      intro j res fin c b hop hcj hb
      have hev : Event.send a b res ∈ onIface a r.events := by
        rw [hS.events]
        apply List.mem_append_left
        refine List.mem_flatMap.mpr ⟨_, hop, ?_⟩
        have hcj' : (cmdsOn a (cmds.map (resolve cmds)))[j]? = some c := hcj
        simp only [opEvents, hcj', hb, Option.getD_some]
        exact List.mem_cons_self
      have := hsend _ (List.mem_filter.mp hev).1 rfl
      simpa [sendOk] using this
    have hrep' : ∀ c ∈ onSocket a cmds, c.type = .tx → 1 ≤ c.rep ∧ c.rep < 2 ^ 32 := by
      intro c hcm ht
      obtain ⟨c0, hc0, rfl⟩ := List.mem_map.mp (List.mem_filter.mp hcm).1
      rw [resolve_rep]
      exact hrep c0 hc0 (by rw [resolve_type] at ht; exact ht)
    -- nothing is pending at the end
    have hnone : pendCount r'.cmds = 0 := by
      obtain ⟨pre, hpre, hcase⟩ := execCmds_parts hr hu h
      rcases hcase with ⟨hopf, _⟩ | ⟨_, el, hml, hfin, hnf⟩
      · exfalso
        rw [List.all_eq_false] at hopf
        obtain ⟨x, hx, hf⟩ := hopf
        exact hf (hopen x hx)
      · have hel : SentOk a el := by
          intro e he
          apply hsend
          by_cases h1 : r.status = .finished
          · rw [(hfin h1).1]; simp [he]
          · rw [(hnf h1).1]; simp [he]
        have hif := ifaces_resolve cmds cmds
        have ha : (ifaces (cmds.map (resolve cmds)))[i]? = some a := by rw [hif]; exact hi
        obtain ⟨q, hq, hle⟩ := mainLoop_progress (ifaces_nodup (cmds.map (resolve cmds))) (group_named _) hml hst ha
          (group_get ha) (fun c hcm hp => hrep' c hcm hp.1) hel
        rw [hS.state] at hq
        simp only [Option.some.injEq] at hq
        subst hq
        have hle2 : pendCount (onSocket a cmds) ≤ (onSocket a cmds).countP (fun c => c.type == .tx) := by
          unfold pendCount
          refine List.countP_mono_left (fun c _ hp => ?_)
          have := of_decide_eq_true hp
          simp [this.1]
        have hle3 : pendCount r'.cmds ≤ pendCount (onSocket a cmds) -
          (usable (deadline env) env.hist).countP (fun s => s.writable i) := hle
        omega
    intro j c hcj ht hno
    have hjl : j < r'.cmds.length := by
      rw [hS.run.same.1]; exact (List.getElem?_eq_some_iff.mp hcj).1
    obtain ⟨h1, h2⟩ := hrep' c (List.mem_of_getElem? hcj) ht
    have hcount := hS.run.count hf hall j c _ hcj (List.getElem?_eq_getElem hjl) h1 h2
    rw [← hcount.2.1]
    have hty : r'.cmds[j].type = .tx := by
      obtain ⟨c0, hc0, hst0⟩ := hS.run.same.back (List.getElem?_eq_getElem hjl)
      have hcj' : (cmdsOn a (cmds.map (resolve cmds)))[j]? = some c := hcj
      rw [hcj'] at hc0
      simp only [Option.some.injEq] at hc0
      rw [hst0.1, ← hc0]
      exact ht
    have hd : r'.cmds[j].done = true := by
      unfold pendCount at hnone
      rw [List.countP_eq_zero] at hnone
      have := hnone _ (List.mem_of_getElem? (List.getElem?_eq_getElem hjl))
      cases hx : r'.cmds[j].done with
      | true => rfl
      | false => exact absurd (decide_eq_true (p := pending r'.cmds[j]) ⟨hty, hx⟩) this
    rcases (hS.run.done_iff hf j _ (List.getElem?_eq_getElem hjl)).mp hd with h3 | h3
    · exact absurd h3 hno
    · exact h3
  refine ⟨key, fun hrx => ?_⟩
  obtain ⟨n, out, ks, hcr, hsent, hks⟩ := key
  rw [hsent]
  apply transmissions_requested
  intro j c hc ht
  refine hks j c hc ht ?_
  have h0 : heard env (onSocket a cmds) i n = [] := by
    unfold heard
    rw [if_neg]
    rw [List.any_eq_true]
    rintro ⟨x, hx, hxt⟩
    exact hrx x hx (by simpa using hxt)
  have hl := hcr.len
  rw [h0] at hl
  have : out = [] := List.length_eq_zero_iff.mp hl
  rw [this]
  simp

/-- An environment in which sockets are ready `k` times, then nothing happens until the time is over. -/
def readyTimes (k : Nat) : Env :=
  Env.mk ⟨true, true⟩ (fun _ => true) ⟨0, 0⟩ 100
    (List.replicate k (Step.mk 1 ⟨0, 0⟩ (fun _ => false) (fun _ => true) (fun _ => none) (fun _ => 1)) ++
      [Step.mk 0 ⟨0, 0⟩ (fun _ => false) (fun _ => false) (fun _ => none) (fun _ => 0)]) 10

/-- Two frames to transmit, the first one three times, and listening on another interface. -/
def busy : List Cmd := [transmit [1#8] 3, { type := .rx, arg0 := some c!"f" }, transmit [2#8] 1]

/-- Non-vacuity: the conditions hold, the run ends with the timeout, and four frames are transmitted. -/
example : let r := result (readyTimes 2) busy
    (execCmds (readyTimes 2) busy).get?.isSome ∧ r.status = .finished ∧
    (∀ c ∈ busy, c.type = .tx → 1 ≤ c.rep ∧ c.rep < 2 ^ 32) ∧ (∀ c ∈ busy, unresolved busy c = false) ∧
    (∀ e ∈ r.events, ifaceOf e = some c!"e" → sendOk e = true) ∧ (ifaces busy)[0]? = some c!"e" ∧
    (onSocket c!"e" busy).countP (fun c => c.type == .tx) = 2 ∧
    (usable (deadline (readyTimes 2)) (readyTimes 2).hist).countP (fun s => s.writable 0) = 2 ∧
    r.events.filterMap (sentOn c!"e") = [[1#8], [1#8], [1#8], [2#8]] := by decide +kernel

/-- The interface must be ready as often as there are commands: if it is ready only once, the second frame is lost. -/
example : (result (readyTimes 1) busy).events.filterMap (sentOn c!"e") = [[1#8], [1#8], [1#8]] := by decide +kernel

end Ef.Props
