import Verif.Props.Transmit

/-!
# Interfaces do not influence each other (C101)
-/

namespace Ef.Props

open Ef Ef.Spec

/-! ## C101: the report about an interface -/

/-- All that interface `a` hears in the run: the frames that arrive on socket `i` until the deadline. -/
def heardOn (env : Env) (a : CStr) (cmds : List Cmd) (i : Nat) : List Buf :=
  heard env (onSocket a cmds) i (usable (deadline env) env.hist).length

/-- Everything that two runs have in common if their commands for interface `a` are the same and `a` hears the same
frames. The commands for other interfaces, the sockets, the clock and all other traffic may be different. -/
structure SameOn (a : CStr) (env env' : Env) (cmds cmds' : List Cmd) (r r' : ExecRes) (i i' : Nat) : Prop where
  ready : Ready cmds
  ready' : Ready cmds'
  known : ∀ c ∈ cmds, unresolved cmds c = false
  known' : ∀ c ∈ cmds', unresolved cmds' c = false
  opens : ∀ x ∈ ifaces cmds, env.canOpen x = true
  opens' : ∀ x ∈ ifaces cmds', env'.canOpen x = true
  run : execCmds env cmds = .ok r
  run' : execCmds env' cmds' = .ok r'
  done : r.status = .finished
  done' : r'.status = .finished
  idx : (ifaces cmds)[i]? = some a
  idx' : (ifaces cmds')[i']? = some a
  cmds_eq : onSocket a cmds' = onSocket a cmds
  heard_eq : heardOn env' a cmds' i' = heardOn env a cmds i

/-- **C101, full statement.** -/
def C101_statement : Prop :=
  ∀ (a : CStr) (env env' : Env) (cmds cmds' : List Cmd) (r r' : ExecRes) (i i' : Nat),
    SameOn a env env' cmds cmds' r r' i i' →
    r'.events.filter (isRx a) = r.events.filter (isRx a) ∧ r'.events.filter (isNoRx a) = r.events.filter (isNoRx a)

/-- The assignment of frames to commands is determined by the frames, unless a frame is wanted by a tx command. -/
theorem credited_unique {cs : List Cmd} {F : List Buf} {out out' : List (Option Nat)} (h : Credited cs F out)
    (h' : Credited cs F out') (hcs : ∀ c ∈ cs, c.type = .rx ∨ c.type = .tx)
    (hno : ∀ b ∈ F, ∀ c ∈ cs, c.type = .tx → ¬ Wants c b) : out = out' := by
  -- one direction of the comparison at position `k`
  have key : ∀ {o o' : List (Option Nat)}, Credited cs F o → Credited cs F o' → ∀ k : Nat,
      (∀ k' : Nat, k' < k → o[k']? = o'[k']?) → ∀ j : Nat, o[k]? = some (some j) →
      ∃ j', o'[k]? = some (some j') ∧ j' ≤ j := by
    intro o o' ho ho' k ih j hj
    obtain ⟨c, b, hc, hb, hw, hfree, -⟩ := ho.hit k j hj
    have hrx : c.type = .rx := by
      rcases hcs c (List.mem_of_getElem? hc) with h1 | h1
      · exact h1
      · exact (hno b (List.mem_of_getElem? hb) c (List.mem_of_getElem? hc) h1 hw).elim
    have hk : k < o'.length := by
      rw [ho'.len]; exact (List.getElem?_eq_some_iff.mp hb).1
    have he : o'[k]? = some o'[k] := List.getElem?_eq_getElem hk
    cases hv : o'[k] with
    | none =>
      rw [hv] at he
      obtain ⟨k', hk', hx⟩ := ho'.miss k b he hb j c hc hrx hw
      exact (hfree k' hk' ((ih k' hk').trans hx)).elim
    | some j' =>
      rw [hv] at he
      refine ⟨j', he, ?_⟩
      by_cases hle : j' ≤ j
      · exact hle
      · obtain ⟨c', b', hc', hb', hw', hfree', hfirst⟩ := ho'.hit k j' he
        rw [hb, Option.some.injEq] at hb'
        subst hb'
        obtain ⟨k', hk', hx⟩ := hfirst j c (by omega) hc hrx hw
        exact (hfree k' hk' ((ih k' hk').trans hx)).elim
  have all : ∀ k : Nat, out[k]? = out'[k]? := by
    intro k
    induction k using Nat.strongRecOn with
    | _ k ih =>
      by_cases hk : k < F.length
      · have hk1 : k < out.length := by rw [h.len]; exact hk
        have hk2 : k < out'.length := by rw [h'.len]; exact hk
        have h1 : out[k]? = some out[k] := List.getElem?_eq_getElem hk1
        have h2 : out'[k]? = some out'[k] := List.getElem?_eq_getElem hk2
        cases e1 : out[k] with
        | some j =>
          rw [e1] at h1
          obtain ⟨j', hj', hle⟩ := key h h' k ih j h1
          obtain ⟨j2, hj2, hle2⟩ := key h' h k (fun k' hk' => (ih k' hk').symm) j' hj'
          rw [h1] at hj2
          simp only [Option.some.injEq] at hj2
          rw [h1, hj']
          have : j = j' := by omega
          rw [this]
        | none =>
          rw [e1] at h1
          cases e2 : out'[k] with
          | none => rw [e2] at h2; rw [h1, h2]
          | some j' =>
            rw [e2] at h2
            obtain ⟨j2, hj2, -⟩ := key h' h k (fun k' hk' => (ih k' hk').symm) j' h2
            rw [h1] at hj2
            simp at hj2
      · rw [List.getElem?_eq_none (by rw [h.len]; omega), List.getElem?_eq_none (by rw [h'.len]; omega)]
  exact List.ext_getElem? all

/-- The commands of a socket transmit or receive. -/
theorem onSocket_io {a : CStr} {cmds : List Cmd} {c : Cmd} (h : c ∈ onSocket a cmds) : c.type = .rx ∨ c.type = .tx := by
  unfold onSocket cmdsOn at h
  have h2 := (List.mem_filter.mp h).2
  unfold ioIface at h2
  split at h2
  · assumption
  · simp at h2

/-- The report about an interface of a run that has ended. -/
theorem socket_report {env : Env} {cmds : List Cmd} {r : ExecRes} (hr : Ready cmds)
    (hu : ∀ c ∈ cmds, unresolved cmds c = false) (hopen : ∀ a ∈ ifaces cmds, env.canOpen a = true)
    (h : execCmds env cmds = .ok r) (hst : r.status = .finished) {i : Nat} {a : CStr}
    (hi : (ifaces cmds)[i]? = some a) :
    ∃ out, Credited (onSocket a cmds) (heardOn env a cmds i) out ∧
      r.events.filter (isRx a) = rxReport a (onSocket a cmds) (heardOn env a cmds i) out ∧
      r.events.filter (isNoRx a) = (uncredited (onSocket a cmds) out).map (noRxReport a) := by
  obtain ⟨n, -, hn, hs⟩ := C56_credit env cmds r hr hu hopen h
  obtain ⟨out, h1, h2, h3⟩ := hs i a hi
  have e : heard env (onSocket a cmds) i n = heardOn env a cmds i := by
    unfold heardOn
    by_cases hx : (onSocket a cmds).any (fun c => c.type == .rx) = true
    · rw [hn (by rw [hst]; exact LoopEnd.noConfusion) ?_]
      rw [List.any_eq_true] at hx
      obtain ⟨c, hc, ht⟩ := hx
      unfold onSocket cmdsOn at hc
      obtain ⟨c0, hc0, rfl⟩ := List.mem_map.mp (List.mem_filter.mp hc).1
      rw [resolve_type] at ht
      exact ⟨c0, hc0, by simpa using ht⟩
    · unfold heard
      rw [if_neg hx, if_neg hx]
  rw [e] at h1 h2
  rw [if_pos hst] at h3
  exact ⟨out, h1, h2, h3⟩

/-- **C101, the part that holds**: if the commands for interface `a` are the same in two runs and `a` hears the same
frames, then what is reported about `a` is the same, frame by frame, and so are the frames reported missing: neither
the commands for other interfaces nor their traffic have an influence. Missing: a frame that equals the frame of a
tx command of `a` (false, see `C101_false`). -/
theorem C101_separate_partial (a : CStr) (env env' : Env) (cmds cmds' : List Cmd) (r r' : ExecRes) (i i' : Nat)
    (h : SameOn a env env' cmds cmds' r r' i i')
    (hno : ∀ b ∈ heardOn env a cmds i, ∀ c ∈ onSocket a cmds, c.type = .tx → ¬ Wants c b) :
    r'.events.filter (isRx a) = r.events.filter (isRx a) ∧
    r'.events.filter (isNoRx a) = r.events.filter (isNoRx a) := by
  obtain ⟨out, h1, h2, h3⟩ := socket_report h.ready h.known h.opens h.run h.done h.idx
  obtain ⟨out', h1', h2', h3'⟩ := socket_report h.ready' h.known' h.opens' h.run' h.done' h.idx'
  rw [h.heard_eq, h.cmds_eq] at h1' h2'
  rw [h.cmds_eq] at h3'
  have := credited_unique h1 h1' (fun c hc => onSocket_io hc) hno
  subst this
  exact ⟨h2'.trans h2.symm, h3'.trans h3.symm⟩

/-- The errors about `a` are those of its two reports. -/
theorem errorsOn_reports (a : CStr) (es : List Event) :
    errorsOn a es = (es.filter (isRx a)).countP isError + (es.filter (isNoRx a)).countP isError := by
  unfold errorsOn
  rw [List.countP_filter, List.countP_filter]
  have key : ∀ e : Event, (if (isError e && ifaceOf e == some a) = true then 1 else 0) =
      (if (isError e && isRx a e) = true then 1 else 0) + (if (isError e && isNoRx a e) = true then 1 else 0) := by
    intro e
    cases e <;> simp [isError, ifaceOf, isRx, isNoRx]
  induction es with
  | nil => rfl
  | cons e es ih =>
    rw [List.countP_cons, List.countP_cons, List.countP_cons, ih, key e]
    omega

/-- **C101** for the number of errors. -/
theorem C101_errors_partial (a : CStr) (env env' : Env) (cmds cmds' : List Cmd) (r r' : ExecRes) (i i' : Nat)
    (h : SameOn a env env' cmds cmds' r r' i i')
    (hno : ∀ b ∈ heardOn env a cmds i, ∀ c ∈ onSocket a cmds, c.type = .tx → ¬ Wants c b) :
    errorsOn a r'.events = errorsOn a r.events := by
  obtain ⟨h1, h2⟩ := C101_separate_partial a env env' cmds cmds' r r' i i' h hno
  rw [errorsOn_reports, errorsOn_reports, h1, h2]

/-- **C101** for the result: it is the sum of the errors about the single interfaces. -/
theorem C101_sum (env : Env) (cmds : List Cmd) (r : ExecRes) (hr : Ready cmds)
    (hu : ∀ c ∈ cmds, unresolved cmds c = false) (hopen : ∀ a ∈ ifaces cmds, env.canOpen a = true)
    (h : execCmds env cmds = .ok r) (hst : r.status = .finished) :
    r.ret = some ((((ifaces cmds).map (fun a => errorsOn a r.events)).sum : Nat) : Int) := by
  obtain ⟨⟨n, hn, hfull, hs⟩, hfin, hnf, hlen, hsum⟩ := exec_report hr hu hopen h
  rw [hsum hst]
  congr 3
  apply List.ext_getElem?
  intro i
  rw [List.getElem?_map, List.getElem?_map]
  cases hi : (ifaces cmds)[i]? with
  | none =>
    have : r.resources[i]? = none := by
      rw [List.getElem?_eq_none_iff] at hi ⊢
      omega
    rw [this]
    rfl
  | some a =>
    obtain ⟨ops, r', hS⟩ := hs i a hi
    have hc := hS.run.credited (cmdsOn_fresh (hr.resolve cmds).fresh a)
    have hnm : Named a r' := by
      refine Named.same (r := { cmds := onSocket a cmds }) ?_ hS.run.same
      have : a ∈ ifaces (cmds.map (resolve cmds)) := by
        rw [ifaces_resolve]; exact List.mem_of_getElem? hi
      exact cmdsOn_named this
    rw [hS.state]
    simp only [Option.map_some, Option.some.injEq]
    rw [hS.err, (missing_report (cmdsOn_fresh (hr.resolve cmds).fresh a) hS.run hnm).2]
    have : errorsOn a r.events = errors (onIface a r.events) := by
      unfold errorsOn errors onIface
      rw [List.countP_filter]
    rw [this, hS.events, if_pos hst, errors_append, errors_ops a (credited_range hc)]
    congr 1
    have key : ∀ l : List Cmd, errors (l.map (noRxReport a)) = l.length := by
      intro l
      induction l with
      | nil => rfl
      | cons c l ih =>
        have e : errors ((c :: l).map (noRxReport a)) = errors (l.map (noRxReport a)) + 1 := by
          rw [List.map_cons]
          unfold errors
          rw [List.countP_cons_of_pos]
          rfl
        rw [e, ih]; rfl
    rw [key]

/-- A frame arrives after the socket was writable. -/
def writableThenArrive (b : Buf) : Env :=
  Env.mk ⟨true, true⟩ (fun _ => true) ⟨0, 0⟩ 100
    [Step.mk 1 ⟨0, 0⟩ (fun _ => false) (fun _ => true) (fun _ => none) (fun _ => 1),
      Step.mk 1 ⟨0, 0⟩ (fun _ => true) (fun _ => false) (fun _ => some ⟨b, none⟩) (fun _ => 0),
      Step.mk 0 ⟨0, 0⟩ (fun _ => false) (fun _ => false) (fun _ => none) (fun _ => 0)] 10

/-- **C101 does not hold** for an interface that receives a frame which it is about to transmit: before the
transmission it counts as expected, after the transmission it does not. -/
theorem C101_false : ¬ C101_statement := by
  intro hs
  have h := (hs c!"e" (arriveThenWritable [1#8]) (writableThenArrive [1#8]) [expect [2#8] none, transmit [1#8] 1]
    [expect [2#8] none, transmit [1#8] 1] (result (arriveThenWritable [1#8]) [expect [2#8] none, transmit [1#8] 1])
    (result (writableThenArrive [1#8]) [expect [2#8] none, transmit [1#8] 1]) 0 0
    ⟨⟨by unfold Fresh; decide +kernel, by unfold HasIface; decide +kernel, by decide +kernel⟩,
      ⟨by unfold Fresh; decide +kernel, by unfold HasIface; decide +kernel, by decide +kernel⟩,
      by decide +kernel, by decide +kernel, fun _ _ => rfl, fun _ _ => rfl, result_ok (by decide +kernel),
      result_ok (by decide +kernel), by decide +kernel, by decide +kernel, by decide +kernel, by decide +kernel,
      by decide +kernel, by decide +kernel⟩).1
  revert h
  decide +kernel

/-- An expectation on interface `f`. -/
def expectF (b : Buf) : Cmd := { expect b none with arg0 := some c!"f" }

/-- Frames that arrive on the sockets 0 and 1 at the same time. -/
def twoSockets (bs : List (Buf × Buf)) : Env :=
  Env.mk ⟨true, true⟩ (fun _ => true) ⟨0, 0⟩ 100
    (bs.map (fun p => Step.mk 2 ⟨0, 0⟩ (fun _ => true) (fun _ => false)
      (fun i => some ⟨if i = 0 then p.1 else p.2, none⟩) (fun _ => 0)) ++
      [Step.mk 0 ⟨0, 0⟩ (fun _ => false) (fun _ => false) (fun _ => none) (fun _ => 0)]) 10

/-- Non-vacuity of `C101_separate_partial`: interface `e` alone, and next to interface `f`, where one of two frames
is wrong. -/
example : let cmds := [expect [1#8] none, expect [2#8] none]
    let cmds' := [expectF [1#8], expect [1#8] none, expectF [5#8], expect [2#8] none]
    let env := listening [[2#8], [3#8]]
    let env' := twoSockets [([1#8], [2#8]), ([4#8], [3#8])]
    SameOn c!"e" env env' cmds cmds' (result env cmds) (result env' cmds') 0 1 ∧
    (∀ b ∈ heardOn env c!"e" cmds 0, ∀ c ∈ onSocket c!"e" cmds, c.type = .tx → ¬ Wants c b) ∧
    (result env cmds).ret = some 2 ∧ (result env' cmds').ret = some 4 ∧
    errorsOn c!"f" (result env' cmds').events = 2 := by
  refine ⟨⟨⟨by unfold Fresh; decide +kernel, by unfold HasIface; decide +kernel, by decide +kernel⟩,
      ⟨by unfold Fresh; decide +kernel, by unfold HasIface; decide +kernel, by decide +kernel⟩,
      by decide +kernel, by decide +kernel, fun _ _ => rfl, fun _ _ => rfl, result_ok (by decide +kernel),
      result_ok (by decide +kernel), by decide +kernel, by decide +kernel, by decide +kernel, by decide +kernel,
      by decide +kernel, by decide +kernel⟩, ?_, by decide +kernel, by decide +kernel, by decide +kernel⟩
  intro b _ c hc ht
  have : ∀ c ∈ onSocket c!"e" [expect [1#8] none, expect [2#8] none], c.type ≠ .tx := by decide +kernel
  exact (this c hc ht).elim

end Ef.Props
