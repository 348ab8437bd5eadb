import Verif.Lemmas.Events

/-!
# Properties of a run: names, sockets, received frames and the error count (C53–C59)

A run is `execCmds env cmds` where `env` contains everything the operating system does: which sockets can be
opened, the clock, which sockets are ready, what is received and what each `send` returns. The theorems hold for
every such behaviour. `Ready` is what the parser guarantees for the commands of every command line
(`parsed_ready`).
-/

namespace Ef.Props

open Spec

/-- The commands of a command line meet the hypotheses of the theorems about runs. -/
theorem parsed_ready (hp : Bool) (argv : List CStr) (cmds : List Cmd) (h : parseCmds hp argv = .ok (some cmds)) :
    cmds.length ≤ 100 ∧ Ready cmds := ⟨(parseCmds_ok h).1, parseCmds_ready h⟩

/-! ## C53: named frames resolve to the first definition -/

theorem resolve_idem (all : List Cmd) (c : Cmd) : refersTo (resolve all c) = none ∨ resolve all c = c := by
  unfold resolve
  split
  · rename_i n hn
    split
    · rename_i d hd
      left
      have hdef := List.find?_some hd
      simp only [defines, Bool.and_eq_true] at hdef
      unfold refersTo
      rw [if_neg]
      rintro ⟨_, hb⟩
      simp only at hb
      rw [hb] at hdef
      simp at hdef
    · right; rfl
  · right; rfl

theorem refersTo_resolve {all : List Cmd} {c : Cmd} (h : unresolved all c = false) :
    refersTo (resolve all c) = none := by
  rcases resolve_idem all c with h1 | h1
  · exact h1
  · rw [h1]
    by_cases hr : refersTo c = none
    · exact hr
    · exfalso
      obtain ⟨n, hn⟩ := Option.ne_none_iff_exists'.mp hr
      unfold unresolved at h
      rw [hn] at h
      simp only [Bool.not_eq_false', List.any_eq_true] at h
      obtain ⟨d, hd, hdef⟩ := h
      cases hf : all.find? (defines n) with
      | none =>
        rw [List.find?_eq_none] at hf
        exact hf d hd hdef
      | some x =>
        have hx := List.find?_some hf
        simp only [defines, Bool.and_eq_true] at hx
        have hb : (resolve all c).buf = x.buf := by
          unfold resolve; rw [hn]; simp only [hf]
        rw [h1] at hb
        have : c.buf = none := by
          unfold refersTo at hn
          split at hn
          · rename_i hc; exact hc.2
          · simp at hn
        rw [this] at hb
        rw [← hb] at hx
        simp at hx

theorem resolve_name_cmd {all : List Cmd} {c : Cmd} (h : c.type = .name) : resolve all c = c := by
  unfold resolve refersTo
  rw [if_neg (by simp [h])]

theorem inventory_resolve (all cmds : List Cmd) : inventory (cmds.map (resolve all)) = inventory cmds := by
  induction cmds with
  | nil => rfl
  | cons c cs ih =>
    simp only [List.map_cons, inventory]
    rw [ih, resolve_type]
    by_cases h : c.type = .name
    · rw [resolve_name_cmd h]
    · rw [if_neg h, if_neg h]

/-- C53: a command that refers to a name behaves exactly like the same command with the frame of the first
definition of this name (its frame with padding, its bytes and its mask) — wherever on the command line that
definition is, and whatever the operating system does. -/
theorem C53_first_definition (env : Env) (cmds : List Cmd) (h : ∀ c ∈ cmds, unresolved cmds c = false) :
    execCmds env cmds = execCmds env (cmds.map (resolve cmds)) ∧
    ∀ pre d post c n, cmds = pre ++ d :: post → refersTo c = some n → defines n d = true →
      (∀ x ∈ pre, defines n x = false) →
      resolve cmds c = { c with frame := d.frame, buf := d.buf, mask := d.mask } := by
  constructor
  · have hnone : ∀ c ∈ cmds.map (resolve cmds), refersTo c = none := by
      intro c hc
      obtain ⟨x, hx, rfl⟩ := List.mem_map.mp hc
      exact refersTo_resolve (h x hx)
    have hid : (cmds.map (resolve cmds)).map (resolve (cmds.map (resolve cmds))) = cmds.map (resolve cmds) := by
      conv => rhs; rw [← List.map_id (cmds.map (resolve cmds))]
      apply List.map_congr_left
      intro c hc
      unfold resolve
      rw [hnone c hc]
      rfl
    have hu : (cmds.map (resolve cmds)).filter (unresolved (cmds.map (resolve cmds))) = [] := by
      rw [List.filter_eq_nil_iff]
      intro c hc
      unfold unresolved
      rw [hnone c hc]
      simp
    have hu0 : cmds.filter (unresolved cmds) = [] := by
      rw [List.filter_eq_nil_iff]
      intro c hc
      simp [h c hc]
    unfold execCmds
    rw [pairNames_eq, pairNames_eq, hid, hu, hu0, inventory_resolve]
  · intro pre d post c n hc hr hd hpre
    unfold resolve
    rw [hr]
    have : cmds.find? (defines n) = some d := by
      rw [hc, List.find?_append]
      have : pre.find? (defines n) = none := by
        rw [List.find?_eq_none]
        intro x hx
        simp [hpre x hx]
      rw [this]
      simp [hd]
    simp only [this]

/-- A command line where the name is used before it is defined, and defined twice. -/
example : let cmds : List Cmd := [{ type := .tx, arg0 := some c!"e", name := some c!"n", rep := 1 },
      { type := .name, name := some c!"n", buf := some [1#8] }, { type := .name, name := some c!"n", buf := some [2#8] }]
    (∀ c ∈ cmds, unresolved cmds c = false) ∧ (cmds.map (resolve cmds)).map (·.buf) = [some [1#8], some [1#8], some [2#8]] := by
  decide +kernel

/-! ## C54: unknown names -/

/-- C54: if some command refers to a name that no command defines, the result is the number of such commands; the
only effects are the printed inventory and one message for each of them: no socket is opened and no frame is
transmitted, printed by `hex` or written to a file. -/
theorem C54_unknown_names (env : Env) (cmds : List Cmd) (h : ∃ c ∈ cmds, unresolved cmds c = true) :
    ∃ r, execCmds env cmds = .ok r ∧ r.status = .finished ∧
      r.ret = some ((cmds.countP (unresolved cmds) : Nat) : Int) ∧ r.ret ≠ some 0 ∧ r.resources = [] ∧
      (∀ e ∈ r.events, (∃ n b m, e = .named n b m) ∨ ∃ n, e = .noSuchName n) ∧
      r.events.filter (fun | .noSuchName _ => true | _ => false) =
        (cmds.filter (unresolved cmds)).filterMap (fun c => (refersTo c).map Event.noSuchName) := by
  have hlen := unresolved_events cmds cmds
  have hpos : 0 < (cmds.filter (unresolved cmds)).length := by
    obtain ⟨c, hc, hu⟩ := h
    exact List.length_pos_of_mem (List.mem_filter.mpr ⟨hc, hu⟩)
  have hne : (cmds.filter (unresolved cmds)).filterMap (fun c => (refersTo c).map Event.noSuchName) ≠ [] := by
    intro he
    rw [he] at hlen
    simp only [List.length_nil] at hlen
    omega
  have hinv := inventory_shape
  have hns : ∀ e ∈ (cmds.filter (unresolved cmds)).filterMap (fun c => (refersTo c).map Event.noSuchName),
      ∃ n, e = .noSuchName n := by
    intro e he
    obtain ⟨c, _, hc⟩ := List.mem_filterMap.mp he
    obtain ⟨n, _, rfl⟩ := Option.map_eq_some_iff.mp hc
    exact ⟨n, rfl⟩
  refine ⟨⟨some (((cmds.filter (unresolved cmds)).filterMap (fun c => (refersTo c).map Event.noSuchName)).length : Nat),
    .finished, [], inventory cmds ++ (cmds.filter (unresolved cmds)).filterMap (fun c => (refersTo c).map Event.noSuchName)⟩,
    ?_, rfl, ?_, ?_, rfl, ?_, ?_⟩
  · unfold execCmds
    rw [pairNames_eq]
    simp only [hne, ne_eq, not_false_eq_true, ↓reduceIte]
  · simp only
    rw [List.countP_eq_length_filter]
    simp only [Option.some.injEq]
    exact_mod_cast hlen
  · simp only [ne_eq, Option.some.injEq]
    intro h0
    rw [hlen] at h0
    have : (cmds.filter (unresolved cmds)).length = 0 := by exact_mod_cast h0
    omega
  · intro e he
    rcases List.mem_append.mp he with he | he
    · exact .inl (hinv _ e he)
    · exact .inr (hns e he)
  · simp only [List.filter_append]
    have h1 : (inventory cmds).filter (fun | .noSuchName _ => true | _ => false) = [] := by
      rw [List.filter_eq_nil_iff]
      intro e he
      obtain ⟨_, _, _, rfl⟩ := hinv _ e he
      simp
    have h2 : ∀ l : List Event, (∀ e ∈ l, ∃ n, e = .noSuchName n) →
        l.filter (fun | .noSuchName _ => true | _ => false) = l := by
      intro l hl
      rw [List.filter_eq_self]
      intro e he
      obtain ⟨_, rfl⟩ := hl e he
      rfl
    rw [h1, h2 _ hns, List.nil_append]

/-- A command line with an unresolved name. -/
example : let cmds : List Cmd := [{ type := .tx, arg0 := some c!"e", name := some c!"n", rep := 1 },
      { type := .name, name := some c!"m", buf := some [1#8] }]
    (∃ c ∈ cmds, unresolved cmds c = true) ∧ cmds.countP (unresolved cmds) = 1 := by decide +kernel

/-! ## C55: one socket per interface -/

/-- C55: the commands are attached to sockets so that there is exactly one socket for each interface, in order of
first use, and its commands are exactly the tx and rx commands of this interface in command line order; every tx
or rx command is attached to exactly one socket. -/
theorem C55_grouped (cmds : List Cmd) (hr : Ready cmds) :
    ∃ rs, mapCmds cmds [] = .ok rs ∧ rs.length = (ifaces cmds).length ∧ (ifaces cmds).Nodup ∧
      (∀ (i : Nat) a, (ifaces cmds)[i]? = some a →
        rs[i]? = some { cmds := cmds.filter (fun c => ioIface c == some a), rxErrCnt := 0 }) ∧
      (∀ c ∈ cmds, c.type = .rx ∨ c.type = .tx → ∃ i : Nat, (∃ r, rs[i]? = some r ∧ c ∈ r.cmds) ∧
        ∀ (j : Nat) r, rs[j]? = some r → c ∈ r.cmds → j = i) := by
  have hm := mapCmds_group [] cmds hr.iface (by simpa using hr.slots)
  have hg0 : group [] = [] := rfl
  rw [hg0] at hm
  simp only [List.nil_append] at hm
  refine ⟨group cmds, hm, by simp [group], ifaces_nodup cmds, fun i a h => group_get h, ?_⟩
  intro c hc ht
  obtain ⟨a, ha⟩ := Option.isSome_iff_exists.mp (hr.iface c hc ht)
  have hio : ioIface c = some a := by unfold ioIface; rw [if_pos ht, ha]
  obtain ⟨i, hi⟩ := List.mem_iff_getElem?.mp ((ifaces_mem cmds a).mpr ⟨c, hc, hio⟩)
  refine ⟨i, ⟨_, group_get hi, List.mem_filter.mpr ⟨hc, by simp [hio]⟩⟩, ?_⟩
  intro j r hj hcr
  have hlt : j < (ifaces cmds).length := by
    have := (List.getElem?_eq_some_iff.mp hj).1
    simpa [group] using this
  have hgj := group_get (List.getElem?_eq_getElem hlt)
  rw [hj] at hgj
  simp only [Option.some.injEq] at hgj
  subst hgj
  have := (List.mem_filter.mp hcr).2
  rw [hio] at this
  simp only [beq_iff_eq, Option.some.injEq] at this
  have hi' : (ifaces cmds)[j]? = some a := by rw [List.getElem?_eq_getElem hlt, ← this]
  exact (List.getElem?_inj hlt (ifaces_nodup cmds)).mp (by rw [hi', hi])

/-- C55, observable effects: if all sockets can be opened, exactly one is opened for each interface, before
anything is received or transmitted. If one cannot be opened, the result is −1, the ones before it have been
opened, and nothing is received or transmitted. -/
theorem C55_sockets (env : Env) (cmds : List Cmd) (r : ExecRes) (hr : Ready cmds)
    (hu : ∀ c ∈ cmds, unresolved cmds c = false) (h : execCmds env cmds = .ok r) :
    r.events.filterMap (fun | .opened a => some a | _ => none) = (ifaces cmds).takeWhile env.canOpen ∧
    (∀ pre a post, r.events = pre ++ .opened a :: post → ∀ e ∈ pre, ifaceOf e = none ∧ ∀ t, e ≠ .wait t) ∧
    ((∃ a ∈ ifaces cmds, env.canOpen a = false) →
      r.ret = some (-1) ∧ r.status = .finished ∧ ∀ e ∈ r.events, ifaceOf e = none ∧ ∀ t, e ≠ .wait t) := by
  obtain ⟨pre, hpre, hcase⟩ := execCmds_parts hr hu h
  have hpre1 : pre.filterMap (fun | .opened a => some a | _ => none) = ([] : List CStr) := by
    rw [List.filterMap_eq_nil_iff]
    intro e he
    rcases hpre e he with ⟨_, _, _, rfl⟩ | ⟨_, _, rfl⟩ | ⟨_, _, rfl⟩ <;> rfl
  have hpre2 : ∀ e ∈ pre, ifaceOf e = none ∧ ∀ t, e ≠ .wait t := by
    intro e he
    rcases hpre e he with ⟨_, _, _, rfl⟩ | ⟨_, _, rfl⟩ | ⟨_, _, rfl⟩ <;> exact ⟨rfl, fun _ h => Event.noConfusion h⟩
  have hop : ∀ l : List CStr, (l.map Event.opened).filterMap (fun | .opened a => some a | _ => none) = l := by
    intro l
    induction l with
    | nil => rfl
    | cons a l ih => rw [List.map_cons, List.filterMap_cons, ih]
  have hop2 : ∀ l : List CStr, ∀ e ∈ l.map Event.opened, ifaceOf e = none ∧ ∀ t, e ≠ .wait t := by
    intro l e he
    obtain ⟨a, _, rfl⟩ := List.mem_map.mp he
    exact ⟨rfl, fun _ h => Event.noConfusion h⟩
  -- nothing after the openings opens a socket
  have hsplit : ∀ (l : List CStr) (rest : List Event), (∀ e ∈ rest, ∀ a, e ≠ .opened a) →
      r.events = pre ++ l.map .opened ++ rest →
      r.events.filterMap (fun | .opened a => some a | _ => none) = l ∧
      ∀ p a q, r.events = p ++ .opened a :: q → ∀ e ∈ p, ifaceOf e = none ∧ ∀ t, e ≠ .wait t := by
    intro l rest hrest hev
    have hrest1 : rest.filterMap (fun | .opened a => some a | _ => none) = ([] : List CStr) := by
      rw [List.filterMap_eq_nil_iff]
      intro e he
      cases e <;> first | rfl | exact absurd rfl (hrest _ he _)
    refine ⟨by rw [hev, List.filterMap_append, List.filterMap_append, hpre1, hop, hrest1]; simp, ?_⟩
    intro p a q hpq e he
    rw [hev] at hpq
    rcases List.append_eq_append_iff.mp hpq with ⟨m, hm1, hm2⟩ | ⟨m, hm1, hm2⟩
    · -- the opening would be after the openings
      have : Event.opened a ∈ rest := by rw [hm2]; simp
      exact absurd rfl (hrest _ this a)
    · have : e ∈ pre ++ l.map .opened := by rw [hm1]; exact List.mem_append_left _ he
      rcases List.mem_append.mp this with h1 | h1
      · exact hpre2 e h1
      · exact hop2 l e h1
  rcases hcase with ⟨hall, hret, hst, hev⟩ | ⟨hall, el, hml, hfin, hnf⟩
  · have := hsplit ((ifaces cmds).takeWhile env.canOpen) [] (by simp) (by rw [hev]; simp)
    refine ⟨this.1, this.2, fun _ => ⟨hret, hst, ?_⟩⟩
    intro e he
    rw [hev] at he
    rcases List.mem_append.mp he with h1 | h1
    · exact hpre2 e h1
    · exact hop2 _ e h1
  · rw [takeWhile_all hall]
    have hel := mainLoop_shape hml
    have hck : ∀ rs : List Resource, ∀ e ∈ (checkResults rs).2, ∀ a, e ≠ .opened a := by
      intro rs e he a
      rw [checkResults_eq] at he
      simp only [List.mem_flatMap] at he
      obtain ⟨q, _, c, _, he⟩ := he
      unfold noRxEvent at he
      split at he
      · simp only [List.mem_singleton] at he
        rw [he]
        simp
      · simp at he
    have hno : (∃ a ∈ ifaces cmds, env.canOpen a = false) → False := by
      rintro ⟨a, ha, hf⟩
      rw [List.all_eq_true.mp hall a ha] at hf
      exact Bool.noConfusion hf
    by_cases hst : r.status = .finished
    · have := hsplit (ifaces cmds) (el ++ (checkResults r.resources).2) (by
        intro e he a
        rcases List.mem_append.mp he with h1 | h1
        · exact hel e h1 a
        · exact hck _ e h1 a) (by rw [(hfin hst).1]; simp)
      exact ⟨this.1, this.2, fun h => (hno h).elim⟩
    · have := hsplit (ifaces cmds) el hel (hnf hst).1
      exact ⟨this.1, this.2, fun h => (hno h).elim⟩

/-! ## C56: crediting received frames -/

/-- The commands of interface `a` with the named frames filled in. -/
def onSocket (a : CStr) (cmds : List Cmd) : List Cmd := cmdsOn a (cmds.map (resolve cmds))

/-- C56: on each interface there is an assignment `out` of the received frames to the commands (`Credited`): every
frame is credited to at most one command, every command gets at most one frame, the frame and the command match,
and the command is the first open one that the frame matches; only a frame that matches no open expectation is
credited to nobody. What is printed about the received frames, in order of their arrival, and at the end about the
missing ones is exactly what follows from this assignment. All frames that arrive until the deadline or until
waiting fails are considered. -/
theorem C56_credit (env : Env) (cmds : List Cmd) (r : ExecRes) (hr : Ready cmds)
    (hu : ∀ c ∈ cmds, unresolved cmds c = false) (hopen : ∀ a ∈ ifaces cmds, env.canOpen a = true)
    (h : execCmds env cmds = .ok r) :
    ∃ n, n ≤ (usable (deadline env) env.hist).length ∧
      (r.status ≠ .sending → (∃ c ∈ cmds, c.type = .rx) → n = (usable (deadline env) env.hist).length) ∧
      ∀ (i : Nat) a, (ifaces cmds)[i]? = some a →
        ∃ out, Credited (onSocket a cmds) (heard env (onSocket a cmds) i n) out ∧
          r.events.filter (isRx a) = rxReport a (onSocket a cmds) (heard env (onSocket a cmds) i n) out ∧
          r.events.filter (isNoRx a) =
            if r.status = .finished then (uncredited (onSocket a cmds) out).map (noRxReport a) else [] := by
  obtain ⟨⟨n, hn, hfull, hs⟩, _⟩ := exec_report hr hu hopen h
  refine ⟨n, hn, hfull, fun i a hi => ?_⟩
  obtain ⟨ops, r', hS⟩ := hs i a hi
  have hf : Fresh (onSocket a cmds) := cmdsOn_fresh (hr.resolve cmds).fresh a
  have hc := hS.run.credited hf
  rw [hS.frames] at hc
  have hon : ∀ (p : Event → Bool), (∀ e, p e = true → ifaceOf e = some a) →
      r.events.filter p = (onIface a r.events).filter p := by
    intro p hp
    unfold onIface
    rw [List.filter_filter]
    apply List.filter_congr
    intro e _
    cases he : p e with
    | false => simp
    | true => simp [hp e he]
  have hrx : ∀ l : List Cmd, (l.map (noRxReport a)).filter (isRx a) = [] := by
    intro l
    rw [List.filter_eq_nil_iff]
    intro e he
    obtain ⟨c, _, rfl⟩ := List.mem_map.mp he
    simp [noRxReport, isRx]
  have hnrx : ∀ l : List Cmd, (l.map (noRxReport a)).filter (isNoRx a) = l.map (noRxReport a) := by
    intro l
    rw [List.filter_eq_self]
    intro e he
    obtain ⟨c, _, rfl⟩ := List.mem_map.mp he
    simp [noRxReport, isNoRx]
  refine ⟨rxOuts ops, hc, ?_, ?_⟩
  · rw [hon (isRx a) (by intro e he; cases e <;> simp_all [isRx, ifaceOf]), hS.events, List.filter_append,
      opEvents_rx, hS.frames]
    split
    · rw [hrx]; simp [onSocket]
    · simp [onSocket]
  · rw [hon (isNoRx a) (by intro e he; cases e <;> simp_all [isNoRx, ifaceOf]), hS.events, List.filter_append,
      opEvents_noRx]
    split
    · rw [hnrx]; simp [onSocket]
    · simp

/-! ## C57: the error count -/

/-- C57: the result of a run is the number of received frames that were credited to nobody plus the number of
expected frames that did not come, summed over the interfaces; this is also the number of error messages printed.
(A run that has not ended has no result.) -/
theorem C57_error_count (env : Env) (cmds : List Cmd) (r : ExecRes) (hr : Ready cmds)
    (hu : ∀ c ∈ cmds, unresolved cmds c = false) (hopen : ∀ a ∈ ifaces cmds, env.canOpen a = true)
    (h : execCmds env cmds = .ok r) :
    (r.status ≠ .finished → r.ret = none) ∧
    (r.status = .finished → r.ret = some ((r.events.countP isError : Nat) : Int) ∧
      ∃ (n : Nat) (out : Nat → List (Option Nat)), ((∃ c ∈ cmds, c.type = .rx) → n = (usable (deadline env) env.hist).length) ∧
        (∀ (i : Nat) a, (ifaces cmds)[i]? = some a →
          Credited (onSocket a cmds) (heard env (onSocket a cmds) i n) (out i)) ∧
        r.ret = some (((ifaces cmds).zipIdx.map (fun p =>
          (out p.2).count none + (uncredited (onSocket p.1 cmds) (out p.2)).length)).sum : Nat)) := by
  obtain ⟨⟨n, hn, hfull, hs⟩, hfin, hnf, hlen, hsum⟩ := exec_report hr hu hopen h
  refine ⟨hnf, fun hst => ⟨hfin hst, n, ?_⟩⟩
  have hex : ∀ i : Nat, ∃ ops, ∀ a, (ifaces cmds)[i]? = some a → ∃ r', SocketRun env (onSocket a cmds) i a r n ops r' := by
    intro i
    cases hi : (ifaces cmds)[i]? with
    | none => exact ⟨[], fun a ha => by simp at ha⟩
    | some a =>
      obtain ⟨ops, r', hS⟩ := hs i a hi
      refine ⟨ops, fun a' ha' => ?_⟩
      simp only [Option.some.injEq] at ha'
      subst ha'
      exact ⟨r', hS⟩
  refine ⟨fun i => rxOuts (Classical.choose (hex i)), hfull (by rw [hst]; exact LoopEnd.noConfusion), ?_, ?_⟩
  · intro i a hi
    obtain ⟨r', hS⟩ := Classical.choose_spec (hex i) a hi
    have hc := hS.run.credited (cmdsOn_fresh (hr.resolve cmds).fresh a)
    rw [hS.frames] at hc
    exact hc
  · rw [hsum hst]
    congr 3
    apply List.ext_getElem?
    intro i
    rw [List.getElem?_map, List.getElem?_map, List.getElem?_zipIdx]
    cases hi : (ifaces cmds)[i]? with
    | none =>
      have : r.resources[i]? = none := by
        rw [List.getElem?_eq_none_iff] at hi ⊢
        omega
      rw [this]
      rfl
    | some a =>
      obtain ⟨r', hS⟩ := Classical.choose_spec (hex i) a hi
      have hnm : Named a r' := by
        refine Named.same (r := { cmds := onSocket a cmds }) ?_ hS.run.same
        have : a ∈ ifaces (cmds.map (resolve cmds)) := by
          rw [ifaces_resolve]; exact List.mem_of_getElem? hi
        exact cmdsOn_named this
      rw [hS.state]
      simp only [Option.map_some, Option.some.injEq, Nat.zero_add]
      rw [hS.err, (missing_report (cmdsOn_fresh (hr.resolve cmds).fresh a) hS.run hnm).2]
      rfl

/-! ## C58: success means exactly the expected traffic -/

/-- The number of error messages about an interface. -/
def errorsOn (a : CStr) (es : List Event) : Nat := es.countP (fun e => isError e && ifaceOf e == some a)

/-- **C58, full statement.** -/
def C58_statement : Prop :=
  ∀ (env : Env) (cmds : List Cmd) (r : ExecRes) (i : Nat) (a : CStr), Ready cmds →
    (∀ c ∈ cmds, unresolved cmds c = false) → (∀ a ∈ ifaces cmds, env.canOpen a = true) →
    execCmds env cmds = .ok r → r.status = .finished → (ifaces cmds)[i]? = some a →
    (∀ c ∈ onSocket a cmds, c.type = .rx) →
    (errorsOn a r.events = 0 ↔
      Paired (expectations (onSocket a cmds))
        (heard env (onSocket a cmds) i (usable (deadline env) env.hist).length))

theorem errorsOn_eq {env : Env} {cmds : List Cmd} {r : ExecRes} (hr : Ready cmds)
    (hu : ∀ c ∈ cmds, unresolved cmds c = false) (hopen : ∀ a ∈ ifaces cmds, env.canOpen a = true)
    (h : execCmds env cmds = .ok r) (hst : r.status = .finished) (i : Nat) (a : CStr)
    (hi : (ifaces cmds)[i]? = some a) (hrx : ∀ c ∈ onSocket a cmds, c.type = .rx) :
    ∃ out, Credited (onSocket a cmds)
        (heard env (onSocket a cmds) i (usable (deadline env) env.hist).length) out ∧
      errorsOn a r.events = out.count none + (uncredited (onSocket a cmds) out).length ∧
      r.events.filter (isNoRx a) = (uncredited (onSocket a cmds) out).map (noRxReport a) := by
  obtain ⟨⟨n, hn, hfull, hs⟩, _⟩ := exec_report hr hu hopen h
  obtain ⟨ops, r', hS⟩ := hs i a hi
  have hf : Fresh (onSocket a cmds) := cmdsOn_fresh (hr.resolve cmds).fresh a
  have hc := hS.run.credited hf
  rw [hS.frames] at hc
  -- there is an rx command
  have hex : ∃ c ∈ cmds, c.type = .rx := by
    have ha := (ifaces_mem _ a).mp (by rw [ifaces_resolve cmds cmds]; exact List.mem_of_getElem? hi :
      a ∈ ifaces (cmds.map (resolve cmds)))
    obtain ⟨c, hc, hio⟩ := ha
    have ht := hrx c (List.mem_filter.mpr ⟨hc, by simp [hio]⟩)
    obtain ⟨c0, hc0, rfl⟩ := List.mem_map.mp hc
    exact ⟨c0, hc0, by rw [resolve_type] at ht; exact ht⟩
  have hn' := hfull (by rw [hst]; exact LoopEnd.noConfusion) hex
  subst hn'
  refine ⟨rxOuts ops, hc, ?_, ?_⟩
  · have : errorsOn a r.events = errors (onIface a r.events) := by
      unfold errorsOn errors onIface
      rw [List.countP_filter]
    rw [this, hS.events, if_pos hst, errors_append, errors_ops a (credited_range hc)]
    unfold misses
    congr 1
    have key : ∀ l : List Cmd, errors (l.map (noRxReport a)) = l.length := by
      intro l
      induction l with
      | nil => rfl
      | cons c l ih =>
        have e : errors ((c :: l).map (noRxReport a)) = errors (l.map (noRxReport a)) + 1 := by
          rw [List.map_cons]
          unfold errors
          rw [List.countP_cons_of_pos]
          rfl
        rw [e, ih]; rfl
    rw [key]
    rfl
  · have hon : r.events.filter (isNoRx a) = (onIface a r.events).filter (isNoRx a) := by
      unfold onIface
      rw [List.filter_filter]
      apply List.filter_congr
      intro e _
      cases he : isNoRx a e with
      | false => simp
      | true => cases e <;> simp_all [isNoRx, ifaceOf]
    rw [hon, hS.events, List.filter_append, opEvents_noRx, if_pos hst, List.nil_append, List.filter_eq_self.mpr]
    · rfl
    · intro e he
      obtain ⟨c, _, rfl⟩ := List.mem_map.mp he
      simp [noRxReport, isNoRx]

/-- **C58, the part that holds**: success always means that the received frames can be paired one-to-one with the
expectations. Conversely, if they can be paired, the run succeeds, provided that no frame matches two expectations
that differ (always so without masks, see `exact_no_overlap`). Missing: with overlapping masks, a possible pairing
may be missed (false, see `C58_false`). -/
theorem C58_success_partial (env : Env) (cmds : List Cmd) (r : ExecRes) (i : Nat) (a : CStr) (hr : Ready cmds)
    (hu : ∀ c ∈ cmds, unresolved cmds c = false) (hopen : ∀ a ∈ ifaces cmds, env.canOpen a = true)
    (h : execCmds env cmds = .ok r) (hst : r.status = .finished) (hi : (ifaces cmds)[i]? = some a)
    (hrx : ∀ c ∈ onSocket a cmds, c.type = .rx) :
    (errorsOn a r.events = 0 →
      Paired (expectations (onSocket a cmds))
        (heard env (onSocket a cmds) i (usable (deadline env) env.hist).length)) ∧
    (NoOverlap (onSocket a cmds) →
      Paired (expectations (onSocket a cmds))
        (heard env (onSocket a cmds) i (usable (deadline env) env.hist).length) →
      errorsOn a r.events = 0) := by
  obtain ⟨out, hc, he, _⟩ := errorsOn_eq hr hu hopen h hst i a hi hrx
  constructor
  · intro h0
    rw [he] at h0
    exact credited_paired hc hrx (by omega) (List.length_eq_zero_iff.mp (by omega))
  · intro hno hp
    obtain ⟨h1, h2⟩ := paired_credited hc hrx hno hp
    rw [he, h1, h2]
    rfl

/-- Expectations without masks and padding never overlap. -/
theorem exact_no_overlap (cs : List Cmd)
    (h : ∀ c ∈ cs, c.mask = none ∧ ∀ f, c.frame = some f → f.padding = 0) : NoOverlap cs := noOverlap_exact h

/-- Frames that arrive one after the other, then a timeout. -/
def arrivals (F : List Buf) : List Step :=
  F.map (fun b => Step.mk 1 ⟨0, 0⟩ (fun _ => true) (fun _ => true) (fun _ => some ⟨b, none⟩) (fun _ => 0)) ++
  [Step.mk 0 ⟨0, 0⟩ (fun _ => false) (fun _ => false) (fun _ => none) (fun _ => 0)]

/-- An environment with these arrivals. -/
def listening (F : List Buf) : Env := Env.mk ⟨true, true⟩ (fun _ => true) ⟨0, 0⟩ 100 (arrivals F) 10

/-- An empty frame object, for expectations without padding. -/
def plainFrame : Frame := {}

/-- An expectation of the bytes `b` with a mask. -/
def expect (b : Buf) (m : Option Buf) : Cmd :=
  { type := .rx, arg0 := some c!"e", frame := some plainFrame, buf := some b, mask := m }

/-- The result of a run that ends normally. -/
def result (env : Env) (cmds : List Cmd) : ExecRes := (execCmds env cmds).get?.getD ⟨none, .waiting, [], []⟩

theorem result_ok {env : Env} {cmds : List Cmd} (h : (execCmds env cmds).get?.isSome = true) :
    execCmds env cmds = .ok (result env cmds) := by
  unfold result
  cases he : execCmds env cmds with
  | ok r => rfl
  | _ => rw [he] at h; simp [Out.get?] at h

/-- **C58 does not hold** with overlapping masks: the first expectation accepts any byte and takes the frame
which the second one needs. -/
theorem C58_false : ¬ C58_statement := by
  intro hs
  have h := hs (listening [[1#8], [2#8]]) [expect [0#8] (some [0#8]), expect [1#8] none]
    (result (listening [[1#8], [2#8]]) [expect [0#8] (some [0#8]), expect [1#8] none]) 0 c!"e"
    ⟨by unfold Fresh; decide +kernel, by unfold HasIface; decide +kernel, by decide +kernel⟩
    (by decide +kernel) (fun _ _ => rfl) (result_ok (by decide +kernel)) (by decide +kernel) (by decide +kernel)
    (by decide +kernel)
  have h2 := h.mpr ⟨[expect [1#8] none, expect [0#8] (some [0#8])], ?_, ?_, ?_⟩
  · revert h2; decide +kernel
  · exact List.Perm.swap _ _ _
  · decide +kernel
  · intro k c b hc hb
    have hF : heard (listening [[1#8], [2#8]]) (onSocket c!"e" [expect [0#8] (some [0#8]), expect [1#8] none]) 0
        (usable (deadline (listening [[1#8], [2#8]])) (listening [[1#8], [2#8]]).hist).length = [[1#8], [2#8]] := by
      decide +kernel
    rw [hF] at hb
    match k with
    | 0 =>
      simp only [List.getElem?_cons_zero, Option.some.injEq] at hc hb
      subst hc hb
      exact ⟨[1#8], plainFrame, rfl, rfl, by decide, [1#8], [], rfl, rfl, rfl, fun _ _ => rfl⟩
    | 1 =>
      simp only [List.getElem?_cons_succ, List.getElem?_cons_zero, Option.some.injEq] at hc hb
      subst hc hb
      refine ⟨[0#8], plainFrame, rfl, rfl, by decide, [2#8], [], rfl, rfl, rfl, fun i hi => ?_⟩
      by_cases h8 : i < 8
      · have := hi (by simpa using h8)
        revert this
        have key : ∀ i < 8, bit [0#8] i = true → bit [2#8] i = bit [0#8] i := by decide +kernel
        exact key i h8
      · rw [bit_of_ge, bit_of_ge]
        · simp; omega
        · simp; omega
    | k + 2 => simp at hc

/-- Non-vacuity of `C58_success_partial` and `C56_credit`: two expectations, met in the other order. -/
example : let cmds := [expect [1#8] none, expect [2#8] none]
    Ready cmds ∧ (∀ c ∈ cmds, unresolved cmds c = false) ∧
    (execCmds (listening [[2#8], [1#8]]) cmds).get?.isSome ∧
    (result (listening [[2#8], [1#8]]) cmds).status = .finished ∧ (ifaces cmds)[0]? = some c!"e" ∧
    NoOverlap (onSocket c!"e" cmds) ∧ errorsOn c!"e" (result (listening [[2#8], [1#8]]) cmds).events = 0 ∧
    (result (listening [[2#8]]) cmds).ret = some 1 ∧ (result (listening [[2#8], [3#8]]) cmds).ret = some 2 := by
  refine ⟨⟨by unfold Fresh; decide +kernel, by unfold HasIface; decide +kernel, by decide +kernel⟩,
    by decide +kernel, by decide +kernel, by decide +kernel, by decide +kernel, exact_no_overlap _ ?_,
    by decide +kernel, by decide +kernel, by decide +kernel⟩
  intro c hc
  have : c = expect [1#8] none ∨ c = expect [2#8] none := by
    have e : onSocket c!"e" [expect [1#8] none, expect [2#8] none] = [expect [1#8] none, expect [2#8] none] := by
      decide +kernel
    rw [e] at hc
    simpa using hc
  rcases this with rfl | rfl
  · exact ⟨rfl, fun f hf => by simp only [expect, Option.some.injEq] at hf; subst hf; rfl⟩
  · exact ⟨rfl, fun f hf => by simp only [expect, Option.some.injEq] at hf; subst hf; rfl⟩

/-! ## C59: the order of arrival does not matter -/

/-- C59: two runs of the same commands where interface `a` (index `i`) gets the same frames, in any order, report
the same number of errors about it, and the same missing frames — provided that no frame matches two different
expectations, in particular (`exact_no_overlap`) if they have no masks. The rest of the environment of the two runs,
such as the traffic of other interfaces and the clock, may be different. -/
theorem C59_arrival_order (env env' : Env) (cmds : List Cmd) (r r' : ExecRes) (i : Nat) (a : CStr) (hr : Ready cmds)
    (hu : ∀ c ∈ cmds, unresolved cmds c = false) (hopen : ∀ a ∈ ifaces cmds, env.canOpen a = true)
    (hopen' : ∀ a ∈ ifaces cmds, env'.canOpen a = true) (h : execCmds env cmds = .ok r)
    (h' : execCmds env' cmds = .ok r') (hst : r.status = .finished) (hst' : r'.status = .finished)
    (hi : (ifaces cmds)[i]? = some a) (hrx : ∀ c ∈ onSocket a cmds, c.type = .rx) (hno : NoOverlap (onSocket a cmds))
    (hperm : (heard env (onSocket a cmds) i (usable (deadline env) env.hist).length).Perm
      (heard env' (onSocket a cmds) i (usable (deadline env') env'.hist).length)) :
    errorsOn a r.events = errorsOn a r'.events ∧ r.events.filter (isNoRx a) = r'.events.filter (isNoRx a) := by
  obtain ⟨out, hc, he, hm⟩ := errorsOn_eq hr hu hopen h hst i a hi hrx
  obtain ⟨out', hc', he', hm'⟩ := errorsOn_eq hr hu hopen' h' hst' i a hi hrx
  obtain ⟨h1, h2⟩ := credited_order hc hc' hrx hno hperm
  rw [he, he', hm, hm', h1, h2]
  exact ⟨rfl, rfl⟩

/-- With overlapping masks the order does matter: the restriction to exact expectations is needed. -/
example : let cmds := [expect [0#8] (some [0#8]), expect [1#8] none]
    (result (listening [[1#8], [2#8]]) cmds).ret = some 2 ∧ (result (listening [[2#8], [1#8]]) cmds).ret = some 0 := by
  decide +kernel

end Ef.Props
