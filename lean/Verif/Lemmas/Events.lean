import Verif.Lemmas.Credit

/-!
# The parts of a run and the shape of their events
-/

namespace Ef

open Spec

theorem inventory_shape (l : List Cmd) : ∀ e ∈ inventory l, ∃ n b m, e = .named n b m := by
  induction l with
  | nil => simp [inventory]
  | cons c l ih =>
    intro e he
    unfold inventory at he
    split at he
    · split at he
      · rcases List.mem_cons.mp he with rfl | he
        · exact ⟨_, _, _, rfl⟩
        · exact ih e he
      · exact ih e he
    · exact ih e he

theorem pcapEvents_shape {cmds : List Cmd} {es} (h : pcapEvents cmds = .ok es) :
    ∀ e ∈ es, ∃ a b, e = .pcap a b := by
  induction cmds generalizing es with
  | nil => simp only [pcapEvents, Out.ok.injEq] at h; subst h; simp
  | cons c cs ih =>
    unfold pcapEvents at h
    split at h
    · split at h
      · simp only [Out.bind_eq_ok] at h
        obtain ⟨es', h1, h2⟩ := h
        simp only [Out.ok.injEq] at h2
        subst h2
        intro e he
        rcases List.mem_cons.mp he with rfl | he
        · exact ⟨_, _, rfl⟩
        · exact ih h1 e he
      · simp at h
    · exact ih h

theorem pcapAll_shape {cfg : Config} {cmds : List Cmd} {es} (h : pcapAll cfg cmds = .ok es) :
    ∀ e ∈ es, ∃ a b, e = .pcap a b := by
  unfold pcapAll at h
  split at h
  · exact pcapEvents_shape h
  · simp only [Out.ok.injEq] at h; subst h; simp

theorem hexEvents_shape {cmds : List Cmd} {es} (h : hexEvents cmds = .ok es) :
    ∀ e ∈ es, ∃ b m, e = .hex b m := by
  induction cmds generalizing es with
  | nil => simp only [hexEvents, Out.ok.injEq] at h; subst h; simp
  | cons c cs ih =>
    unfold hexEvents at h
    split at h
    · split at h
      · exact ih h
      · split at h
        · simp only [Out.bind_eq_ok] at h
          obtain ⟨es', h1, h2⟩ := h
          simp only [Out.ok.injEq] at h2
          subst h2
          intro e he
          rcases List.mem_cons.mp he with rfl | he
          · exact ⟨_, _, rfl⟩
          · exact ih h1 e he
        · split at h
          · simp only [Out.bind_eq_ok] at h
            obtain ⟨es', h1, h2⟩ := h
            simp only [Out.ok.injEq] at h2
            subst h2
            intro e he
            rcases List.mem_cons.mp he with rfl | he
            · exact ⟨_, _, rfl⟩
            · exact ih h1 e he
          · simp at h
    · exact ih h

/-- An event before the traffic: names, pcap files, hex output. -/
def Early (e : Event) : Prop := (∃ n b m, e = .named n b m) ∨ (∃ a b, e = .pcap a b) ∨ ∃ b m, e = .hex b m

theorem takeWhile_all {α : Type} {p : α → Bool} {l : List α} (h : l.all p = true) : l.takeWhile p = l := by
  induction l with
  | nil => rfl
  | cons x l ih =>
    simp only [List.all_cons, Bool.and_eq_true] at h
    rw [List.takeWhile_cons, h.1, ih h.2]
    rfl

/-- The parts of a run without unresolved names. -/
theorem execCmds_parts {env cmds r} (hr : Ready cmds) (hu : ∀ c ∈ cmds, unresolved cmds c = false)
    (h : execCmds env cmds = .ok r) :
    ∃ pre, (∀ e ∈ pre, Early e) ∧
      ((ifaces cmds).all env.canOpen = false ∧ r.ret = some (-1) ∧ r.status = .finished ∧
        r.events = pre ++ ((ifaces cmds).takeWhile env.canOpen).map .opened ∨
      (ifaces cmds).all env.canOpen = true ∧ ∃ el,
        mainLoop env.cfg env.fuel (deadline env) env.hist (timeoutVal env.timeoutMs)
          (group (cmds.map (resolve cmds))) = .ok (r.status, r.resources, el) ∧
        (r.status = .finished → r.events = pre ++ (ifaces cmds).map .opened ++ el ++ (checkResults r.resources).2 ∧
          r.ret = some ((checkResults r.resources).1 : Int)) ∧
        (r.status ≠ .finished → r.events = pre ++ (ifaces cmds).map .opened ++ el ∧ r.ret = none)) := by
  obtain ⟨r0, h0, rfl⟩ := execCmds_ok hu h
  have hr' := hr.resolve cmds
  have hif := ifaces_resolve cmds cmds
  unfold execResolved at h0
  simp only [Out.bind_eq_ok] at h0
  obtain ⟨ep, hp, eh, hh, rs, hm, ⟨eo, ok⟩, ho, h0⟩ := h0
  have hm' := mapCmds_group [] (cmds.map (resolve cmds)) hr'.iface (by simpa using hr'.slots)
  rw [show group [] = [] from rfl, hm] at hm'
  simp only [List.nil_append, Out.ok.injEq] at hm'
  subst hm'
  rw [openAll_eq env.canOpen (group_named _), hif] at ho
  simp only [Out.ok.injEq, Prod.mk.injEq] at ho
  obtain ⟨rfl, rfl⟩ := ho
  refine ⟨inventory cmds ++ ep ++ eh, ?_, ?_⟩
  · intro e he
    simp only [List.mem_append] at he
    rcases he with (he | he) | he
    · exact .inl (inventory_shape _ e he)
    · exact .inr (.inl (pcapAll_shape hp e he))
    · exact .inr (.inr (hexEvents_shape hh e he))
  · cases hall : (ifaces cmds).all env.canOpen with
    | false =>
      rw [hall] at h0
      simp only [Bool.false_eq_true, not_false_eq_true, ↓reduceIte, Out.ok.injEq] at h0
      subst h0
      exact .inl ⟨rfl, rfl, rfl, by simp⟩
    | true =>
      rw [hall] at h0
      simp only [not_true_eq_false, ↓reduceIte, Out.bind_eq_ok] at h0
      obtain ⟨⟨st, rs', el⟩, hml, h0⟩ := h0
      right
      refine ⟨rfl, el, ?_⟩
      have htw : (ifaces cmds).takeWhile env.canOpen = ifaces cmds := by
        exact takeWhile_all hall
      rw [htw] at h0
      unfold deadline
      cases st with
      | finished =>
        simp only [Out.ok.injEq] at h0
        subst h0
        exact ⟨hml, fun _ => ⟨by simp, rfl⟩, fun h => absurd rfl h⟩
      | waiting =>
        simp only [Out.ok.injEq] at h0
        subst h0
        exact ⟨hml, fun h => LoopEnd.noConfusion h, fun _ => ⟨by simp, rfl⟩⟩
      | sending =>
        simp only [Out.ok.injEq] at h0
        subst h0
        exact ⟨hml, fun h => LoopEnd.noConfusion h, fun _ => ⟨by simp, rfl⟩⟩

/-! ## No socket is opened later, and no file is written -/

/-- Not the opening of a socket, and nothing written to a file. -/
def Calm (e : Event) : Prop := (∀ a, e ≠ .opened a) ∧ ∀ a b, e ≠ .pcap a b

theorem txOneQ_calm (c : Cmd) (b a res q) : ∀ e ∈ (txOneQ c b a res q).2.1, Calm e := by
  unfold txOneQ
  split <;> simp [Calm]

theorem rxResource_calm {cfg s i r r' e} (h : rxResource cfg s i r = .ok (r', e)) : ∀ x ∈ e, Calm x := by
  unfold rxResource at h
  split at h
  · split at h
    · simp only [Out.ok.injEq, Prod.mk.injEq] at h; rw [← h.2]; simp [Calm]
    · unfold rxFrame at h
      simp only at h
      split at h
      · simp only [Out.ok.injEq, Prod.mk.injEq] at h; rw [← h.2]; simp [Calm]
      · simp only [Out.bind_eq_ok] at h
        obtain ⟨b, _, o, _, h⟩ := h
        split at h
        · split at h
          · simp only [Out.ok.injEq, Prod.mk.injEq] at h; rw [← h.2]; simp [Calm]
          · simp at h
        · simp only [Out.bind_eq_ok] at h
          obtain ⟨a, _, h⟩ := h
          simp only [Out.ok.injEq, Prod.mk.injEq] at h; rw [← h.2]; simp [Calm]
  · simp only [Out.ok.injEq, Prod.mk.injEq] at h; rw [← h.2]; simp [Calm]

theorem rxAll_calm {cfg s i rs rs' es} (h : rxAll cfg s i rs = .ok (rs', es)) : ∀ x ∈ es, Calm x := by
  induction rs generalizing i rs' es with
  | nil => simp only [rxAll, Out.ok.injEq, Prod.mk.injEq] at h; rw [← h.2]; simp [Calm]
  | cons r rs ih =>
    unfold rxAll at h
    simp only [Out.bind_eq_ok] at h
    obtain ⟨⟨r', e⟩, h1, ⟨rs1, es1⟩, h2, h3⟩ := h
    simp only [Out.ok.injEq, Prod.mk.injEq] at h3
    rw [← h3.2]
    intro x hx
    rcases List.mem_append.mp hx with hx | hx
    · exact rxResource_calm h1 x hx
    · exact ih h2 x hx

theorem txRound_calm {w send i k rs rs' k' es more} (h : txRound w send i k rs = .ok (rs', k', es, more)) :
    ∀ x ∈ es, Calm x := by
  induction rs generalizing i k rs' k' es more with
  | nil => simp only [txRound, Out.ok.injEq, Prod.mk.injEq] at h; rw [← h.2.2.1]; simp [Calm]
  | cons r rs ih =>
    unfold txRound at h
    split at h
    · simp only [Out.bind_eq_ok] at h
      obtain ⟨o, h1, h⟩ := h
      rcases txFirst_ok h1 with ⟨rfl, _⟩ | ⟨j, c, b, a, rfl, _⟩
      · simp only [Out.bind_eq_ok] at h
        obtain ⟨⟨rs1, k1, es1, m1⟩, h2, h3⟩ := h
        simp only [Out.ok.injEq, Prod.mk.injEq] at h3
        rw [← h3.2.2.1]
        exact ih h2
      · simp only [Out.bind_eq_ok] at h
        obtain ⟨⟨rs1, k1, es1, m1⟩, h2, h3⟩ := h
        simp only [Out.ok.injEq, Prod.mk.injEq] at h3
        rw [← h3.2.2.1]
        intro x hx
        rcases List.mem_append.mp hx with hx | hx
        · rw [txOne_eq] at hx
          exact txOneQ_calm _ _ _ _ _ x hx
        · exact ih h2 x hx
    · simp only [Out.bind_eq_ok] at h
      obtain ⟨⟨rs1, k1, es1, m1⟩, h2, h3⟩ := h
      simp only [Out.ok.injEq, Prod.mk.injEq] at h3
      rw [← h3.2.2.1]
      exact ih h2

theorem txLoop_calm {w send} : ∀ {fuel k rs fin rs' es}, txLoop w send fuel k rs = .ok (fin, rs', es) →
    ∀ x ∈ es, Calm x := by
  intro fuel
  induction fuel with
  | zero => intro k rs fin rs' es h; simp only [txLoop, Out.ok.injEq, Prod.mk.injEq] at h; rw [← h.2.2]; simp [Calm]
  | succ fuel ih =>
    intro k rs fin rs' es h
    unfold txLoop at h
    simp only [Out.bind_eq_ok] at h
    obtain ⟨⟨rs1, k1, e1, m1⟩, h1, h⟩ := h
    simp only at h
    split at h
    · simp only [Out.bind_eq_ok] at h
      obtain ⟨⟨f2, rs2, e2⟩, h2, h3⟩ := h
      simp only [Out.ok.injEq, Prod.mk.injEq] at h3
      rw [← h3.2.2]
      intro x hx
      rcases List.mem_append.mp hx with hx | hx
      · exact txRound_calm h1 x hx
      · exact ih h2 x hx
    · simp only [Out.ok.injEq, Prod.mk.injEq] at h
      rw [← h.2.2]
      exact txRound_calm h1

theorem mainLoop_calm {cfg fuel tend} : ∀ {hist left rs st rs' es},
    mainLoop cfg fuel tend hist left rs = .ok (st, rs', es) → ∀ x ∈ es, Calm x := by
  intro hist
  induction hist with
  | nil =>
    intro left rs st rs' es h
    unfold mainLoop at h
    split at h <;> (simp only [Out.ok.injEq, Prod.mk.injEq] at h; rw [← h.2.2]; simp [Calm])
  | cons s hist ih =>
    intro left rs st rs' es h
    unfold mainLoop at h
    split at h
    · simp only [Out.ok.injEq, Prod.mk.injEq] at h; rw [← h.2.2]; simp [Calm]
    · simp only at h
      split at h
      · simp only [Out.ok.injEq, Prod.mk.injEq] at h; rw [← h.2.2]; simp [Calm]
      · split at h
        · simp only [Out.ok.injEq, Prod.mk.injEq] at h; rw [← h.2.2]; simp [Calm]
        · simp only [Out.bind_eq_ok] at h
          obtain ⟨⟨fin, rs1, e1⟩, h1, h⟩ := h
          unfold process at h1
          simp only [Out.bind_eq_ok] at h1
          obtain ⟨⟨rs3, e3⟩, h3, ⟨f4, rs4, e4⟩, h4, h1⟩ := h1
          simp only [Out.ok.injEq, Prod.mk.injEq] at h1
          have he1 : ∀ x ∈ e1, Calm x := by
            rw [← h1.2.2]
            intro x hx
            rcases List.mem_append.mp hx with hx | hx
            · exact rxAll_calm h3 x hx
            · exact txLoop_calm h4 x hx
          simp only at h
          split at h
          · simp only [Out.bind_eq_ok] at h
            obtain ⟨⟨f2, rs2, e2⟩, h2, h5⟩ := h
            simp only [Out.ok.injEq, Prod.mk.injEq] at h5
            rw [← h5.2.2]
            intro x hx
            simp only [List.mem_cons, List.mem_append] at hx
            rcases hx with rfl | hx | hx
            · simp [Calm]
            · exact he1 x hx
            · exact ih h2 x hx
          · simp only [Out.ok.injEq, Prod.mk.injEq] at h
            rw [← h.2.2]
            intro x hx
            rcases List.mem_cons.mp hx with rfl | hx
            · simp [Calm]
            · exact he1 x hx

theorem mainLoop_shape {cfg fuel tend hist left rs st rs' es}
    (h : mainLoop cfg fuel tend hist left rs = .ok (st, rs', es)) : ∀ x ∈ es, ∀ a, x ≠ .opened a :=
  fun x hx => (mainLoop_calm h x hx).1

/-! ## Counting -/

theorem errors_ops (a : CStr) {cs : List Cmd} {ops : List Op} (h : ∀ j : Nat, some j ∈ rxOuts ops → j < cs.length) :
    errors (ops.flatMap (opEvents a cs)) = misses ops := by
  induction ops with
  | nil => rfl
  | cons op ops ih =>
    rw [List.flatMap_cons, errors_append]
    cases op with
    | rx b o =>
      have h1 : rxOuts (.rx b o :: ops) = o :: rxOuts ops := rfl
      rw [h1] at h
      rw [ih (fun j hj => h j (List.mem_cons_of_mem _ hj))]
      unfold misses
      rw [h1, List.count_cons]
      cases o with
      | none => simp [opEvents, errors, isError]; omega
      | some j =>
        have hj := h j List.mem_cons_self
        simp [opEvents, errors, isError, List.getElem?_eq_getElem hj]
    | tx j res fin =>
      have h1 : rxOuts (.tx j res fin :: ops) = rxOuts ops := rfl
      rw [h1] at h
      rw [ih h]
      unfold misses
      rw [h1]
      have : errors (opEvents a cs (.tx j res fin)) = 0 := by
        simp only [opEvents]
        split
        · split <;> simp [errors, isError]
        · rfl
      omega

theorem credited_range {cs F out} (h : Credited cs F out) (j : Nat) (hj : some j ∈ out) : j < cs.length := by
  obtain ⟨k, _, hk⟩ := mem_iff_getElem?_some.mp hj
  obtain ⟨c, _, hc, _⟩ := h.hit k j hk
  exact (List.getElem?_eq_some_iff.mp hc).1

theorem credited_inj {cs F out} (h : Credited cs F out) {k k' j : Nat} (h1 : out[k]? = some (some j))
    (h2 : out[k']? = some (some j)) : k = k' := by
  by_cases hkk : k < k'
  · obtain ⟨_, _, _, _, _, huniq, _⟩ := h.hit k' _ h2
    exact absurd h1 (huniq k hkk)
  · by_cases hkk' : k' < k
    · obtain ⟨_, _, _, _, _, huniq, _⟩ := h.hit k _ h1
      exact absurd h2 (huniq k' hkk')
    · omega

theorem zipIdx_get {α : Type} {l : List α} {i : Nat} {p : α × Nat} (h : l.zipIdx[i]? = some p) :
    p.2 = i ∧ l[i]? = some p.1 := by
  rw [List.getElem?_zipIdx] at h
  obtain ⟨x, hx, rfl⟩ := Option.map_eq_some_iff.mp h
  simp [hx]

theorem zipIdx_mem {α : Type} {l : List α} {p : α × Nat} (h : p ∈ l.zipIdx) : l[p.2]? = some p.1 := by
  obtain ⟨i, hi⟩ := List.mem_iff_getElem?.mp h
  obtain ⟨h1, h2⟩ := zipIdx_get hi
  rw [h1]; exact h2

theorem zipIdx_mem_of {α : Type} {l : List α} {j : Nat} {x : α} (h : l[j]? = some x) : (x, j) ∈ l.zipIdx := by
  apply List.mem_of_getElem? (i := j)
  rw [List.getElem?_zipIdx, h]
  simp

theorem wants_buf {c : Cmd} {b : Buf} (h : Wants c b) : c.buf.isSome := by
  obtain ⟨e, _, he, _⟩ := h
  rw [he]; rfl

open Classical in
/-- With rx commands only: unmatched frames plus expectations = frames plus unmatched expectations. -/
theorem credited_balance {cs F out} (h : Credited cs F out) (hrx : ∀ c ∈ cs, c.type = .rx) :
    out.count none + (expectations cs).length = F.length + (uncredited cs out).length := by
  -- credited commands = credited frames
  have h1 : out.countP (·.isSome) ≤ cs.zipIdx.countP (fun p => out.contains (some p.2)) := by
    apply countP_le_of_inj _ _ _ _ (fun k => match out[k]? with | some (some j) => j | _ => 0)
    · intro k o hk ho
      obtain ⟨j, rfl⟩ := Option.isSome_iff_exists.mp ho
      obtain ⟨c, b, hc, _⟩ := h.hit k j hk
      simp only [hk]
      refine ⟨(c, j), by rw [List.getElem?_zipIdx, hc]; simp, ?_⟩
      simpa using List.mem_of_getElem? hk
    · intro k k' o o' hk ho hk' ho' he
      obtain ⟨j, rfl⟩ := Option.isSome_iff_exists.mp ho
      obtain ⟨j', rfl⟩ := Option.isSome_iff_exists.mp ho'
      simp only [hk, hk'] at he
      subst he
      exact credited_inj h hk hk'
  have h2 : cs.zipIdx.countP (fun p => out.contains (some p.2)) ≤ out.countP (·.isSome) := by
    have hex : ∀ j : Nat, ∃ k : Nat, some j ∈ out → out[k]? = some (some j) := by
      intro j
      by_cases hj : some j ∈ out
      · obtain ⟨k, _, hk⟩ := mem_iff_getElem?_some.mp hj
        exact ⟨k, fun _ => hk⟩
      · exact ⟨0, fun h => absurd h hj⟩
    apply countP_le_of_inj _ _ _ _ (fun j => choose (hex j))
    · intro j p hj hp
      obtain ⟨h3, _⟩ := zipIdx_get hj
      simp only [List.contains_eq_mem, decide_eq_true_eq, h3] at hp
      exact ⟨_, choose_spec (hex j) hp, rfl⟩
    · intro j j' p p' hj hp hj' hp' he
      obtain ⟨h3, _⟩ := zipIdx_get hj
      obtain ⟨h4, _⟩ := zipIdx_get hj'
      simp only [List.contains_eq_mem, decide_eq_true_eq, h3, h4] at hp hp'
      have e1 := choose_spec (hex j) hp
      have e2 := choose_spec (hex j') hp'
      rw [he, e2] at e1
      simp only [Option.some.injEq] at e1
      exact e1.symm
  -- frames
  have h3 : F.length = out.count none + out.countP (·.isSome) := by
    rw [← h.len]
    clear h1 h2 h
    induction out with
    | nil => rfl
    | cons o out ih =>
      cases o <;> simp_all <;> omega
  -- expectations
  have h4 : (expectations cs).length = cs.zipIdx.countP (fun p => p.1.type == .rx && p.1.buf.isSome) := by
    unfold expectations
    rw [← List.countP_eq_length_filter]
    conv => lhs; rw [← List.zipIdx_map_fst 0 cs]
    rw [List.countP_map]
    rfl
  have h5 : cs.zipIdx.countP (fun p => p.1.type == .rx && p.1.buf.isSome) =
      cs.zipIdx.countP (fun p => p.1.type == .rx && p.1.buf.isSome && !out.contains (some p.2)) +
      cs.zipIdx.countP (fun p => out.contains (some p.2)) := by
    have key : ∀ l : List (Cmd × Nat), (∀ p ∈ l, out.contains (some p.2) = true →
        (p.1.type == .rx && p.1.buf.isSome) = true) →
        l.countP (fun p => p.1.type == .rx && p.1.buf.isSome) =
        l.countP (fun p => p.1.type == .rx && p.1.buf.isSome && !out.contains (some p.2)) +
        l.countP (fun p => out.contains (some p.2)) := by
      intro l
      induction l with
      | nil => intro _; rfl
      | cons p l ih =>
        intro hl
        have ih := ih (fun q hq => hl q (List.mem_cons_of_mem _ hq))
        have hp := hl p List.mem_cons_self
        simp only [List.countP_cons, ih]
        cases ho : out.contains (some p.2) with
        | true => simp [hp ho]; omega
        | false => simp; omega
    apply key
    intro p hp ho
    have hpc := zipIdx_mem hp
    simp only [List.contains_eq_mem, decide_eq_true_eq] at ho
    obtain ⟨k, _, hk⟩ := mem_iff_getElem?_some.mp ho
    obtain ⟨c, b, hc, _, hw, _⟩ := h.hit k _ hk
    rw [hpc] at hc
    simp only [Option.some.injEq] at hc
    have := wants_buf hw
    rw [← hc] at this
    simp [hrx p.1 (List.mem_of_getElem? hpc), this]
  have h6 : (uncredited cs out).length =
      cs.zipIdx.countP (fun p => p.1.type == .rx && p.1.buf.isSome && !out.contains (some p.2)) := by
    unfold uncredited
    rw [List.length_map, List.countP_eq_length_filter]
  omega

/-- If every frame is credited and every expectation gets one, they are paired. -/
theorem credited_paired {cs F out} (h : Credited cs F out) (hrx : ∀ c ∈ cs, c.type = .rx)
    (h1 : out.count none = 0) (h2 : uncredited cs out = []) : Paired (expectations cs) F := by
  have hsome : ∀ (k : Nat) o, out[k]? = some o → ∃ j, o = some j := by
    intro k o hk
    cases o with
    | some j => exact ⟨j, rfl⟩
    | none =>
      have := List.count_eq_zero.mp h1
      exact absurd (List.mem_of_getElem? hk) this
  -- the commands in the order in which they are served
  let g : Option Nat → Cmd × Nat := fun o => match o with
    | some j => (cs[j]?.getD { type := .rx }, j)
    | none => ({ type := .rx }, 0)
  have hg : ∀ (k j : Nat), out[k]? = some (some j) → ∃ c, cs[j]? = some c ∧ g (some j) = (c, j) := by
    intro k j hk
    obtain ⟨c, _, hc, _⟩ := h.hit k j hk
    exact ⟨c, hc, by simp [g, hc]⟩
  have hperm : (out.map g).Perm (cs.zipIdx.filter (fun p => p.1.type == .rx && p.1.buf.isSome)) := by
    rw [List.perm_ext_iff_of_nodup]
    · intro p
      constructor
      · intro hp
        obtain ⟨o, ho, rfl⟩ := List.mem_map.mp hp
        obtain ⟨k, hk⟩ := List.mem_iff_getElem?.mp ho
        obtain ⟨j, rfl⟩ := hsome k o hk
        obtain ⟨c, b, hc, _, hw, _⟩ := h.hit k j hk
        obtain ⟨c', hc', hgj⟩ := hg k j hk
        rw [hc] at hc'
        simp only [Option.some.injEq] at hc'
        subst hc'
        rw [hgj]
        refine List.mem_filter.mpr ⟨zipIdx_mem_of hc, ?_⟩
        simp [hrx c (List.mem_of_getElem? hc), wants_buf hw]
      · intro hp
        obtain ⟨hp1, hp2⟩ := List.mem_filter.mp hp
        have hin : some p.2 ∈ out := by
          refine Classical.byContradiction fun hno => ?_
          have : p.1 ∈ uncredited cs out := by
            unfold uncredited
            refine List.mem_map.mpr ⟨p, List.mem_filter.mpr ⟨hp1, ?_⟩, rfl⟩
            rw [hp2]
            simpa using hno
          rw [h2] at this
          simp at this
        refine List.mem_map.mpr ⟨some p.2, hin, ?_⟩
        have := zipIdx_mem hp1
        simp [g, this]
    · rw [List.Nodup, List.pairwise_iff_getElem]
      intro i j hi hj hij he
      simp only [List.length_map] at hi hj
      rw [List.getElem_map, List.getElem_map] at he
      obtain ⟨x, hx⟩ := hsome i _ (List.getElem?_eq_getElem hi)
      obtain ⟨y, hy⟩ := hsome j _ (List.getElem?_eq_getElem hj)
      simp only [hx, hy, g, Prod.mk.injEq] at he
      have hxy := he.2
      subst hxy
      have := credited_inj h (k := i) (k' := j) (by rw [List.getElem?_eq_getElem hi, hx])
        (by rw [List.getElem?_eq_getElem hj, hy])
      omega
    · apply List.Pairwise.filter
      rw [List.pairwise_iff_getElem]
      intro i j hi hj hij he
      have h3 := (zipIdx_get (List.getElem?_eq_getElem hi)).1
      have h4 := (zipIdx_get (List.getElem?_eq_getElem hj)).1
      rw [he] at h3
      omega
  refine ⟨(out.map g).map (·.1), ?_, ?_, ?_⟩
  · have he : expectations cs = (cs.zipIdx.filter (fun p => p.1.type == .rx && p.1.buf.isSome)).map (·.1) := by
      unfold expectations
      conv => lhs; rw [← List.zipIdx_map_fst 0 cs]
      rw [List.filter_map]
      rfl
    rw [he]
    exact hperm.map _
  · simp [h.len]
  · intro k c b hk hb
    rw [List.getElem?_map, List.getElem?_map] at hk
    cases ho : out[k]? with
    | none => rw [ho] at hk; simp at hk
    | some o =>
      obtain ⟨j, rfl⟩ := hsome k o ho
      rw [ho] at hk
      obtain ⟨c0, b0, hc0, hb0, hw, _⟩ := h.hit k j ho
      obtain ⟨c', hc', hgj⟩ := hg k j ho
      rw [hc0] at hc'
      simp only [Option.some.injEq] at hc'
      subst hc'
      simp only [Option.map_some, hgj, Option.some.injEq] at hk
      rw [hb0] at hb
      simp only [Option.some.injEq] at hb
      rw [← hk, ← hb]
      exact hw

open Classical in
/-- Without overlap, a possible pairing is always found. -/
theorem paired_credited {cs F out} (h : Credited cs F out) (hrx : ∀ c ∈ cs, c.type = .rx) (hno : NoOverlap cs)
    (hp : Paired (expectations cs) F) : out.count none = 0 ∧ uncredited cs out = [] := by
  obtain ⟨es, hperm, hlen, hw⟩ := hp
  have hmem : ∀ c, c ∈ es → c ∈ cs ∧ c.buf.isSome := by
    intro c hc
    have := hperm.mem_iff.mp hc
    unfold expectations at this
    simp only [List.mem_filter, Bool.and_eq_true] at this
    exact ⟨this.1, this.2.2⟩
  have hun : uncredited cs out = [] := by
    unfold uncredited
    rw [List.map_eq_nil_iff, List.filter_eq_nil_iff]
    intro p hp hcon
    simp only [Bool.and_eq_true, List.contains_eq_mem, Bool.not_eq_true', decide_eq_false_iff_not] at hcon
    obtain ⟨⟨ht, hb⟩, hnot⟩ := hcon
    have hj := zipIdx_mem hp
    have hpm := List.mem_of_getElem? hj
    apply hnot
    rw [credited_iff h hrx hno p.2 p.1 hj]
    -- the command is paired with a frame
    have hpe : p.1 ∈ es := hperm.mem_iff.mpr (by
      unfold expectations
      exact List.mem_filter.mpr ⟨hpm, by rw [ht, hb]; rfl⟩)
    obtain ⟨k, hk⟩ := List.mem_iff_getElem?.mp hpe
    have hkF : k < F.length := by rw [← hlen]; exact (List.getElem?_eq_some_iff.mp hk).1
    have hwk := hw k p.1 _ hk (List.getElem?_eq_getElem hkF)
    have hs1 : before cs p.2 p.1 + 1 ≤ cs.countP (fun c' => decide (∀ b, Wants c' b ↔ Wants p.1 b)) := by
      have e : cs = cs.take (p.2 + 1) ++ cs.drop (p.2 + 1) := (List.take_append_drop _ _).symm
      have htake : cs.take (p.2 + 1) = cs.take p.2 ++ [p.1] := by
        rw [List.take_add_one, hj]; rfl
      have : cs.countP (fun c' => decide (∀ b, Wants c' b ↔ Wants p.1 b)) =
          (cs.take p.2 ++ [p.1]).countP (fun c' => decide (∀ b, Wants c' b ↔ Wants p.1 b)) +
          (cs.drop (p.2 + 1)).countP (fun c' => decide (∀ b, Wants c' b ↔ Wants p.1 b)) := by
        conv => lhs; rw [e]
        rw [List.countP_append, htake]
      rw [this, List.countP_append]
      unfold before
      simp only [List.countP_cons, List.countP_nil, decide_true, implies_true, ↓reduceIte, iff_self]
      omega
    have hs2 : cs.countP (fun c' => decide (∀ b, Wants c' b ↔ Wants p.1 b)) =
        es.countP (fun c' => decide (∀ b, Wants c' b ↔ Wants p.1 b)) := by
      rw [hperm.countP_eq]
      unfold expectations
      rw [List.countP_filter]
      apply List.countP_congr
      intro c hc
      simp only [decide_eq_true_eq, Bool.and_eq_true, beq_iff_eq]
      constructor
      · intro hs
        exact ⟨hs, hrx c hc, wants_buf ((hs _).mpr hwk)⟩
      · exact fun hs => hs.1
    have hs3 : es.countP (fun c' => decide (∀ b, Wants c' b ↔ Wants p.1 b)) ≤ wanted F p.1 := by
      unfold wanted
      apply countP_le_of_inj _ _ _ _ id
      · intro i c hi hc
        have hiF : i < F.length := by rw [← hlen]; exact (List.getElem?_eq_some_iff.mp hi).1
        refine ⟨_, List.getElem?_eq_getElem hiF, ?_⟩
        simp only [decide_eq_true_eq] at hc ⊢
        exact (hc _).mp (hw i c _ hi (List.getElem?_eq_getElem hiF))
      · intro i i' _ _ _ _ _ _ he
        exact he
    omega
  refine ⟨?_, hun⟩
  have hbal := credited_balance h hrx
  rw [hun, ← hlen, hperm.length_eq] at hbal
  simp only [List.length_nil] at hbal
  omega

/-- Without overlap, the result does not depend on the order of the frames. -/
theorem credited_order {cs F out F' out'} (h : Credited cs F out) (h' : Credited cs F' out')
    (hrx : ∀ c ∈ cs, c.type = .rx) (hno : NoOverlap cs) (hp : F.Perm F') :
    out.count none = out'.count none ∧ uncredited cs out = uncredited cs out' := by
  have hun : uncredited cs out = uncredited cs out' := by
    unfold uncredited
    congr 1
    apply List.filter_congr
    intro p hpz
    have hj := zipIdx_mem hpz
    have h1 := credited_iff h hrx hno p.2 p.1 hj
    have h2 := credited_iff h' hrx hno p.2 p.1 hj
    have hw : wanted F p.1 = wanted F' p.1 := hp.countP_eq _
    rw [hw, ← h2] at h1
    simp [List.contains_eq_mem, h1]
  refine ⟨?_, hun⟩
  have b1 := credited_balance h hrx
  have b2 := credited_balance h' hrx
  rw [hun, hp.length_eq] at b1
  omega

theorem noOverlap_exact {cs : List Cmd} (hm : ∀ c ∈ cs, c.mask = none ∧ ∀ f, c.frame = some f → f.padding = 0) :
    NoOverlap cs := by
  have key : ∀ c ∈ cs, ∀ b, Wants c b → c.buf = some b := by
    intro c hc b hw
    obtain ⟨e, f, he, hf, hp, core, tr, rfl, ht, hlen, hbit⟩ := hw
    rw [(hm c hc).2 f hf] at ht
    simp only [Int.toNat_zero, List.length_eq_zero_iff] at ht
    subst ht
    rw [he, List.append_nil, buf_ext hlen (fun i _ => hbit i (by rw [(hm c hc).1]; trivial))]
  have key2 : ∀ c ∈ cs, ∀ b b', Wants c b → c.buf = some b' → Wants c b' := by
    intro c hc b b' hw hb'
    have := key c hc b hw
    rw [this] at hb'
    simp only [Option.some.injEq] at hb'
    rw [← hb']
    exact hw
  intro c hc c' hc' ⟨b, hb, hb'⟩ x
  have e1 := key c hc b hb
  have e2 := key c' hc' b hb'
  constructor
  · intro hx
    have := key c hc x hx
    exact key2 c' hc' b x hb' (by rw [e2, ← e1, this])
  · intro hx
    have := key c' hc' x hx
    exact key2 c hc b x hb (by rw [e1, ← e2, this])

end Ef
