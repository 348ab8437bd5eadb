import Verif.Lemmas.TraceTx

/-!
# The main loop as a trace per socket
-/

namespace Ef

open Spec

attribute [local irreducible] txOne

/-! ## Matching and transmitting as operations -/

theorem matchCmds_ok {b : Buf} {cs : List Cmd} {o} (h : matchCmds b cs = .ok o) :
    (o = none ∧ OpStep cs (.rx b none) cs) ∨
    ∃ (j : Nat) (c : Cmd), o = some (c, cs.set j { c with done := true }) ∧ cs[j]? = some c ∧
      OpStep cs (.rx b (some j)) (cs.set j { c with done := true }) := by
  have key : (o = none ∧ ∀ c ∈ cs, cmdMatches b c = .ok false) ∨
      ∃ (j : Nat) (c : Cmd), o = some (c, cs.set j { c with done := true }) ∧ cs[j]? = some c ∧
        cmdMatches b c = .ok true ∧ ∀ (j' : Nat) c', j' < j → cs[j']? = some c' → cmdMatches b c' = .ok false := by
    induction cs generalizing o with
    | nil =>
      simp only [matchCmds, Out.ok.injEq] at h
      subst h
      exact Or.inl ⟨rfl, by simp⟩
    | cons c cs ih =>
      rw [matchCmds, Out.bind_eq_ok] at h
      obtain ⟨r, hr, h⟩ := h
      cases r with
      | true =>
        simp only [↓reduceIte, Out.ok.injEq] at h
        subst h
        exact Or.inr ⟨0, c, rfl, rfl, hr, fun _ _ h => absurd h (by omega)⟩
      | false =>
        simp only [Bool.false_eq_true, ↓reduceIte, Out.bind_eq_ok] at h
        obtain ⟨o', ho', h⟩ := h
        rcases ih ho' with ⟨rfl, hall⟩ | ⟨j, x, rfl, hj, hm, hlow⟩
        · simp only [Out.ok.injEq] at h
          subst h
          refine Or.inl ⟨rfl, ?_⟩
          intro y hy
          simp only [List.mem_cons] at hy
          rcases hy with rfl | hy
          · exact hr
          · exact hall y hy
        · simp only [Out.ok.injEq] at h
          subst h
          refine Or.inr ⟨j + 1, x, rfl, hj, hm, ?_⟩
          intro j' c' hj' hc'
          cases j' with
          | zero => simp only [List.getElem?_cons_zero, Option.some.injEq] at hc'; subst hc'; exact hr
          | succ j' => exact hlow j' c' (by omega) hc'
  rcases key with ⟨h1, h2⟩ | ⟨j, c, h1, h2, h3, h4⟩
  · exact Or.inl ⟨h1, .miss _ _ h2⟩
  · exact Or.inr ⟨j, c, h1, h2, .hit _ _ _ _ h2 h3 h4⟩

theorem txFirst_ok {res : Int} {cs : List Cmd} {o} (h : txFirst res cs = .ok o) :
    (o = none ∧ ∀ c ∈ cs, ¬ pending c) ∨
    ∃ (j : Nat) (c : Cmd) (b : Buf) (a : CStr), o = some (cs.set j (txOne c b a res).1, (txOne c b a res).2) ∧
      cs[j]? = some c ∧ pending c ∧ (∀ (j' : Nat) c', j' < j → cs[j']? = some c' → ¬ pending c') ∧
      c.buf = some b ∧ c.arg0 = some a := by
  induction cs generalizing o with
  | nil =>
    simp only [txFirst, Out.ok.injEq] at h
    subst h
    exact Or.inl ⟨rfl, by simp⟩
  | cons c cs ih =>
    rw [txFirst] at h
    split at h
    · rename_i hp
      have hp : pending c := ⟨hp.1, by simpa using hp.2⟩
      split at h
      · rename_i b a hb ha
        simp only [Out.ok.injEq] at h
        subst h
        exact Or.inr ⟨0, c, b, a, rfl, rfl, hp, fun _ _ h => absurd h (by omega), hb, ha⟩
      · simp at h
    · rename_i hp
      have hp : ¬ pending c := fun h => hp ⟨h.1, by simp [h.2]⟩
      rw [Out.bind_eq_ok] at h
      obtain ⟨o', ho', h⟩ := h
      rcases ih ho' with ⟨rfl, hall⟩ | ⟨j, x, b, a, rfl, hj, hx, hlow, hb, ha⟩
      · simp only [Out.ok.injEq] at h
        subst h
        refine Or.inl ⟨rfl, ?_⟩
        intro y hy
        simp only [List.mem_cons] at hy
        rcases hy with rfl | hy
        · exact hp
        · exact hall y hy
      · simp only [Out.ok.injEq] at h
        subst h
        refine Or.inr ⟨j + 1, x, b, a, rfl, hj, hx, ?_, hb, ha⟩
        intro j' c' hj' hc'
        cases j' with
        | zero => simp only [List.getElem?_cons_zero, Option.some.injEq] at hc'; subst hc'; exact hp
        | succ j' => exact hlow j' c' (by omega) hc'

/-! ## One socket -/

/-- All commands of the socket are for interface `a`, and there is one. -/
def Named (a : CStr) (r : Resource) : Prop := r.cmds ≠ [] ∧ ∀ c ∈ r.cmds, c.arg0 = some a

/-- The number of frames nobody wanted. -/
def misses (ops : List Op) : Nat := (rxOuts ops).count none

@[simp] theorem misses_nil : misses [] = 0 := rfl
@[simp] theorem misses_append (a b : List Op) : misses (a ++ b) = misses a + misses b := by simp [misses]

/-- The change of a socket as a trace, with the events and the frames received. -/
structure Change (a : CStr) (r r' : Resource) (es : List Event) (F : List Buf) (ops : List Op) : Prop where
  run : Run r.cmds ops r'.cmds
  err : r'.rxErrCnt = r.rxErrCnt + misses ops
  ev : es = ops.flatMap (opEvents a r.cmds)
  frames : rxFrames ops = F

theorem Change.none (a r) : Change a r r [] [] [] := ⟨.nil, rfl, rfl, rfl⟩

theorem Change.trans {a r1 r2 r3 e1 e2 F1 F2 o1 o2} (h1 : Change a r1 r2 e1 F1 o1) (h2 : Change a r2 r3 e2 F2 o2) :
    Change a r1 r3 (e1 ++ e2) (F1 ++ F2) (o1 ++ o2) := by
  refine ⟨h1.run.append h2.run, by rw [h2.err, h1.err, misses_append]; omega, ?_, ?_⟩
  · rw [h1.ev, h2.ev, List.flatMap_append]
    congr 1
    rw [List.flatMap_def, List.flatMap_def]
    congr 1
    exact List.map_congr_left (fun op _ => opEvents_same h1.run.same)
  · rw [rxFrames_append, h1.frames, h2.frames]

theorem Named.same {a : CStr} {r r' : Resource} (h : Named a r) (hs : SameList r.cmds r'.cmds) : Named a r' := by
  refine ⟨fun h0 => h.1 ?_, ?_⟩
  · have := hs.1
    rw [h0] at this
    exact List.length_eq_zero_iff.mp this.symm
  · intro c hc
    obtain ⟨j, hj⟩ := List.mem_iff_getElem?.mp hc
    obtain ⟨x, hx, hst⟩ := hs.back hj
    rw [hst.2.2.1]
    exact h.2 x (List.mem_of_getElem? hx)

theorem Named.arg0 {a : CStr} {r : Resource} (h : Named a r) : resArg0 r = .ok a := by
  unfold resArg0
  cases hr : r.cmds with
  | nil => exact absurd hr h.1
  | cons c cs =>
    simp only
    rw [h.2 c (by rw [hr]; exact List.mem_cons_self)]

theorem rxFrame_ok {cfg r m r' e a} (hn : Named a r) (h : rxFrame cfg r m = .ok (r', e)) :
    ∃ ops, Change a r r' e (if m.data = [] then []
      else (restoreVlan cfg (m.data.take rxBufSize) m.aux).get?.toList) ops := by
  unfold rxFrame at h
  simp only at h
  have h0 : (m.data.take rxBufSize).length = 0 ↔ m.data = [] := by
    rw [List.length_take]
    have : 0 < rxBufSize := by decide
    constructor
    · intro h; exact List.length_eq_zero_iff.mp (by omega)
    · intro h; rw [h]; simp
  split at h
  · rename_i hz
    simp only [Out.ok.injEq, Prod.mk.injEq] at h
    obtain ⟨rfl, rfl⟩ := h
    rw [if_pos (h0.mp hz)]
    exact ⟨[], .none a r⟩
  · rename_i hz
    rw [if_neg (fun h => hz (h0.mpr h))]
    rw [Out.bind_eq_ok] at h
    obtain ⟨b, hb, h⟩ := h
    rw [Out.bind_eq_ok] at h
    obtain ⟨o, ho, h⟩ := h
    rw [hb]
    simp only [Out.get?, Option.toList_some]
    rcases matchCmds_ok ho with ⟨rfl, hs⟩ | ⟨j, c, rfl, hj, hs⟩
    · rw [hn.arg0] at h
      simp only [Out.ok_bind, Out.ok.injEq, Prod.mk.injEq] at h
      obtain ⟨rfl, rfl⟩ := h
      exact ⟨[.rx b none], .single hs, rfl, rfl, rfl⟩
    · simp only at h
      have ha := hn.2 c (List.mem_of_getElem? hj)
      split at h
      · rename_i a' ha'
        have e : a' = a := by rw [ha] at ha'; simpa using ha'.symm
        subst e
        simp only [Out.ok.injEq, Prod.mk.injEq] at h
        obtain ⟨rfl, rfl⟩ := h
        refine ⟨[.rx b (some j)], .single hs, rfl, ?_, rfl⟩
        simp [opEvents, hj]
      · simp at h

theorem rxResource_ok {cfg s i r r' e a} (hn : Named a r) (h : rxResource cfg s i r = .ok (r', e)) :
    ∃ ops, Change a r r' e (if hasRx r then delivered cfg i s else []) ops := by
  unfold rxResource at h
  split at h
  · rename_i hc
    rw [Bool.and_eq_true] at hc
    rw [if_pos hc.1]
    unfold delivered
    rw [if_pos hc.2]
    split at h
    · rename_i hm
      simp only [Out.ok.injEq, Prod.mk.injEq] at h
      obtain ⟨rfl, rfl⟩ := h
      rw [hm]
      exact ⟨[], .none a r⟩
    · rename_i m hm
      rw [hm]
      exact rxFrame_ok hn h
  · rename_i hc
    simp only [Out.ok.injEq, Prod.mk.injEq] at h
    obtain ⟨rfl, rfl⟩ := h
    refine ⟨[], ?_⟩
    have : (if hasRx r then delivered cfg i s else []) = [] := by
      split
      · rename_i hr
        unfold delivered
        rw [if_neg (fun h => hc (by rw [hr, h]; rfl))]
      · rfl
    rw [this]
    exact .none a r

/-! ## All sockets -/

/-- A round over all sockets: socket `i` goes from `rs[i]` to `rs'[i]` with events of its own. -/
inductive Round (P : Nat → CStr → Resource → Resource → List Event → Prop) :
    Nat → List CStr → List Resource → List Resource → List Event → Prop where
  | nil (i : Nat) : Round P i [] [] [] []
  | cons (i a r r' e as rs rs' es) : P i a r r' e → Round P (i + 1) as rs rs' es →
      Round P i (a :: as) (r :: rs) (r' :: rs') (e ++ es)

/-- The sockets belong to the interfaces `as`. -/
def NamedAll : List CStr → List Resource → Prop
  | [], [] => True
  | a :: as, r :: rs => Named a r ∧ NamedAll as rs
  | _, _ => False

theorem rxAll_round {cfg s i as rs rs' es} (hn : NamedAll as rs) (h : rxAll cfg s i rs = .ok (rs', es)) :
    Round (fun i a r r' e => ∃ ops, Change a r r' e (if hasRx r then delivered cfg i s else []) ops)
      i as rs rs' es := by
  induction rs generalizing i as rs' es with
  | nil =>
    cases as with
    | nil =>
      simp only [rxAll, Out.ok.injEq, Prod.mk.injEq] at h
      obtain ⟨rfl, rfl⟩ := h
      exact .nil i
    | cons a as => exact absurd hn (by simp [NamedAll])
  | cons r rs ih =>
    cases as with
    | nil => exact absurd hn (by simp [NamedAll])
    | cons a as =>
      rw [rxAll, Out.bind_eq_ok] at h
      obtain ⟨⟨r1, e1⟩, h1, h⟩ := h
      simp only [Out.bind_eq_ok] at h
      obtain ⟨⟨rs2, es2⟩, h2, h⟩ := h
      simp only [Out.ok.injEq, Prod.mk.injEq] at h
      obtain ⟨rfl, rfl⟩ := h
      exact .cons _ _ _ _ _ _ _ _ _ (rxResource_ok hn.1 h1) (ih hn.2 h2)

theorem txRound_round {w send i k as rs rs' k' es more} (hn : NamedAll as rs)
    (h : txRound w send i k rs = .ok (rs', k', es, more)) :
    Round (fun _ a r r' e => ∃ ops, Change a r r' e [] ops) i as rs rs' es := by
  induction rs generalizing i k as rs' k' es more with
  | nil =>
    cases as with
    | nil =>
      simp only [txRound, Out.ok.injEq, Prod.mk.injEq] at h
      obtain ⟨rfl, _, rfl, _⟩ := h
      exact .nil i
    | cons a as => exact absurd hn (by simp [NamedAll])
  | cons r rs ih =>
    cases as with
    | nil => exact absurd hn (by simp [NamedAll])
    | cons a as =>
      rw [txRound] at h
      split at h
      · rw [Out.bind_eq_ok] at h
        obtain ⟨o, ho, h⟩ := h
        rcases txFirst_ok ho with ⟨rfl, _⟩ | ⟨j, c, b, a', rfl, hj, hp, hlow, hb, ha⟩
        · simp only [Out.bind_eq_ok] at h
          obtain ⟨⟨rs2, k2, es2, m2⟩, h2, h⟩ := h
          simp only [Out.ok.injEq, Prod.mk.injEq] at h
          obtain ⟨rfl, _, rfl, _⟩ := h
          exact .cons _ _ _ _ [] _ _ _ _ ⟨[], .none a r⟩ (ih hn.2 h2)
        · simp only [Out.bind_eq_ok] at h
          obtain ⟨⟨rs2, k2, es2, m2⟩, h2, h⟩ := h
          simp only [Out.ok.injEq, Prod.mk.injEq] at h
          obtain ⟨rfl, _, rfl, _⟩ := h
          refine .cons _ _ _ _ _ _ _ _ _ ⟨[.tx j (send k) (txOne c b a' (send k)).1.done], ?_⟩ (ih hn.2 h2)
          refine ⟨.single (.tx _ _ _ _ _ _ hj hp hlow hb ha), rfl, ?_, rfl⟩
          have e : a' = a := by
            have := hn.1.2 c (List.mem_of_getElem? hj)
            rw [ha] at this
            simpa using this
          subst e
          simp only [List.flatMap_cons, List.flatMap_nil, List.append_nil, opEvents, hj, hb, Option.getD_some]
          exact txOne_events c b a' (send k) hp.2
      · simp only [Out.bind_eq_ok] at h
        obtain ⟨⟨rs2, k2, es2, m2⟩, h2, h⟩ := h
        simp only [Out.ok.injEq, Prod.mk.injEq] at h
        obtain ⟨rfl, _, rfl, _⟩ := h
        exact .cons _ _ _ _ [] _ _ _ _ ⟨[], .none a r⟩ (ih hn.2 h2)

/-- The events on interface `a`. -/
def onIface (a : CStr) (es : List Event) : List Event := es.filter (fun e => ifaceOf e == some a)

@[simp] theorem onIface_append (a : CStr) (x y : List Event) : onIface a (x ++ y) = onIface a x ++ onIface a y := by
  simp [onIface]

/-- The change of all sockets: each is changed by a trace of its own, which shows all events on its interface. -/
structure Changes (as : List CStr) (rs rs' : List Resource) (es : List Event) (F : Nat → List Buf) : Prop where
  len : rs'.length = rs.length
  each : ∀ (i : Nat) a r, as[i]? = some a → rs[i]? = some r →
    ∃ r' ops, rs'[i]? = some r' ∧ Change a r r' (onIface a es) (F i) ops
  named : NamedAll as rs'

theorem namedAll_length {as : List CStr} {rs : List Resource} (h : NamedAll as rs) : as.length = rs.length := by
  induction as generalizing rs with
  | nil => cases rs with
    | nil => rfl
    | cons => exact absurd h (by simp [NamedAll])
  | cons a as ih => cases rs with
    | nil => exact absurd h (by simp [NamedAll])
    | cons r rs => simp [ih h.2]

theorem namedAll_get {as : List CStr} {rs : List Resource} (h : NamedAll as rs) (i : Nat) {a r}
    (ha : as[i]? = some a) (hr : rs[i]? = some r) : Named a r := by
  induction as generalizing rs i with
  | nil => simp at ha
  | cons b as ih => cases rs with
    | nil => simp at hr
    | cons q rs =>
      cases i with
      | zero =>
        simp only [List.getElem?_cons_zero, Option.some.injEq] at ha hr
        subst ha; subst hr
        exact h.1
      | succ i => exact ih h.2 i ha hr

theorem onIface_none {a : CStr} {es : List Event} (h : ∀ e ∈ es, ifaceOf e ≠ some a) : onIface a es = [] := by
  unfold onIface
  rw [List.filter_eq_nil_iff]
  intro e he
  simpa using h e he

theorem onIface_all {a : CStr} {es : List Event} (h : ∀ e ∈ es, ifaceOf e = some a) : onIface a es = es := by
  unfold onIface
  rw [List.filter_eq_self]
  intro e he
  simpa using h e he

theorem Round.changes {P i as rs rs' es} {F : Nat → List Buf} (h : Round P i as rs rs' es) (hnd : as.Nodup)
    (hn : NamedAll as rs)
    (hP : ∀ (k : Nat) a r r' e, rs[k]? = some r → P (i + k) a r r' e → ∃ ops, Change a r r' e (F k) ops) :
    Changes as rs rs' es F ∧ ∀ e ∈ es, ∃ a ∈ as, ifaceOf e = some a := by
  induction h generalizing F with
  | nil => exact ⟨⟨rfl, by simp, trivial⟩, by simp⟩
  | cons i a r r' e as rs rs' es hp _ ih =>
    rw [List.nodup_cons] at hnd
    obtain ⟨hc, hif⟩ := ih (F := fun k => F (k + 1)) hnd.2 hn.2 (fun k a r r' e hr hp => by
      refine hP (k + 1) a r r' e (by simpa using hr) ?_
      rw [show i + (k + 1) = i + 1 + k by omega]; exact hp)
    obtain ⟨ops, hch⟩ := hP 0 a r r' e rfl (by simpa using hp)
    have he : ∀ x ∈ e, ifaceOf x = some a := by
      intro x hx
      rw [hch.ev, List.mem_flatMap] at hx
      obtain ⟨op, _, hx⟩ := hx
      exact opEvents_iface a r.cmds op x hx
    refine ⟨⟨by simp [hc.len], ?_, hn.1.same hch.run.same, hc.named⟩, ?_⟩
    · intro k a' q ha' hq
      cases k with
      | zero =>
        simp only [List.getElem?_cons_zero, Option.some.injEq] at ha' hq
        subst ha'; subst hq
        refine ⟨r', ops, rfl, ?_⟩
        rw [onIface_append, onIface_all he, onIface_none, List.append_nil]
        · exact hch
        · intro x hx hx'
          obtain ⟨b, hb, hxb⟩ := hif x hx
          rw [hx'] at hxb
          simp only [Option.some.injEq] at hxb
          subst hxb
          exact hnd.1 hb
      | succ k =>
        simp only [List.getElem?_cons_succ] at ha' hq
        obtain ⟨q', ops', hq', hch'⟩ := hc.each k a' q ha' hq
        refine ⟨q', ops', hq', ?_⟩
        rw [onIface_append, onIface_none, List.nil_append]
        · exact hch'
        · intro x hx hx'
          rw [he x hx] at hx'
          simp only [Option.some.injEq] at hx'
          subst hx'
          exact hnd.1 (List.mem_of_getElem? ha')
    · intro x hx
      rw [List.mem_append] at hx
      rcases hx with hx | hx
      · exact ⟨a, List.mem_cons_self, he x hx⟩
      · obtain ⟨b, hb, h⟩ := hif x hx
        exact ⟨b, List.mem_cons_of_mem _ hb, h⟩

theorem Changes.trans {as rs1 rs2 rs3 e1 e2 F1 F2} (h1 : Changes as rs1 rs2 e1 F1) (h2 : Changes as rs2 rs3 e2 F2) :
    Changes as rs1 rs3 (e1 ++ e2) (fun i => F1 i ++ F2 i) := by
  refine ⟨h2.len.trans h1.len, ?_, h2.named⟩
  intro i a r ha hr
  obtain ⟨r2, o1, hr2, hc1⟩ := h1.each i a r ha hr
  obtain ⟨r3, o2, hr3, hc2⟩ := h2.each i a r2 ha hr2
  exact ⟨r3, o1 ++ o2, hr3, by rw [onIface_append]; exact hc1.trans hc2⟩

theorem Changes.refl {as rs} (hn : NamedAll as rs) : Changes as rs rs [] (fun _ => []) :=
  ⟨rfl, fun _ a r _ hr => ⟨r, [], hr, .none a r⟩, hn⟩

theorem Changes.silent {as rs rs' es F} {x : Event} (hx : ifaceOf x = none) (h : Changes as rs rs' es F) :
    Changes as rs rs' (x :: es) F := by
  refine ⟨h.len, fun i a r ha hr => ?_, h.named⟩
  obtain ⟨r', ops, h1, h2⟩ := h.each i a r ha hr
  refine ⟨r', ops, h1, ?_⟩
  have : onIface a (x :: es) = onIface a es := by
    simp [onIface, hx]
  rw [this]
  exact h2

theorem txLoop_changes {w send} : ∀ {fuel k as rs fin rs' es}, as.Nodup → NamedAll as rs →
    txLoop w send fuel k rs = .ok (fin, rs', es) → Changes as rs rs' es (fun _ => []) := by
  intro fuel
  induction fuel with
  | zero =>
    intro k as rs fin rs' es _ hn h
    simp only [txLoop, Out.ok.injEq, Prod.mk.injEq] at h
    obtain ⟨_, rfl, rfl⟩ := h
    exact .refl hn
  | succ fuel ih =>
    intro k as rs fin rs' es hnd hn h
    rw [txLoop, Out.bind_eq_ok] at h
    obtain ⟨⟨rs1, k1, e1, more⟩, h1, h⟩ := h
    have c1 := ((txRound_round hn h1).changes (F := fun _ => []) hnd hn (fun _ _ _ _ _ _ hp => hp)).1
    simp only at h
    split at h
    · simp only [Out.bind_eq_ok] at h
      obtain ⟨⟨f2, rs2, e2⟩, h2, h⟩ := h
      simp only [Out.ok.injEq, Prod.mk.injEq] at h
      obtain ⟨_, rfl, rfl⟩ := h
      exact c1.trans (ih hnd c1.named h2)
    · simp only [Out.ok.injEq, Prod.mk.injEq] at h
      obtain ⟨_, rfl, rfl⟩ := h
      exact c1

/-- The frames received on socket `i` in a step. -/
def received (cfg : Config) (rs : List Resource) (s : Step) (i : Nat) : List Buf :=
  match rs[i]? with
  | some r => if hasRx r then delivered cfg i s else []
  | none => []

theorem process_changes {cfg fuel s as rs fin rs' es} (hnd : as.Nodup) (hn : NamedAll as rs)
    (h : process cfg fuel s rs = .ok (fin, rs', es)) : Changes as rs rs' es (received cfg rs s) := by
  unfold process at h
  simp only [Out.bind_eq_ok] at h
  obtain ⟨⟨rs1, e1⟩, h1, h⟩ := h
  simp only [Out.bind_eq_ok] at h
  obtain ⟨⟨f2, rs2, e2⟩, h2, h⟩ := h
  simp only [Out.ok.injEq, Prod.mk.injEq] at h
  obtain ⟨_, rfl, rfl⟩ := h
  have c1 := ((rxAll_round hn h1).changes (F := received cfg rs s) hnd hn (fun k a r r' e hr hp => by
    unfold received
    rw [hr]
    simpa using hp)).1
  have c2 := c1.trans (txLoop_changes hnd c1.named h2)
  simpa using c2

theorem hasRx_same {r r' : Resource} (h : SameList r.cmds r'.cmds) : hasRx r' = hasRx r := by
  rw [Bool.eq_iff_iff]
  unfold hasRx
  simp only [List.any_eq_true, beq_iff_eq]
  constructor
  · rintro ⟨c, hc, ht⟩
    obtain ⟨j, hj⟩ := List.mem_iff_getElem?.mp hc
    obtain ⟨x, hx, hs⟩ := h.back hj
    exact ⟨x, List.mem_of_getElem? hx, by rw [← hs.1]; exact ht⟩
  · rintro ⟨c, hc, ht⟩
    obtain ⟨j, hj⟩ := List.mem_iff_getElem?.mp hc
    obtain ⟨x, hx, hs⟩ := h.2 j c hj
    exact ⟨x, List.mem_of_getElem? hx, by rw [hs.1]; exact ht⟩

theorem Changes.received {cfg as rs rs' es F} (h : Changes as rs rs' es F) (hn : NamedAll as rs) (s : Step) (i : Nat) :
    received cfg rs' s i = received cfg rs s i := by
  unfold Ef.received
  cases hr : rs[i]? with
  | none =>
    have : rs'[i]? = none := by rw [List.getElem?_eq_none_iff] at hr ⊢; rw [h.len]; exact hr
    rw [this]
  | some r =>
    have hlt : i < as.length := by
      rw [namedAll_length hn]; exact (List.getElem?_eq_some_iff.mp hr).1
    obtain ⟨r', ops, hr', hc⟩ := h.each i as[i] r (List.getElem?_eq_getElem hlt) hr
    rw [hr']
    simp only
    rw [hasRx_same hc.run.same]

/-- The main loop: the usable part of the history is processed completely, unless a transmission does not end
or there is nothing to wait for any more. -/
theorem mainLoop_changes {cfg fuel tend as} (hnd : as.Nodup) : ∀ {hist left rs st rs' es}, NamedAll as rs →
    mainLoop cfg fuel tend hist left rs = .ok (st, rs', es) →
    ∃ n, n ≤ (usable tend hist).length ∧
      Changes as rs rs' es (fun i => ((usable tend hist).take n).flatMap (fun s => received cfg rs s i)) ∧
      (st ≠ .sending → (∃ r ∈ rs, hasRx r = true) → n = (usable tend hist).length) := by
  intro hist
  induction hist with
  | nil =>
    intro left rs st rs' es hn h
    refine ⟨0, Nat.zero_le _, ?_, fun _ _ => rfl⟩
    rw [mainLoop] at h
    split at h
    · simp only [Out.ok.injEq, Prod.mk.injEq] at h
      obtain ⟨_, rfl, rfl⟩ := h
      exact .refl hn
    · simp only [Out.ok.injEq, Prod.mk.injEq] at h
      obtain ⟨_, rfl, rfl⟩ := h
      exact .silent rfl (.refl hn)
  | cons s hist ih =>
    intro left rs st rs' es hn h
    rw [mainLoop] at h
    split at h
    · rename_i hw
      simp only [Out.ok.injEq, Prod.mk.injEq] at h
      obtain ⟨_, rfl, rfl⟩ := h
      refine ⟨0, Nat.zero_le _, by simpa using Changes.refl hn, fun _ hrx => ?_⟩
      exfalso
      apply hw
      obtain ⟨r, hr, hx⟩ := hrx
      unfold wantsIo
      rw [List.any_eq_true]
      exact ⟨r, hr, by rw [hx]; rfl⟩
    · split at h
      · rename_i hl
        simp only [Out.ok.injEq, Prod.mk.injEq] at h
        obtain ⟨_, rfl, rfl⟩ := h
        have e : usable tend (s :: hist) = [] := by
          unfold usable; rw [List.takeWhile_cons, hl]; rfl
        rw [e]
        exact ⟨0, Nat.zero_le _, .silent rfl (by simpa using Changes.refl hn), fun _ _ => rfl⟩
      · rename_i hl
        split at h
        · rename_i hz
          simp only [Out.ok.injEq, Prod.mk.injEq] at h
          obtain ⟨_, rfl, rfl⟩ := h
          have e : usable tend (s :: hist) = [] := by
            unfold usable; rw [List.takeWhile_cons, if_neg]; simp; omega
          rw [e]
          exact ⟨0, Nat.zero_le _, .silent rfl (by simpa using Changes.refl hn), fun _ _ => rfl⟩
        · rename_i hz
          have e : usable tend (s :: hist) = s :: usable tend hist := by
            unfold usable; rw [List.takeWhile_cons, if_pos]; simp; exact ⟨by simpa using hl, by omega⟩
          rw [e]
          rw [Out.bind_eq_ok] at h
          obtain ⟨⟨fin, rs1, e1⟩, h1, h⟩ := h
          have c1 := process_changes hnd hn h1
          simp only at h
          split at h
          · simp only [Out.bind_eq_ok] at h
            obtain ⟨⟨st2, rs2, e2⟩, h2, h⟩ := h
            simp only [Out.ok.injEq, Prod.mk.injEq] at h
            obtain ⟨rfl, rfl, rfl⟩ := h
            obtain ⟨n, hn1, c2, hfull⟩ := ih c1.named h2
            refine ⟨n + 1, by simp; omega, ?_, ?_⟩
            · apply Changes.silent rfl
              have := c1.trans c2
              simp only [List.take_succ_cons, List.flatMap_cons]
              have e2 : (fun i => Ef.received cfg rs s i ++
                  ((usable tend hist).take n).flatMap (fun s => Ef.received cfg rs1 s i)) =
                  (fun i => Ef.received cfg rs s i ++
                  ((usable tend hist).take n).flatMap (fun s => Ef.received cfg rs s i)) := by
                funext i
                congr 2
                funext s
                exact c1.received hn s i
              rw [← e2]
              exact this
            · intro hst hrx
              rw [hfull hst, List.length_cons]
              obtain ⟨r, hr, hx⟩ := hrx
              obtain ⟨i, hi⟩ := List.mem_iff_getElem?.mp hr
              have hlt : i < as.length := by
                rw [namedAll_length hn]; exact (List.getElem?_eq_some_iff.mp hi).1
              obtain ⟨r', ops, hr', hc⟩ := c1.each i as[i] r (List.getElem?_eq_getElem hlt) hi
              exact ⟨r', List.mem_of_getElem? hr', by rw [hasRx_same hc.run.same]; exact hx⟩
          · simp only [Out.ok.injEq, Prod.mk.injEq] at h
            obtain ⟨rfl, rfl, rfl⟩ := h
            refine ⟨1, by simp, .silent rfl ?_, fun h => absurd rfl h⟩
            simpa using c1

end Ef
