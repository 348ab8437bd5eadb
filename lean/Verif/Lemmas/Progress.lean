import Verif.Lemmas.LoopEnd

/-!
# Transmissions make progress

When a socket is writable, the first tx command that is not done is transmitted as often as requested before
`select` is called again, provided that the transmissions succeed.
-/

namespace Ef

open Spec

attribute [local irreducible] txOne

/-! ## The number of pending commands -/

/-- The number of tx commands that are not done. -/
def pendCount (cs : List Cmd) : Nat := cs.countP (fun c => decide (pending c))

/-- Every pending command has a sensible repeat count. -/
def Live (cs : List Cmd) : Prop := ∀ c ∈ cs, pending c → 1 ≤ c.rep ∧ c.rep < 2 ^ 32

/-- No command becomes pending. -/
def Fewer (cs cs' : List Cmd) : Prop :=
  cs'.length = cs.length ∧ ∀ (j : Nat) c c', cs[j]? = some c → cs'[j]? = some c' → pending c' → pending c

theorem Fewer.tail {c c' : Cmd} {cs cs' : List Cmd} (h : Fewer (c :: cs) (c' :: cs')) : Fewer cs cs' :=
  ⟨by simpa using h.1, fun j x x' hx hx' => h.2 (j + 1) x x' (by simpa using hx) (by simpa using hx')⟩

theorem Fewer.count {cs cs' : List Cmd} (h : Fewer cs cs') : pendCount cs' ≤ pendCount cs := by
  induction cs generalizing cs' with
  | nil =>
    have : cs' = [] := List.length_eq_zero_iff.mp h.1
    subst this
    exact Nat.le_refl _
  | cons c cs ih =>
    cases cs' with
    | nil => simp [pendCount]
    | cons c' cs' =>
      have h1 := ih h.tail
      have h2 := h.2 0 c c' rfl rfl
      unfold pendCount at h1 ⊢
      rw [List.countP_cons, List.countP_cons]
      by_cases hp : pending c'
      · simp only [hp, h2 hp, decide_true, ↓reduceIte]; omega
      · simp only [hp, decide_false, Bool.false_eq_true, ↓reduceIte]; omega

theorem Fewer.count_lt {cs cs' : List Cmd} (h : Fewer cs cs') {j : Nat} {c c' : Cmd} (hc : cs[j]? = some c)
    (hc' : cs'[j]? = some c') (hp : pending c) (hn : ¬ pending c') : pendCount cs' < pendCount cs := by
  induction cs generalizing cs' j with
  | nil => simp at hc
  | cons x cs ih =>
    cases cs' with
    | nil => simp at hc'
    | cons x' cs' =>
      have h1 := h.tail.count
      cases j with
      | zero =>
        simp only [List.getElem?_cons_zero, Option.some.injEq] at hc hc'
        subst hc; subst hc'
        unfold pendCount at h1 ⊢
        rw [List.countP_cons, List.countP_cons]
        simp only [hp, hn, decide_true, decide_false, Bool.false_eq_true, ↓reduceIte]
        omega
      | succ j =>
        have h3 := ih h.tail (by simpa using hc) (by simpa using hc')
        have h2 := h.2 0 x x' rfl rfl
        unfold pendCount at h3 ⊢
        rw [List.countP_cons, List.countP_cons]
        by_cases hq : pending x'
        · simp only [hq, h2 hq, decide_true, ↓reduceIte]; omega
        · simp only [hq, decide_false, Bool.false_eq_true, ↓reduceIte]; omega

theorem Run.done_mono {cs ops cs'} (h : Run cs ops cs') {j : Nat} {c c' : Cmd} (hc : cs[j]? = some c)
    (hc' : cs'[j]? = some c') (hd : c.done = true) : c'.done = true := by
  induction h generalizing c' with
  | nil => rw [hc] at hc'; simp only [Option.some.injEq] at hc'; subst hc'; exact hd
  | snoc cs1 cs2 ops op hr hs ih =>
    obtain ⟨x, hx, _⟩ := hs.same.back hc'
    exact hs.done_mono hx hc' (ih hx)

theorem Run.fewer {cs ops cs'} (h : Run cs ops cs') : Fewer cs cs' := by
  refine ⟨h.same.1, fun j c c' hc hc' hp => ?_⟩
  obtain ⟨x, hx, hs⟩ := h.same.2 j c hc
  rw [hc'] at hx
  simp only [Option.some.injEq] at hx
  subst hx
  refine ⟨by rw [← hs.1]; exact hp.1, ?_⟩
  cases hd : c.done with
  | false => rfl
  | true =>
    have := h.done_mono hc hc' hd
    rw [hp.2] at this
    exact this.symm

/-- A successful transmission either finishes the command or leaves a smaller repeat count. -/
theorem txOne_live {c : Cmd} {b : Buf} {a : CStr} {res : Int} (hp : pending c) (h1 : 1 ≤ c.rep) (h2 : c.rep < 2 ^ 32)
    (hres : res = (b.length : Int)) :
    (txOne c b a res).1.done = true ∨
      ((txOne c b a res).1.done = false ∧ (txOne c b a res).2.2 = true ∧ 1 ≤ (txOne c b a res).1.rep ∧
        (txOne c b a res).1.rep < 2 ^ 32) := by
  have hu : u32Sub c.rep 1 = c.rep - 1 := by unfold u32Sub; omega
  rw [txOne_eq, hu]
  unfold txOneQ
  by_cases hq : c.rep - 1 = 0
  · left
    rw [if_pos ⟨hres, hq⟩]
  · right
    rw [if_neg (fun h => hq h.2)]
    refine ⟨hp.2, by simp; omega, ?_, ?_⟩
    · simp only; omega
    · simp only; omega

theorem OpStep.live {cs op cs'} (h : OpStep cs op cs') (ha : AllSent cs [op]) (hl : Live cs) : Live cs' := by
  cases h with
  | hit b j c hj _ _ =>
    intro x hx hp
    rcases List.mem_or_eq_of_mem_set hx with hx | rfl
    · exact hl x hx hp
    · have := hp.2
      simp at this
  | miss => exact hl
  | tx j res c b a hj hp hlow hb ha' =>
    intro x hx hq
    rcases List.mem_or_eq_of_mem_set hx with hx | rfl
    · exact hl x hx hq
    · have hr := hl c (List.mem_of_getElem? hj) hp
      have hres := ha j res _ c b (List.mem_singleton.mpr rfl) hj hb
      rcases txOne_live (a := a) hp hr.1 hr.2 hres with hd | ⟨_, _, h3, h4⟩
      · rw [hq.2] at hd; simp at hd
      · exact ⟨h3, h4⟩

theorem AllSent.same {cs cs' : List Cmd} {ops : List Op} (hs : SameList cs cs') (h : AllSent cs ops) : AllSent cs' ops := by
  intro j res fin c b hm hc hb
  obtain ⟨x, hx, hst⟩ := hs.back hc
  exact h j res fin x b hm hx (by rw [← hst.2.2.2.2.1]; exact hb)

theorem Run.live {cs ops cs'} (h : Run cs ops cs') (ha : AllSent cs ops) (hl : Live cs) : Live cs' := by
  induction h with
  | nil => exact hl
  | snoc cs1 cs2 ops op hr hs ih =>
    refine hs.live ?_ (ih (fun j res fin c b hm => ha j res fin c b (List.mem_append_left _ hm)))
    refine AllSent.same hr.same (fun j res fin c b hm => ha j res fin c b (List.mem_append_right _ hm))

/-- All transmissions on interface `a` succeed. -/
def SentOk (a : CStr) (es : List Event) : Prop := ∀ e ∈ es, ifaceOf e = some a → sendOk e = true

theorem SentOk.append {a : CStr} {x y : List Event} : SentOk a (x ++ y) ↔ SentOk a x ∧ SentOk a y := by
  unfold SentOk
  simp only [List.mem_append]
  constructor
  · intro h
    exact ⟨fun e he => h e (.inl he), fun e he => h e (.inr he)⟩
  · rintro ⟨h1, h2⟩ e (he | he)
    · exact h1 e he
    · exact h2 e he

theorem Change.allSent {a r r' es F ops} (h : Change a r r' es F ops) (hs : SentOk a es) : AllSent r.cmds ops := by
  intro j res fin c b hop hcj hb
  have hev : Event.send a b res ∈ es := by
    rw [h.ev]
    refine List.mem_flatMap.mpr ⟨_, hop, ?_⟩
    simp only [opEvents, hcj, hb, Option.getD_some]
    exact List.mem_cons_self
  have := hs _ hev rfl
  simpa [sendOk] using this

theorem SentOk.onIface {a : CStr} {es : List Event} (h : SentOk a es) : SentOk a (onIface a es) :=
  fun e he => h e (List.mem_filter.mp he).1

theorem Change.live {a r r' es F ops} (h : Change a r r' es F ops) (hs : SentOk a es) (hl : Live r.cmds) : Live r'.cmds :=
  h.run.live (h.allSent hs) hl

/-! ## The transmit loop -/

/-- What a round does to socket `i`. -/
theorem txRound_at {w send} : ∀ {i0 k rs rs' k' es more}, txRound w send i0 k rs = .ok (rs', k', es, more) →
    ∀ {i r}, rs[i]? = some r → w (i0 + i) = true →
    ∃ k0, (txFirst (send k0) r.cmds = .ok none ∧ rs'[i]? = some r) ∨
      ∃ cs e m, txFirst (send k0) r.cmds = .ok (some (cs, e, m)) ∧ rs'[i]? = some { r with cmds := cs } ∧
        (m = true → more = true) ∧ ∀ x ∈ e, x ∈ es := by
  intro i0 k rs
  induction rs generalizing i0 k with
  | nil => intro rs' k' es more _ i r hr; simp at hr
  | cons q rs ih =>
    intro rs' k' es more h i r hr hw
    rw [txRound] at h
    cases i with
    | zero =>
      simp only [List.getElem?_cons_zero, Option.some.injEq] at hr
      subst hr
      rw [Nat.add_zero] at hw
      rw [if_pos hw, Out.bind_eq_ok] at h
      obtain ⟨o, ho, h⟩ := h
      cases o with
      | none =>
        simp only [Out.bind_eq_ok] at h
        obtain ⟨⟨rs2, k2, es2, m2⟩, h2, h⟩ := h
        simp only [Out.ok.injEq, Prod.mk.injEq] at h
        obtain ⟨rfl, _, rfl, rfl⟩ := h
        exact ⟨k, .inl ⟨ho, rfl⟩⟩
      | some p =>
        obtain ⟨cs, e, m⟩ := p
        simp only [Out.bind_eq_ok] at h
        obtain ⟨⟨rs2, k2, es2, m2⟩, h2, h⟩ := h
        simp only [Out.ok.injEq, Prod.mk.injEq] at h
        obtain ⟨rfl, _, rfl, rfl⟩ := h
        exact ⟨k, .inr ⟨cs, e, m, ho, rfl, fun hm => by simp [hm], fun x hx => List.mem_append_left _ hx⟩⟩
    | succ i =>
      simp only [List.getElem?_cons_succ] at hr
      have hw' : w (i0 + 1 + i) = true := by rw [show i0 + 1 + i = i0 + (i + 1) by omega]; exact hw
      have key : ∀ {k q' rs2 k2 es2 m2 e m}, txRound w send (i0 + 1) k rs = .ok (rs2, k2, es2, m2) →
          ∃ k0, (txFirst (send k0) r.cmds = .ok none ∧ (q' :: rs2)[i + 1]? = some r) ∨
            ∃ cs e' m', txFirst (send k0) r.cmds = .ok (some (cs, e', m')) ∧
              (q' :: rs2)[i + 1]? = some { r with cmds := cs } ∧
              (m' = true → (m || m2) = true) ∧ ∀ x ∈ e', x ∈ (e ++ es2 : List Event) := by
        intro k q' rs2 k2 es2 m2 e m h2
        obtain ⟨k0, h3 | ⟨cs, e', m', h3, h4, h5, h6⟩⟩ := ih h2 hr hw'
        · exact ⟨k0, .inl ⟨h3.1, by simpa using h3.2⟩⟩
        · exact ⟨k0, .inr ⟨cs, e', m', h3, by simpa using h4, fun hm => by simp [h5 hm],
            fun x hx => List.mem_append_right _ (h6 x hx)⟩⟩
      split at h
      · rw [Out.bind_eq_ok] at h
        obtain ⟨o, ho, h⟩ := h
        cases o with
        | none =>
          simp only [Out.bind_eq_ok] at h
          obtain ⟨⟨rs2, k2, es2, m2⟩, h2, h⟩ := h
          simp only [Out.ok.injEq, Prod.mk.injEq] at h
          obtain ⟨rfl, _, rfl, rfl⟩ := h
          have := key (q' := q) (e := []) (m := false) h2
          simpa using this
        | some p =>
          obtain ⟨cs, e, m⟩ := p
          simp only [Out.bind_eq_ok] at h
          obtain ⟨⟨rs2, k2, es2, m2⟩, h2, h⟩ := h
          simp only [Out.ok.injEq, Prod.mk.injEq] at h
          obtain ⟨rfl, _, rfl, rfl⟩ := h
          exact key h2
      · simp only [Out.bind_eq_ok] at h
        obtain ⟨⟨rs2, k2, es2, m2⟩, h2, h⟩ := h
        simp only [Out.ok.injEq, Prod.mk.injEq] at h
        obtain ⟨rfl, _, rfl, rfl⟩ := h
        have := key (q' := q) (e := []) (m := false) h2
        simpa using this

/-- The first pending command of a writable socket is done when the transmit loop ends. -/
theorem txLoop_progress {w send} : ∀ {fuel k as rs rs' es}, as.Nodup → NamedAll as rs →
    txLoop w send fuel k rs = .ok (true, rs', es) →
    ∀ {i a r j c}, as[i]? = some a → rs[i]? = some r → w i = true → Live r.cmds → SentOk a es →
      r.cmds[j]? = some c → pending c → (∀ (j' : Nat) x, j' < j → r.cmds[j']? = some x → ¬ pending x) →
      ∃ r' c', rs'[i]? = some r' ∧ r'.cmds[j]? = some c' ∧ c'.done = true := by
  intro fuel
  induction fuel with
  | zero =>
    intro k as rs rs' es _ _ h
    simp [txLoop] at h
  | succ fuel ih =>
    intro k as rs rs' es hnd hn h i a r j c ha hr hw hl hs hj hp hlow
    rw [txLoop, Out.bind_eq_ok] at h
    obtain ⟨⟨rs1, k1, e1, more⟩, h1, h⟩ := h
    have c1 := ((txRound_round hn h1).changes (F := fun _ => []) hnd hn (fun _ _ _ _ _ _ hp => hp)).1
    have hat := txRound_at h1 hr (by rw [Nat.zero_add]; exact hw)
    obtain ⟨k0, ⟨h2, _⟩ | ⟨cs, e, m, h2, h3, h4, h5⟩⟩ := hat
    · rcases txFirst_ok h2 with ⟨_, hall⟩ | ⟨_, _, _, _, he, _⟩
      · exact absurd hp (hall c (List.mem_of_getElem? hj))
      · simp at he
    · rcases txFirst_ok h2 with ⟨he, _⟩ | ⟨j', x, b, a', he, hj', hp', hlow', hb, ha'⟩
      · simp at he
      simp only [Option.some.injEq, Prod.mk.injEq] at he
      obtain ⟨rfl, hem⟩ := he
      have hee : e = (txOne x b a' (send k0)).2.1 := congrArg Prod.fst hem
      have hmm : m = (txOne x b a' (send k0)).2.2 := congrArg Prod.snd hem
      subst hee
      subst hmm
      have ejj : j' = j := by
        rcases Nat.lt_trichotomy j' j with hlt | heq | hlt
        · exact absurd hp' (hlow j' x hlt hj')
        · exact heq
        · exact absurd hp (hlow' j c hlt hj)
      subst ejj
      rw [hj] at hj'
      simp only [Option.some.injEq] at hj'
      subst hj'
      have ea : a' = a := by
        have := (namedAll_get hn i ha hr).2 c (List.mem_of_getElem? hj)
        rw [ha'] at this
        simpa using this
      subst ea
      have hjlt : j' < r.cmds.length := (List.getElem?_eq_some_iff.mp hj).1
      have hget : (r.cmds.set j' (txOne c b a' (send k0)).1)[j']? = some (txOne c b a' (send k0)).1 := by
        rw [List.getElem?_set, if_pos rfl, if_pos hjlt]
      have hs1 : SentOk a' e1 := by
        simp only at h
        split at h
        · simp only [Out.bind_eq_ok] at h
          obtain ⟨⟨f2, rs2, e2⟩, _, h⟩ := h
          simp only [Out.ok.injEq, Prod.mk.injEq] at h
          obtain ⟨_, _, rfl⟩ := h
          exact (SentOk.append.mp hs).1
        · simp only [Out.ok.injEq, Prod.mk.injEq] at h
          obtain ⟨_, _, rfl⟩ := h
          exact hs
      have hres : send k0 = (b.length : Int) := by
        have hin : Event.send a' b (send k0) ∈ e1 := by
          refine h5 _ ?_
          rw [txOne_events c b a' (send k0) hp.2]
          exact List.mem_cons_self
        have := hs1 _ hin rfl
        simpa [sendOk] using this
      have hrep := hl c (List.mem_of_getElem? hj) hp
      have hcase := txOne_live (a := a') hp hrep.1 hrep.2 hres
      simp only at h
      by_cases hmore : more = true
      · rw [if_pos hmore] at h
        simp only [Out.bind_eq_ok] at h
        obtain ⟨⟨f2, rs2, e2⟩, h6, h⟩ := h
        simp only [Out.ok.injEq, Prod.mk.injEq] at h
        obtain ⟨rfl, rfl, rfl⟩ := h
        have hs2 := (SentOk.append.mp hs).2
        rcases hcase with hd | ⟨hd, _, _, _⟩
        · have c2 := txLoop_changes hnd c1.named h6
          obtain ⟨r', ops, hr', hch⟩ := c2.each i a' _ ha h3
          obtain ⟨c', hc', _⟩ := hch.run.same.2 j' _ hget
          exact ⟨r', c', hr', hc', hch.run.done_mono hget hc' hd⟩
        · obtain ⟨rx, opsx, hrx, hchx⟩ := c1.each i a' r ha hr
          rw [h3] at hrx
          simp only [Option.some.injEq] at hrx
          subst hrx
          have hl1 := hchx.live hs1.onIface hl
          have hp1 : pending (txOne c b a' (send k0)).1 := ⟨(txOne_static c b a' (send k0)).1.trans hp.1, hd⟩
          refine ih hnd c1.named h6 ha h3 hw hl1 hs2 hget hp1 ?_
          intro j2 x hlt hx
          simp only at hx
          rw [List.getElem?_set, if_neg (by omega)] at hx
          exact hlow j2 x hlt hx
      · rw [if_neg hmore] at h
        simp only [Out.ok.injEq, Prod.mk.injEq] at h
        obtain ⟨_, rfl, rfl⟩ := h
        rcases hcase with hd | ⟨_, hm, _, _⟩
        · exact ⟨_, _, h3, hget, hd⟩
        · exact absurd (h4 hm) hmore

/-- There is a first pending command. -/
theorem first_pending {cs : List Cmd} (h : 0 < pendCount cs) :
    ∃ (j : Nat) (c : Cmd), cs[j]? = some c ∧ pending c ∧ ∀ (j' : Nat) x, j' < j → cs[j']? = some x → ¬ pending x := by
  induction cs with
  | nil => simp [pendCount] at h
  | cons c cs ih =>
    by_cases hp : pending c
    · exact ⟨0, c, rfl, hp, fun _ _ h => absurd h (by omega)⟩
    · have : pendCount (c :: cs) = pendCount cs := by
        unfold pendCount
        rw [List.countP_cons]
        simp [hp]
      rw [this] at h
      obtain ⟨j, x, h1, h2, h3⟩ := ih h
      refine ⟨j + 1, x, by simpa using h1, h2, ?_⟩
      intro j' y hlt hy
      cases j' with
      | zero => simp only [List.getElem?_cons_zero, Option.some.injEq] at hy; subst hy; exact hp
      | succ j' => exact h3 j' y (by omega) (by simpa using hy)

theorem pendCount_hasTx (r : Resource) : hasTx r = true ↔ 0 < pendCount r.cmds := by
  unfold hasTx pendCount
  rw [List.any_eq_true, List.countP_pos_iff]
  constructor
  · rintro ⟨c, hc, h⟩
    simp only [Bool.and_eq_true, beq_iff_eq, Bool.not_eq_true'] at h
    exact ⟨c, hc, decide_eq_true h⟩
  · rintro ⟨c, hc, h⟩
    have h := of_decide_eq_true h
    exact ⟨c, hc, by simp [h.1, h.2]⟩

/-- One answer of the operating system on which the socket is writable. -/
theorem process_progress {cfg fuel s as rs rs' es} (hnd : as.Nodup) (hn : NamedAll as rs)
    (h : process cfg fuel s rs = .ok (true, rs', es)) {i : Nat} {a : CStr} {r : Resource} (ha : as[i]? = some a)
    (hr : rs[i]? = some r) (hl : Live r.cmds) (hs : SentOk a es) :
    ∃ r', rs'[i]? = some r' ∧ Live r'.cmds ∧
      pendCount r'.cmds ≤ pendCount r.cmds - (if s.writable i then 1 else 0) := by
  obtain ⟨r', ops, hr', hch⟩ := (process_changes hnd hn h).each i a r ha hr
  refine ⟨r', hr', hch.live hs.onIface hl, ?_⟩
  by_cases hw : s.writable i = true
  · rw [if_pos hw]
    by_cases h0 : 0 < pendCount r.cmds
    · unfold process at h
      simp only [Out.bind_eq_ok] at h
      obtain ⟨⟨rs1, e1⟩, h1, h⟩ := h
      simp only [Out.bind_eq_ok] at h
      obtain ⟨⟨f2, rs2, e2⟩, h2, h⟩ := h
      simp only [Out.ok.injEq, Prod.mk.injEq] at h
      obtain ⟨rfl, rfl, rfl⟩ := h
      have c1 := ((rxAll_round hn h1).changes (F := received cfg rs s) hnd hn (fun k a r r' e hr hp => by
        unfold received
        rw [hr]
        simpa using hp)).1
      obtain ⟨r1, ops1, hr1, hch1⟩ := c1.each i a r ha hr
      obtain ⟨hs1, hs2⟩ := SentOk.append.mp hs
      have hl1 := hch1.live hs1.onIface hl
      have hle1 := hch1.run.fewer.count
      have c2 := txLoop_changes hnd c1.named h2
      obtain ⟨r2, ops2, hr2, hch2⟩ := c2.each i a r1 ha hr1
      rw [hr2] at hr'
      simp only [Option.some.injEq] at hr'
      subst hr'
      have hle2 := hch2.run.fewer.count
      by_cases h3 : 0 < pendCount r1.cmds
      · obtain ⟨j, c, hj, hp, hlow⟩ := first_pending h3
        have hws : writeSet s rs i = true := by
          unfold writeSet
          rw [hr]
          simp only [Bool.and_eq_true]
          exact ⟨(pendCount_hasTx r).mpr h0, hw⟩
        obtain ⟨rq, c', hq, hc', hd⟩ := txLoop_progress hnd c1.named h2 ha hr1 hws hl1 hs2 hj hp hlow
        rw [hr2] at hq
        simp only [Option.some.injEq] at hq
        subst hq
        have := hch2.run.fewer.count_lt hj hc' hp (fun hpc => by rw [hpc.2] at hd; simp at hd)
        omega
      · omega
    · have := hch.run.fewer.count
      omega
  · rw [if_neg hw]
    have := hch.run.fewer.count
    omega

/-- The main loop: each time the socket is writable one more command is done. -/
theorem mainLoop_progress {cfg fuel tend as} (hnd : as.Nodup) : ∀ {hist left rs st rs' es}, NamedAll as rs →
    mainLoop cfg fuel tend hist left rs = .ok (st, rs', es) → st ≠ .sending →
    ∀ {i a r}, as[i]? = some a → rs[i]? = some r → Live r.cmds → SentOk a es →
      ∃ r', rs'[i]? = some r' ∧
        pendCount r'.cmds ≤ pendCount r.cmds - (usable tend hist).countP (fun s => s.writable i) := by
  intro hist
  induction hist with
  | nil =>
    intro left rs st rs' es hn h hst i a r ha hr hl hs
    rcases mainLoop_nil h with ⟨_, _, rfl, _⟩ | ⟨_, _, rfl, _⟩
    · exact ⟨r, hr, by simp [usable]⟩
    · exact ⟨r, hr, by simp [usable]⟩
  | cons s hist ih =>
    intro left rs st rs' es hn h hst i a r ha hr hl hs
    rcases mainLoop_cons h with ⟨h1, _, rfl, _⟩ | ⟨_, h1, _, rfl, _⟩ | ⟨_, h1, fin, rs1, e1, hp, h2⟩
    · refine ⟨r, hr, ?_⟩
      have : pendCount r.cmds = 0 := by
        unfold wantsIo at h1
        rw [List.any_eq_false] at h1
        have h2 := h1 r (List.mem_of_getElem? hr)
        have h3 : ¬ hasTx r = true := by
          intro hx
          rw [hx] at h2
          simp at h2
        rw [pendCount_hasTx] at h3
        omega
      omega
    · refine ⟨r, hr, ?_⟩
      rw [usable_cons, if_pos h1]
      simp
    · rcases h2 with ⟨_, rfl, _⟩ | ⟨rfl, e2, h2, rfl⟩
      · exact absurd rfl hst
      · have hs' : SentOk a (e1 ++ e2) := fun e he => hs e (List.mem_cons_of_mem _ he)
        obtain ⟨hs1, hs2⟩ := SentOk.append.mp hs'
        obtain ⟨r1, hr1, hl1, hc1⟩ := process_progress hnd hn hp ha hr hl hs1
        obtain ⟨r', hr', hc'⟩ := ih (process_changes hnd hn hp).named h2 hst ha hr1 hl1 hs2
        refine ⟨r', hr', ?_⟩
        rw [usable_cons, if_neg (by rw [h1]; simp), List.countP_cons]
        split at hc1 <;> rename_i hw
        · simp only [hw, ↓reduceIte]; omega
        · simp only [hw, Bool.false_eq_true, ↓reduceIte]; omega

end Ef
