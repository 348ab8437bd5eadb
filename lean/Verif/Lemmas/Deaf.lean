import Verif.Lemmas.LoopEnd

/-!
# A run compared with the run where nothing is received
-/

namespace Ef

open Spec

/-- tx commands are equal, other commands have at least the same type. -/
def Sim1 (c c' : Cmd) : Prop := c'.type = c.type ∧ (c.type = .tx → c' = c)

/-- The same for lists of commands. -/
inductive SimC : List Cmd → List Cmd → Prop where
  | nil : SimC [] []
  | cons (c c' cs cs') : Sim1 c c' → SimC cs cs' → SimC (c :: cs) (c' :: cs')

/-- The same for resources. -/
inductive SimR : List Resource → List Resource → Prop where
  | nil : SimR [] []
  | cons (r r' rs rs') : SimC r.cmds r'.cmds → SimR rs rs' → SimR (r :: rs) (r' :: rs')

theorem Sim1.refl (c : Cmd) : Sim1 c c := ⟨rfl, fun _ => rfl⟩

theorem SimC.refl (cs : List Cmd) : SimC cs cs := by
  induction cs with
  | nil => exact .nil
  | cons c cs ih => exact .cons _ _ _ _ (.refl c) ih

theorem SimR.refl (rs : List Resource) : SimR rs rs := by
  induction rs with
  | nil => exact .nil
  | cons r rs ih => exact .cons _ _ _ _ (.refl _) ih

theorem SimC.trans {a b c : List Cmd} (h1 : SimC a b) (h2 : SimC b c) : SimC a c := by
  induction h1 generalizing c with
  | nil => cases h2; exact .nil
  | cons x x' xs xs' hx _ ih =>
    cases h2 with
    | cons _ y _ ys hy hys =>
      refine .cons _ _ _ _ ⟨by rw [hy.1, hx.1], fun ht => ?_⟩ (ih hys)
      rw [hy.2 (by rw [hx.1]; exact ht), hx.2 ht]

theorem SimC.symm {a b : List Cmd} (h : SimC a b) : SimC b a := by
  induction h with
  | nil => exact .nil
  | cons c c' cs cs' hc _ ih =>
    exact .cons _ _ _ _ ⟨hc.1.symm, fun ht => (hc.2 (by rw [← hc.1]; exact ht)).symm⟩ ih

theorem SimR.symm {a b : List Resource} (h : SimR a b) : SimR b a := by
  induction h with
  | nil => exact .nil
  | cons r r' rs rs' hc _ ih => exact .cons _ _ _ _ hc.symm ih

theorem SimR.trans {a b c : List Resource} (h1 : SimR a b) (h2 : SimR b c) : SimR a c := by
  induction h1 generalizing c with
  | nil => cases h2; exact .nil
  | cons x x' xs xs' hx _ ih =>
    cases h2 with
    | cons _ y _ ys hy hys => exact .cons _ _ _ _ (hx.trans hy) (ih hys)

theorem SimC.hasTx {cs cs' : List Cmd} (h : SimC cs cs') :
    cs'.any (fun c => c.type == .tx && !c.done) = cs.any (fun c => c.type == .tx && !c.done) := by
  induction h with
  | nil => rfl
  | cons c c' cs cs' hc _ ih =>
    simp only [List.any_cons, ih]
    by_cases ht : c.type = .tx
    · rw [hc.2 ht]
    · have : (c.type == CmdType.tx) = false := by simpa using ht
      have : (c'.type == CmdType.tx) = false := by rw [hc.1]; simpa using ht
      simp [*]

theorem SimC.hasRx {cs cs' : List Cmd} (h : SimC cs cs') :
    cs'.any (fun c => c.type == .rx) = cs.any (fun c => c.type == .rx) := by
  induction h with
  | nil => rfl
  | cons c c' cs cs' hc _ ih => simp only [List.any_cons, ih, hc.1]

theorem SimR.wantsIo {rs rs' : List Resource} (h : SimR rs rs') : wantsIo rs' = wantsIo rs := by
  induction h with
  | nil => rfl
  | cons r r' rs rs' hc _ ih =>
    simp only [Ef.wantsIo, List.any_cons, Ef.hasRx, Ef.hasTx, hc.hasTx, hc.hasRx] at ih ⊢
    rw [ih]

theorem SimR.get {rs rs' : List Resource} (h : SimR rs rs') (i : Nat) :
    (rs[i]? = none ∧ rs'[i]? = none) ∨ ∃ r r', rs[i]? = some r ∧ rs'[i]? = some r' ∧ SimC r.cmds r'.cmds := by
  induction h generalizing i with
  | nil => left; simp
  | cons r r' rs rs' hc _ ih =>
    cases i with
    | zero => right; exact ⟨r, r', rfl, rfl, hc⟩
    | succ i => simpa using ih i

theorem SimR.writeSet {rs rs' : List Resource} (h : SimR rs rs') (s : Step) :
    writeSet (deafStep s) rs' = writeSet s rs := by
  funext i
  unfold Ef.writeSet
  rcases h.get i with ⟨h1, h2⟩ | ⟨r, r', h1, h2, hc⟩
  · rw [h1, h2]
  · rw [h1, h2]
    simp only [Ef.hasTx, hc.hasTx, deafStep]

/-! ## Transmission -/

theorem txFirst_sim {res : Int} {cs cs' : List Cmd} (h : SimC cs cs') {o} (ho : txFirst res cs = .ok o) :
    (o = none ∧ txFirst res cs' = .ok none) ∨
    ∃ ds ds' e m, o = some (ds, e, m) ∧ txFirst res cs' = .ok (some (ds', e, m)) ∧ SimC ds ds' := by
  induction h generalizing o with
  | nil =>
    simp only [txFirst, Out.ok.injEq] at ho
    exact .inl ⟨ho.symm, rfl⟩
  | cons c c' cs cs' hc hcs ih =>
    unfold txFirst at ho ⊢
    by_cases ht : c.type = .tx
    · have e := hc.2 ht
      subst e
      by_cases hd : c'.type = .tx ∧ ¬ c'.done
      · rw [if_pos hd] at ho ⊢
        split at ho
        · simp only [Out.ok.injEq] at ho ⊢
          right
          exact ⟨_, _, _, _, ho.symm, rfl, .cons _ _ _ _ (.refl _) hcs⟩
        · simp at ho
      · rw [if_neg hd] at ho ⊢
        simp only [Out.bind_eq_ok] at ho
        obtain ⟨o1, h1, h2⟩ := ho
        rcases ih h1 with ⟨rfl, h3⟩ | ⟨ds, ds', e, m, rfl, h3, hs⟩
        · rw [h3]
          simp only [Out.ok.injEq] at h2
          exact .inl ⟨h2.symm, rfl⟩
        · rw [h3]
          simp only [Out.ok.injEq] at h2
          exact .inr ⟨_, _, e, m, h2.symm, rfl, .cons _ _ _ _ (.refl _) hs⟩
    · have hd : ¬ (c.type = .tx ∧ ¬ c.done) := fun h => ht h.1
      have hd' : ¬ (c'.type = .tx ∧ ¬ c'.done) := fun h => ht (by rw [← hc.1]; exact h.1)
      rw [if_neg hd] at ho
      rw [if_neg hd']
      simp only [Out.bind_eq_ok] at ho
      obtain ⟨o1, h1, h2⟩ := ho
      rcases ih h1 with ⟨rfl, h3⟩ | ⟨ds, ds', e, m, rfl, h3, hs⟩
      · rw [h3]
        simp only [Out.ok.injEq] at h2
        exact .inl ⟨h2.symm, rfl⟩
      · rw [h3]
        simp only [Out.ok.injEq] at h2
        exact .inr ⟨_, _, e, m, h2.symm, rfl, .cons _ _ _ _ hc hs⟩

theorem txRound_sim {w send i k rs rs' x} (h : SimR rs rs') (hx : txRound w send i k rs = .ok x) :
    ∃ rs2, txRound w send i k rs' = .ok (rs2, x.2) ∧ SimR x.1 rs2 := by
  induction h generalizing i k x with
  | nil =>
    simp only [txRound, Out.ok.injEq] at hx
    subst hx
    exact ⟨[], rfl, .nil⟩
  | cons r r' rs rs' hc hcs ih =>
    unfold txRound at hx ⊢
    cases hw : w i with
    | false =>
      simp only [hw, Bool.false_eq_true, ↓reduceIte, Out.bind_eq_ok] at hx ⊢
      obtain ⟨⟨rs1, k1, es1, m1⟩, h2, h3⟩ := hx
      obtain ⟨rs2, h4, h5⟩ := ih h2
      simp only [Out.ok.injEq] at h3
      subst h3
      exact ⟨r' :: rs2, ⟨_, h4, rfl⟩, .cons _ _ _ _ hc h5⟩
    | true =>
      simp only [hw, ↓reduceIte, Out.bind_eq_ok] at hx ⊢
      obtain ⟨o, h1, h⟩ := hx
      rcases txFirst_sim hc h1 with ⟨rfl, h3⟩ | ⟨ds, ds', e, m, rfl, h3, hs⟩
      · simp only [Out.bind_eq_ok] at h
        obtain ⟨⟨rs1, k1, es1, m1⟩, h2, h6⟩ := h
        obtain ⟨rs2, h4, h5⟩ := ih h2
        simp only [Out.ok.injEq] at h6
        subst h6
        refine ⟨r' :: rs2, ⟨_, h3, ?_⟩, .cons _ _ _ _ hc h5⟩
        simp only [Out.bind_eq_ok]
        exact ⟨_, h4, rfl⟩
      · simp only [Out.bind_eq_ok] at h
        obtain ⟨⟨rs1, k1, es1, m1⟩, h2, h6⟩ := h
        obtain ⟨rs2, h4, h5⟩ := ih h2
        simp only [Out.ok.injEq] at h6
        subst h6
        refine ⟨{ r' with cmds := ds' } :: rs2, ⟨_, h3, ?_⟩, .cons _ _ _ _ hs h5⟩
        simp only [Out.bind_eq_ok]
        exact ⟨_, h4, rfl⟩

theorem txLoop_sim {w send} : ∀ {fuel k rs rs' fin rs1 es}, SimR rs rs' →
    txLoop w send fuel k rs = .ok (fin, rs1, es) →
    ∃ rs2, txLoop w send fuel k rs' = .ok (fin, rs2, es) ∧ SimR rs1 rs2 := by
  intro fuel
  induction fuel with
  | zero =>
    intro k rs rs' fin rs1 es h hx
    simp only [txLoop, Out.ok.injEq, Prod.mk.injEq] at hx
    obtain ⟨rfl, rfl, rfl⟩ := hx
    exact ⟨rs', rfl, h⟩
  | succ fuel ih =>
    intro k rs rs' fin rs1 es h hx
    unfold txLoop at hx ⊢
    simp only [Out.bind_eq_ok] at hx ⊢
    obtain ⟨⟨q1, k1, e1, m1⟩, h1, hx⟩ := hx
    obtain ⟨q2, h2, hs⟩ := txRound_sim h h1
    simp only at hx h2 hs
    split at hx
    · rename_i hm
      simp only [Out.bind_eq_ok] at hx
      obtain ⟨⟨f2, p2, e2⟩, h3, h4⟩ := hx
      obtain ⟨q3, h5, hs3⟩ := ih hs h3
      simp only [Out.ok.injEq, Prod.mk.injEq] at h4
      obtain ⟨rfl, rfl, rfl⟩ := h4
      refine ⟨q3, ⟨_, h2, ?_⟩, hs3⟩
      simp only [hm, ↓reduceIte, Out.bind_eq_ok]
      exact ⟨_, h5, rfl⟩
    · rename_i hm
      simp only [Out.ok.injEq, Prod.mk.injEq] at hx
      obtain ⟨rfl, rfl, rfl⟩ := hx
      refine ⟨q2, ⟨_, h2, ?_⟩, hs⟩
      simp only [hm]
      rfl

/-! ## Reception -/

theorem simC_set {cs : List Cmd} {j : Nat} {c c' : Cmd} (hj : cs[j]? = some c) (h : Sim1 c c') : SimC cs (cs.set j c') := by
  induction cs generalizing j with
  | nil => simp at hj
  | cons x cs ih =>
    cases j with
    | zero =>
      simp only [List.getElem?_cons_zero, Option.some.injEq] at hj
      subst hj
      exact .cons _ _ _ _ h (.refl _)
    | succ j =>
      simp only [List.getElem?_cons_succ] at hj
      exact .cons _ _ _ _ (.refl _) (ih hj)

theorem rxResource_sim {cfg s i r r' e a} (hn : Named a r) (h : rxResource cfg s i r = .ok (r', e))
    (hno : hasRx r = true → ∀ b ∈ delivered cfg i s, ∀ c ∈ r.cmds, c.type = .tx → ¬ Wants c b) :
    SimC r.cmds r'.cmds ∧ ∀ x ∈ e, ∀ a b n, x ≠ .send a b n := by
  obtain ⟨ops, hc⟩ := rxResource_ok hn h
  have hev : ∀ x ∈ e, ∀ a b n, x ≠ .send a b n := by
    unfold rxResource at h
    split at h
    · split at h
      · simp only [Out.ok.injEq, Prod.mk.injEq] at h; rw [← h.2]; simp
      · unfold rxFrame at h
        simp only at h
        split at h
        · simp only [Out.ok.injEq, Prod.mk.injEq] at h; rw [← h.2]; simp
        · simp only [Out.bind_eq_ok] at h
          obtain ⟨b, _, o, _, h⟩ := h
          split at h
          · split at h
            · simp only [Out.ok.injEq, Prod.mk.injEq] at h; rw [← h.2]; simp
            · simp at h
          · simp only [Out.bind_eq_ok] at h
            obtain ⟨a, _, h⟩ := h
            simp only [Out.ok.injEq, Prod.mk.injEq] at h; rw [← h.2]; simp
    · simp only [Out.ok.injEq, Prod.mk.injEq] at h; rw [← h.2]; simp
  refine ⟨?_, hev⟩
  unfold rxResource at h
  split at h
  · rename_i hr
    simp only [Bool.and_eq_true] at hr
    split at h
    · simp only [Out.ok.injEq, Prod.mk.injEq] at h; rw [← h.1]; exact .refl _
    · rename_i m hm
      unfold rxFrame at h
      simp only at h
      split at h
      · simp only [Out.ok.injEq, Prod.mk.injEq] at h; rw [← h.1]; exact .refl _
      · rename_i hlen
        simp only [Out.bind_eq_ok] at h
        obtain ⟨b, hb, o, ho, h⟩ := h
        have hdel : b ∈ delivered cfg i s := by
          unfold delivered
          rw [if_pos hr.2, hm]
          simp only
          rw [if_neg, hb]
          · simp [Out.get?]
          · intro he
            rw [he] at hlen
            simp at hlen
        rcases matchCmds_ok ho with ⟨rfl, _⟩ | ⟨j, c, rfl, hj, hstep⟩
        · simp only [Out.bind_eq_ok] at h
          obtain ⟨a, _, h⟩ := h
          simp only [Out.ok.injEq, Prod.mk.injEq] at h; rw [← h.1]; exact .refl _
        · simp only at h
          split at h
          · simp only [Out.ok.injEq, Prod.mk.injEq] at h
            rw [← h.1]
            refine simC_set hj ⟨rfl, fun ht => ?_⟩
            exfalso
            have hm : cmdMatches b c = .ok true := by
              generalize r.cmds.set j { c with done := true } = q at hstep
              cases hstep with
              | hit _ _ c' hj' hm' _ =>
                rw [hj] at hj'
                simp only [Option.some.injEq] at hj'
                rw [hj']
                exact hm'
            exact hno hr.1 b hdel c (List.mem_of_getElem? hj) ht ((cmdMatches_ok hm).mp rfl).2
          · simp at h
  · simp only [Out.ok.injEq, Prod.mk.injEq] at h; rw [← h.1]; exact .refl _

theorem rxResource_deaf (cfg : Config) (s : Step) (i : Nat) (r : Resource) :
    rxResource cfg (deafStep s) i r = .ok (r, []) := by
  unfold rxResource deafStep
  split <;> rfl

theorem rxAll_deaf (cfg : Config) (s : Step) (i : Nat) (rs : List Resource) :
    rxAll cfg (deafStep s) i rs = .ok (rs, []) := by
  induction rs generalizing i with
  | nil => rfl
  | cons r rs ih =>
    unfold rxAll
    rw [rxResource_deaf, ih]
    rfl

theorem rxAll_sim {cfg s i as rs rs' es} (hn : NamedAll as rs) (h : rxAll cfg s i rs = .ok (rs', es))
    (hno : ∀ (k : Nat) r, rs[k]? = some r → hasRx r = true → ∀ b ∈ delivered cfg (i + k) s, ∀ c ∈ r.cmds, c.type = .tx → ¬ Wants c b) :
    SimR rs rs' ∧ ∀ x ∈ es, ∀ a b n, x ≠ .send a b n := by
  induction rs generalizing i as rs' es with
  | nil =>
    simp only [rxAll, Out.ok.injEq, Prod.mk.injEq] at h
    rw [← h.1, ← h.2]
    exact ⟨.nil, by simp⟩
  | cons r rs ih =>
    cases as with
    | nil => exact hn.elim
    | cons a as =>
      unfold rxAll at h
      simp only [Out.bind_eq_ok] at h
      obtain ⟨⟨r1, e1⟩, h1, ⟨rs1, es1⟩, h2, h3⟩ := h
      simp only [Out.ok.injEq, Prod.mk.injEq] at h3
      obtain ⟨rfl, rfl⟩ := h3
      obtain ⟨s1, v1⟩ := rxResource_sim hn.1 h1 (fun hx b hb => hno 0 r rfl hx b hb)
      obtain ⟨s2, v2⟩ := ih hn.2 h2 (fun k r hk hx b hb => hno (k + 1) r hk hx b (by
        rw [show i + (k + 1) = i + 1 + k by omega]; exact hb))
      refine ⟨.cons _ _ _ _ s1 s2, fun x hx => ?_⟩
      rcases List.mem_append.mp hx with hx | hx
      · exact v1 x hx
      · exact v2 x hx

theorem sends_append (a b : List Event) : sends (a ++ b) = sends a ++ sends b := List.filterMap_append

theorem sends_none {es : List Event} (h : ∀ x ∈ es, ∀ a b n, x ≠ .send a b n) : sends es = [] := by
  unfold sends
  rw [List.filterMap_eq_nil_iff]
  intro e he
  cases e <;> first | rfl | exact absurd rfl (h _ he _ _ _)

/-- No frame received during this step is wanted by a tx command of its interface. -/
def NoEcho (cfg : Config) (rs : List Resource) (s : Step) : Prop :=
  ∀ (k : Nat) r, rs[k]? = some r → hasRx r = true → ∀ b ∈ delivered cfg k s, ∀ c ∈ r.cmds, c.type = .tx → ¬ Wants c b

theorem process_sim {cfg fuel s as rs rs' fin rs1 es} (hn : NamedAll as rs) (hs : SimR rs rs')
    (h : process cfg fuel s rs = .ok (fin, rs1, es)) (hno : NoEcho cfg rs s) :
    ∃ rs2 es2, process cfg fuel (deafStep s) rs' = .ok (fin, rs2, es2) ∧ SimR rs1 rs2 ∧ sends es2 = sends es := by
  unfold process at h ⊢
  simp only [Out.bind_eq_ok] at h ⊢
  obtain ⟨⟨q1, e1⟩, h1, ⟨f2, q2, e2⟩, h2, h3⟩ := h
  simp only [Out.ok.injEq, Prod.mk.injEq] at h3
  obtain ⟨rfl, rfl, rfl⟩ := h3
  obtain ⟨s1, v1⟩ := rxAll_sim hn h1 (fun k r hk hx b hb => hno k r hk hx b (by rwa [Nat.zero_add] at hb))
  have hs1 : SimR q1 rs' := by
    exact s1.symm.trans hs
  rw [rxAll_deaf]
  have hw : writeSet (deafStep s) rs' = writeSet s rs := hs.writeSet s
  obtain ⟨q3, h4, hs3⟩ := txLoop_sim hs1 h2
  refine ⟨q3, e2, ⟨(rs', []), rfl, ?_⟩, hs3, ?_⟩
  · refine ⟨(f2, q3, e2), ?_, rfl⟩
    rw [hw]
    exact h4
  · rw [sends_append, sends_none v1, List.nil_append]

theorem NoEcho.same {cfg as rs rs' es F s} (h : NoEcho cfg rs s) (hn : NamedAll as rs) (hc : Changes as rs rs' es F) :
    NoEcho cfg rs' s := by
  intro k r' hk hx b hb c' hc' ht hw
  have hlt : k < rs.length := by rw [← hc.len]; exact (List.getElem?_eq_some_iff.mp hk).1
  have hla : k < as.length := by rw [namedAll_length hn]; exact hlt
  obtain ⟨r2, ops, hr2, hch⟩ := hc.each k as[k] rs[k] (List.getElem?_eq_getElem hla) (List.getElem?_eq_getElem hlt)
  rw [hk] at hr2
  simp only [Option.some.injEq] at hr2
  subst hr2
  obtain ⟨j, hj⟩ := List.mem_iff_getElem?.mp hc'
  obtain ⟨c, hcj, hst⟩ := hch.run.same.back hj
  refine h k rs[k] (List.getElem?_eq_getElem hlt) (by rw [← hasRx_same hch.run.same]; exact hx) b hb c (List.mem_of_getElem? hcj) ?_ ((Wants.same hst b).mp hw)
  rw [← hst.1]
  exact ht

theorem mainLoop_sim {cfg fuel tend as} (hnd : as.Nodup) : ∀ {hist left rs rs' st rs1 es}, NamedAll as rs → SimR rs rs' →
    mainLoop cfg fuel tend hist left rs = .ok (st, rs1, es) → (∀ s ∈ usable tend hist, NoEcho cfg rs s) →
    ∃ rs2 es2, mainLoop cfg fuel tend (hist.map deafStep) left rs' = .ok (st, rs2, es2) ∧ SimR rs1 rs2 ∧
      sends es2 = sends es := by
  intro hist
  induction hist with
  | nil =>
    intro left rs rs' st rs1 es hn hs h _
    have hw := hs.wantsIo
    rcases mainLoop_nil h with ⟨h1, rfl, rfl, rfl⟩ | ⟨h1, rfl, rfl, rfl⟩
    · refine ⟨rs', [], ?_, hs, rfl⟩
      rw [List.map_nil, mainLoop, hw, h1]
      rfl
    · refine ⟨rs', [.wait left], ?_, hs, rfl⟩
      rw [List.map_nil, mainLoop, hw, h1]
      rfl
  | cons s hist ih =>
    intro left rs rs' st rs1 es hn hs h hno
    have hw := hs.wantsIo
    rw [List.map_cons]
    rw [mainLoop, hw]
    rcases mainLoop_cons h with ⟨h1, rfl, rfl, rfl⟩ | ⟨h0, h1, rfl, rfl, rfl⟩ | ⟨h0, hl, fin, rs2, e1, hp, h1⟩
    · exact ⟨rs', [], by rw [h1]; rfl, hs, rfl⟩
    · refine ⟨rs', [.wait left], ?_, hs, rfl⟩
      rw [h0]
      simp only [not_true_eq_false, ↓reduceIte]
      unfold lastStep at h1
      simp only [Bool.or_eq_true, decide_eq_true_eq] at h1
      have e1 : (deafStep s).now = s.now := rfl
      have e2 : (deafStep s).res = s.res := rfl
      rw [e1, e2]
      by_cases h2 : timerGt s.now tend = true
      · rw [if_pos h2]
      · rw [if_neg h2, if_pos]
        rcases h1 with h1 | h1
        · exact absurd h1 h2
        · exact h1
    · rw [usable_cons, hl] at hno
      simp only [Bool.false_eq_true, ↓reduceIte] at hno
      obtain ⟨q2, e2, hp2, hs2, hse⟩ := process_sim hn hs hp (hno s List.mem_cons_self)
      unfold lastStep at hl
      simp only [Bool.or_eq_false_iff, decide_eq_false_iff_not] at hl
      have e1' : (deafStep s).now = s.now := rfl
      have e2' : (deafStep s).res = s.res := rfl
      rw [h0]
      simp only [not_true_eq_false, ↓reduceIte]
      rw [e1', e2', if_neg (by simp [hl.1]), if_neg hl.2]
      have hc := process_changes hnd hn hp
      rcases h1 with ⟨rfl, rfl, rfl, rfl⟩ | ⟨rfl, e3, h2, rfl⟩
      · refine ⟨q2, .wait left :: e2, ?_, hs2, ?_⟩
        · simp only [Out.bind_eq_ok]
          exact ⟨_, hp2, rfl⟩
        · exact hse
      · obtain ⟨q3, e4, h3, hs3, hse3⟩ := ih hc.named hs2 h2 (fun s' hs' =>
          (hno s' (List.mem_cons_of_mem _ hs')).same hn hc)
        refine ⟨q3, .wait left :: (e2 ++ e4), ?_, hs3, ?_⟩
        · simp only [Out.bind_eq_ok]
          refine ⟨_, hp2, ?_⟩
          simp only [↓reduceIte, Out.bind_eq_ok]
          exact ⟨_, h3, rfl⟩
        · have e : ∀ (l : List Event), sends (.wait left :: l) = sends l := fun _ => rfl
          rw [e, e, sends_append, sends_append, hse, hse3]

end Ef
