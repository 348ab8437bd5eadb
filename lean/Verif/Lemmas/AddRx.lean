import Verif.Props.Run
import Verif.Lemmas.Unname

/-!
# Two runs in step: with and without one more expectation behind the others
-/

namespace Ef.Props

open Ef Ef.Spec

/-- The reports of the two runs, from phase `p` to phase `q`; a phase tells whether the additional expectation `c` on
interface `a` has got its frame. -/
def Swap (c : Cmd) (a : CStr) (p : Bool) (e e' : List Event) (q : Bool) : Prop :=
  (p = q ∧ e' = e ∧ (q = false → ∀ b, Event.rxErr a b ∈ e → ¬ Wants c b)) ∨
  (p = false ∧ q = true ∧ ∃ pre b post, e = pre ++ .rxErr a b :: post ∧ e' = pre ++ .rxOk a b c.name c.mask :: post ∧
    Wants c b ∧ ∀ b', Event.rxErr a b' ∈ pre → ¬ Wants c b')

theorem Swap.quiet {c : Cmd} {a : CStr} {p : Bool} {e : List Event} (h : ∀ b, Event.rxErr a b ∉ e) : Swap c a p e e p :=
  .inl ⟨rfl, rfl, fun _ b hb => (h b hb).elim⟩

theorem Swap.append {c : Cmd} {a : CStr} {p q s : Bool} {e e' f f' : List Event} (h : Swap c a p e e' q)
    (h' : Swap c a q f f' s) : Swap c a p (e ++ f) (e' ++ f') s := by
  rcases h with ⟨rfl, rfl, h⟩ | ⟨rfl, rfl, pre, b, post, rfl, rfl, hw, hp⟩
  · rcases h' with ⟨rfl, rfl, h'⟩ | ⟨rfl, rfl, pre, b, post, rfl, rfl, hw, hp⟩
    · refine .inl ⟨rfl, rfl, fun hq b hb => ?_⟩
      rcases List.mem_append.mp hb with hb | hb
      · exact h hq b hb
      · exact h' hq b hb
    · refine .inr ⟨rfl, rfl, e' ++ pre, b, post, by simp, by simp, hw, fun b' hb => ?_⟩
      rcases List.mem_append.mp hb with hb | hb
      · exact h rfl b' hb
      · exact hp b' hb
  · rcases h' with ⟨rfl, rfl, h'⟩ | ⟨h0, _⟩
    · exact .inr ⟨rfl, rfl, pre, b, post ++ f', by simp, by simp, hw, hp⟩
    · simp at h0

/-- The two states of the socket of the additional expectation. -/
structure RelR (c : Cmd) (a : CStr) (p : Bool) (r r' : Resource) : Prop where
  cmds : r'.cmds = r.cmds ++ [{ c with done := p }]
  errs : r'.rxErrCnt + p.toNat = r.rxErrCnt
  named : Named a r
  rx : hasRx r = true

/-- The socket is for another interface than `a`. -/
def NotOn (a : CStr) (r : Resource) : Prop := ∃ a', a' ≠ a ∧ Named a' r

/-- The two states of all sockets. -/
def RelL (c : Cmd) (a : CStr) (p : Bool) : List Resource → List Resource → Prop
  | r :: rs, r' :: rs' =>
    (RelR c a p r r' ∧ rs' = rs ∧ ∀ s ∈ rs, NotOn a s) ∨ (NotOn a r ∧ r' = r ∧ RelL c a p rs rs')
  | _, _ => False

theorem matchCmds_last {b : Buf} {x : Cmd} : ∀ {cs : List Cmd} {o o'},
    matchCmds b cs = .ok o → matchCmds b (cs ++ [x]) = .ok o' →
    (∃ m cs', o = some (m, cs') ∧ o' = some (m, cs' ++ [x])) ∨
    (o = none ∧ o' = none ∧ cmdMatches b x = .ok false) ∨
    (o = none ∧ o' = some (x, cs ++ [{ x with done := true }]) ∧ cmdMatches b x = .ok true) := by
  intro cs
  induction cs with
  | nil =>
    intro o o' h h'
    simp only [matchCmds, Out.ok.injEq] at h
    subst h
    simp only [List.nil_append, matchCmds] at h'
    obtain ⟨v, hv, h'⟩ := Out.bind_eq_ok.mp h'
    cases v with
    | true => simp only [if_true, Out.ok.injEq] at h'; exact .inr (.inr ⟨rfl, h'.symm, hv⟩)
    | false =>
      simp only [Bool.false_eq_true, if_false, Out.ok_bind, Out.ok.injEq] at h'
      exact .inr (.inl ⟨rfl, h'.symm, hv⟩)
  | cons c cs ih =>
    intro o o' h h'
    rw [List.cons_append] at h'
    simp only [matchCmds] at h h'
    obtain ⟨v, hv, h⟩ := Out.bind_eq_ok.mp h
    rw [hv, Out.ok_bind] at h'
    cases v with
    | true =>
      simp only [if_true, Out.ok.injEq] at h h'
      subst h h'
      exact .inl ⟨_, _, rfl, rfl⟩
    | false =>
      simp only [Bool.false_eq_true, if_false] at h h'
      obtain ⟨w, hw, h⟩ := Out.bind_eq_ok.mp h
      obtain ⟨w', hw', h'⟩ := Out.bind_eq_ok.mp h'
      rcases ih hw hw' with ⟨m, cs', rfl, rfl⟩ | ⟨rfl, rfl, hx⟩ | ⟨rfl, rfl, hx⟩
      · simp only [Out.ok.injEq] at h h'
        subst h h'
        exact .inl ⟨_, _, rfl, rfl⟩
      · simp only [Out.ok.injEq] at h h'
        subst h h'
        exact .inr (.inl ⟨rfl, rfl, hx⟩)
      · simp only [Out.ok.injEq] at h h'
        subst h h'
        exact .inr (.inr ⟨rfl, rfl, hx⟩)

/-- A socket after some operations. -/
theorem change_keeps {a : CStr} {r r' : Resource} {e : List Event} {F : List Buf} {ops : List Op}
    (h : Change a r r' e F ops) (hn : Named a r) : Named a r' ∧ hasRx r' = hasRx r := by
  refine ⟨hn.same h.run.same, ?_⟩
  unfold hasRx
  have hs := h.run.same
  rw [Bool.eq_iff_iff, List.any_eq_true, List.any_eq_true]
  constructor
  · rintro ⟨x, hx, ht⟩
    obtain ⟨j, hj⟩ := List.mem_iff_getElem?.mp hx
    obtain ⟨y, hy, hst⟩ := hs.back hj
    exact ⟨y, List.mem_of_getElem? hy, by rw [← hst.1]; exact ht⟩
  · rintro ⟨x, hx, ht⟩
    obtain ⟨j, hj⟩ := List.mem_iff_getElem?.mp hx
    obtain ⟨y, hy, hst⟩ := hs.2 j x hj
    exact ⟨y, List.mem_of_getElem? hy, by rw [hst.1]; exact ht⟩

/-- The frames reported unexpected are reported for the interface of the socket. -/
theorem change_errIface {a a' : CStr} {r r' : Resource} {e : List Event} {F : List Buf} {ops : List Op}
    (h : Change a r r' e F ops) {b : Buf} (hb : Event.rxErr a' b ∈ e) : a' = a := by
  rw [h.ev, List.mem_flatMap] at hb
  obtain ⟨op, -, hb⟩ := hb
  unfold opEvents at hb
  split at hb <;> (try split at hb) <;> (try split at hb) <;> simp_all

theorem rxResource_rel {cfg : Config} {s : Step} {i : Nat} {c : Cmd} {a : CStr} (ha : c.arg0 = some a) {p : Bool}
    {r r' r1 r1' : Resource} {e e' : List Event} (h : RelR c a p r r') (h1 : rxResource cfg s i r = .ok (r1, e))
    (h1' : rxResource cfg s i r' = .ok (r1', e')) : ∃ q, RelR c a q r1 r1' ∧ Swap c a p e e' q := by
  have hrx' : hasRx r' = true := by
    have := h.rx
    unfold hasRx at this ⊢
    rw [h.cmds, List.any_append, this, Bool.true_or]
  have hkeep : Named a r1 ∧ hasRx r1 = hasRx r := by
    obtain ⟨ops, hc⟩ := rxResource_ok h.named h1
    exact change_keeps hc h.named
  have hnamed' : Named a r' := by
    refine ⟨by rw [h.cmds]; simp, fun x hx => ?_⟩
    rw [h.cmds, List.mem_append] at hx
    rcases hx with hx | hx
    · exact h.named.2 x hx
    · simp only [List.mem_singleton] at hx; subst hx; exact ha
  unfold rxResource at h1 h1'
  rw [h.rx, Bool.true_and] at h1
  rw [hrx', Bool.true_and] at h1'
  split at h1
  · rename_i hrd
    rw [if_pos hrd] at h1'
    split at h1
    · rename_i hm
      rw [hm] at h1'
      simp only [Out.ok.injEq, Prod.mk.injEq] at h1 h1'
      obtain ⟨rfl, rfl⟩ := h1
      obtain ⟨rfl, rfl⟩ := h1'
      exact ⟨p, h, .quiet (by simp)⟩
    · rename_i m hm
      rw [hm] at h1'
      simp only at h1'
      unfold rxFrame at h1 h1'
      simp only at h1 h1'
      split at h1
      · rename_i h0
        rw [if_pos h0] at h1'
        simp only [Out.ok.injEq, Prod.mk.injEq] at h1 h1'
        obtain ⟨rfl, rfl⟩ := h1
        obtain ⟨rfl, rfl⟩ := h1'
        exact ⟨p, h, .quiet (by simp)⟩
      · rename_i h0
        rw [if_neg h0] at h1'
        obtain ⟨b, hb, h1⟩ := Out.bind_eq_ok.mp h1
        rw [hb, Out.ok_bind] at h1'
        obtain ⟨o, ho, h1⟩ := Out.bind_eq_ok.mp h1
        obtain ⟨o', ho', h1'⟩ := Out.bind_eq_ok.mp h1'
        rw [h.cmds] at ho'
        rcases matchCmds_last ho ho' with ⟨x, cs', rfl, rfl⟩ | ⟨rfl, rfl, hx⟩ | ⟨rfl, rfl, hx⟩
        · simp only at h1 h1'
          split at h1
          · rename_i a' ha'
            rw [ha'] at h1'
            simp only [Out.ok.injEq, Prod.mk.injEq] at h1 h1'
            obtain ⟨rfl, rfl⟩ := h1
            obtain ⟨rfl, rfl⟩ := h1'
            exact ⟨p, ⟨rfl, h.errs, hkeep.1, hkeep.2.trans h.rx⟩, .quiet (by simp)⟩
          · simp at h1
        · simp only at h1 h1'
          rw [h.named.arg0, Out.ok_bind] at h1
          rw [hnamed'.arg0, Out.ok_bind] at h1'
          simp only [Out.ok.injEq, Prod.mk.injEq] at h1 h1'
          obtain ⟨rfl, rfl⟩ := h1
          obtain ⟨rfl, rfl⟩ := h1'
          refine ⟨p, ⟨h.cmds, by have := h.errs; simp only; omega, hkeep.1, hkeep.2.trans h.rx⟩, .inl ⟨rfl, rfl, ?_⟩⟩
          rintro rfl b' hb' hw
          simp only [List.mem_singleton, Event.rxErr.injEq, true_and] at hb'
          subst hb'
          have := (cmdMatches_ok hx).mpr ⟨rfl, hw⟩
          simp at this
        · simp only at h1 h1'
          rw [h.named.arg0, Out.ok_bind] at h1
          rw [ha] at h1'
          simp only [Out.ok.injEq, Prod.mk.injEq] at h1 h1'
          obtain ⟨rfl, rfl⟩ := h1
          obtain ⟨rfl, rfl⟩ := h1'
          obtain ⟨hd, hw⟩ := (cmdMatches_ok hx).mp rfl
          simp only at hd
          subst hd
          refine ⟨true, ⟨by rw [ha], ?_, hkeep.1, hkeep.2.trans h.rx⟩, .inr ⟨rfl, rfl, [], b, [], rfl, rfl, hw, by simp⟩⟩
          have := h.errs
          simp only [Bool.toNat_false, Bool.toNat_true] at this ⊢
          omega
  · rename_i hrd
    rw [if_neg hrd] at h1'
    simp only [Out.ok.injEq, Prod.mk.injEq] at h1 h1'
    obtain ⟨rfl, rfl⟩ := h1
    obtain ⟨rfl, rfl⟩ := h1'
    exact ⟨p, h, .quiet (by simp)⟩

/-- Reception on a socket of another interface. -/
theorem rxResource_other {cfg : Config} {s : Step} {i : Nat} {c : Cmd} {a : CStr} {p : Bool} {r r1 : Resource}
    {e : List Event} (h : NotOn a r) (h1 : rxResource cfg s i r = .ok (r1, e)) : NotOn a r1 ∧ Swap c a p e e p := by
  obtain ⟨a', hne, hn⟩ := h
  obtain ⟨ops, hc⟩ := rxResource_ok hn h1
  exact ⟨⟨a', hne, (change_keeps hc hn).1⟩, .quiet (fun b hb => hne (change_errIface hc hb).symm)⟩

theorem rxAll_other {cfg : Config} {s : Step} {c : Cmd} {a : CStr} {p : Bool} : ∀ {rs rs1 : List Resource} {i : Nat}
    {e : List Event}, (∀ r ∈ rs, NotOn a r) → rxAll cfg s i rs = .ok (rs1, e) →
    (∀ r ∈ rs1, NotOn a r) ∧ Swap c a p e e p := by
  intro rs
  induction rs with
  | nil =>
    intro rs1 i e _ h1
    simp only [rxAll, Out.ok.injEq, Prod.mk.injEq] at h1
    obtain ⟨rfl, rfl⟩ := h1
    exact ⟨by simp, .quiet (by simp)⟩
  | cons r rs ih =>
    intro rs1 i e hno h1
    simp only [rxAll] at h1
    obtain ⟨⟨r1, e1⟩, hx, h1⟩ := Out.bind_eq_ok.mp h1
    obtain ⟨⟨rs2, e2⟩, hy, h1⟩ := Out.bind_eq_ok.mp h1
    simp only [Out.ok.injEq, Prod.mk.injEq] at h1
    obtain ⟨rfl, rfl⟩ := h1
    obtain ⟨ha, hb⟩ := rxResource_other (hno r List.mem_cons_self) hx (c := c) (p := p)
    obtain ⟨hc, hd⟩ := ih (fun x hx => hno x (List.mem_cons_of_mem _ hx)) hy
    refine ⟨fun x hx => ?_, hb.append hd⟩
    rcases List.mem_cons.mp hx with rfl | hx
    · exact ha
    · exact hc x hx

theorem rxAll_rel {cfg : Config} {s : Step} {c : Cmd} {a : CStr} (ha : c.arg0 = some a) {p : Bool} :
    ∀ {rs rs' rs1 rs1' : List Resource} {i : Nat} {e e' : List Event}, RelL c a p rs rs' →
    rxAll cfg s i rs = .ok (rs1, e) → rxAll cfg s i rs' = .ok (rs1', e') →
    ∃ q, RelL c a q rs1 rs1' ∧ Swap c a p e e' q := by
  intro rs
  induction rs with
  | nil => intro rs' rs1 rs1' i e e' h; simp [RelL] at h
  | cons r rs ih =>
    intro rs' rs1 rs1' i e e' h h1 h1'
    cases rs' with
    | nil => simp [RelL] at h
    | cons r' rs' =>
      simp only [rxAll] at h1 h1'
      obtain ⟨⟨r1, e1⟩, hx, h1⟩ := Out.bind_eq_ok.mp h1
      obtain ⟨⟨rs2, e2⟩, hy, h1⟩ := Out.bind_eq_ok.mp h1
      obtain ⟨⟨r1', e1'⟩, hx', h1'⟩ := Out.bind_eq_ok.mp h1'
      obtain ⟨⟨rs2', e2'⟩, hy', h1'⟩ := Out.bind_eq_ok.mp h1'
      simp only [Out.ok.injEq, Prod.mk.injEq] at h1 h1'
      obtain ⟨rfl, rfl⟩ := h1
      obtain ⟨rfl, rfl⟩ := h1'
      rcases h with ⟨hr, rfl, hno⟩ | ⟨hr, rfl, hrs⟩
      · obtain ⟨q, hq, hs⟩ := rxResource_rel ha hr hx hx'
        rw [hy] at hy'
        simp only [Out.ok.injEq, Prod.mk.injEq] at hy'
        obtain ⟨rfl, rfl⟩ := hy'
        obtain ⟨hc, hd⟩ := rxAll_other hno hy (c := c) (p := q)
        exact ⟨q, .inl ⟨hq, rfl, hc⟩, hs.append hd⟩
      · rw [hx] at hx'
        simp only [Out.ok.injEq, Prod.mk.injEq] at hx'
        obtain ⟨rfl, rfl⟩ := hx'
        obtain ⟨hc, hd⟩ := rxResource_other hr hx (c := c) (p := p)
        obtain ⟨q, hq, hs⟩ := ih hrs hy hy'
        exact ⟨q, .inr ⟨hc, rfl, hq⟩, hd.append hs⟩

/-! ## Transmission -/

theorem txFirst_last {res : Int} {x : Cmd} (hx : x.type = .rx) : ∀ cs : List Cmd, txFirst res (cs ++ [x]) =
    omap (Option.map (fun t => (t.1 ++ [x], t.2))) (txFirst res cs) := by
  intro cs
  induction cs with
  | nil => simp [txFirst, hx]
  | cons c cs ih =>
    rw [List.cons_append]
    simp only [txFirst]
    split
    · split <;> rfl
    · rw [ih, bind_omap, omap_bind]
      apply bind_congr
      intro o
      cases o with
      | none => rfl
      | some t => rfl

theorem txFirst_quiet {res : Int} {cs cs1 : List Cmd} {e : List Event} {m : Bool}
    (h : txFirst res cs = .ok (some (cs1, e, m))) : (∀ a b, Event.rxErr a b ∉ e) ∧ SameList cs cs1 := by
  rcases txFirst_ok h with ⟨h0, _⟩ | ⟨j, x, b, a, h0, hj, hp, _⟩
  · simp at h0
  · simp only [Option.some.injEq, Prod.mk.injEq] at h0
    obtain ⟨rfl, h2⟩ := h0
    refine ⟨fun a' b' hb => ?_, sameList_set hj (txOne_static _ _ _ _)⟩
    have h3 : e = (txOne x b a res).2.1 := by rw [← h2]
    rw [h3] at hb
    unfold txOne at hb
    simp only at hb
    split at hb <;> simp at hb

theorem NotOn.same {a : CStr} {r r' : Resource} (h : NotOn a r) (hs : SameList r.cmds r'.cmds) : NotOn a r' := by
  obtain ⟨a', hne, hn⟩ := h
  exact ⟨a', hne, hn.same hs⟩

theorem RelR.same {c : Cmd} {a : CStr} {p : Bool} {r r' : Resource} (h : RelR c a p r r') {cs : List Cmd}
    (hs : SameList r.cmds cs) :
    RelR c a p { r with cmds := cs } { r' with cmds := cs ++ [{ c with done := p }] } := by
  refine ⟨rfl, h.errs, h.named.same hs, ?_⟩
  have := h.rx
  unfold hasRx at this ⊢
  rw [List.any_eq_true] at this ⊢
  obtain ⟨x, hx, ht⟩ := this
  obtain ⟨j, hj⟩ := List.mem_iff_getElem?.mp hx
  obtain ⟨y, hy, hst⟩ := hs.2 j x hj
  exact ⟨y, List.mem_of_getElem? hy, by rw [hst.1]; exact ht⟩

theorem txRound_other {w : Nat → Bool} {send : Nat → Int} {a : CStr} : ∀ {rs rs1 : List Resource} {i k k1 : Nat}
    {e : List Event} {m : Bool}, (∀ r ∈ rs, NotOn a r) → txRound w send i k rs = .ok (rs1, k1, e, m) →
    (∀ r ∈ rs1, NotOn a r) ∧ ∀ a b, Event.rxErr a b ∉ e := by
  intro rs
  induction rs with
  | nil =>
    intro rs1 i k k1 e m _ h1
    simp only [txRound, Out.ok.injEq, Prod.mk.injEq] at h1
    obtain ⟨rfl, _, rfl, _⟩ := h1
    exact ⟨by simp, by simp⟩
  | cons r rs ih =>
    intro rs1 i k k1 e m hno h1
    have hno' : ∀ x ∈ rs, NotOn a x := fun x hx => hno x (List.mem_cons_of_mem _ hx)
    have fin : ∀ {r0 : Resource} {rs2 : List Resource}, NotOn a r0 → (∀ x ∈ rs2, NotOn a x) → ∀ x ∈ r0 :: rs2, NotOn a x := by
      intro r0 rs2 ha hb x hx
      rcases List.mem_cons.mp hx with rfl | hx
      · exact ha
      · exact hb x hx
    simp only [txRound] at h1
    split at h1
    · obtain ⟨o, ho, h1⟩ := Out.bind_eq_ok.mp h1
      split at h1
      · obtain ⟨⟨rs2, k2, e2, m2⟩, hy, h1⟩ := Out.bind_eq_ok.mp h1
        simp only [Out.ok.injEq, Prod.mk.injEq] at h1
        obtain ⟨rfl, rfl, rfl, rfl⟩ := h1
        obtain ⟨hc, hd⟩ := ih hno' hy
        exact ⟨fin (hno r List.mem_cons_self) hc, hd⟩
      · obtain ⟨⟨rs2, k2, e2, m2⟩, hy, h1⟩ := Out.bind_eq_ok.mp h1
        simp only [Out.ok.injEq, Prod.mk.injEq] at h1
        obtain ⟨rfl, rfl, rfl, rfl⟩ := h1
        obtain ⟨hc, hd⟩ := ih hno' hy
        obtain ⟨hq, hs⟩ := txFirst_quiet ho
        refine ⟨fin ((hno r List.mem_cons_self).same hs) hc, fun a b hb => ?_⟩
        rcases List.mem_append.mp hb with hb | hb
        · exact hq a b hb
        · exact hd a b hb
    · obtain ⟨⟨rs2, k2, e2, m2⟩, hy, h1⟩ := Out.bind_eq_ok.mp h1
      simp only [Out.ok.injEq, Prod.mk.injEq] at h1
      obtain ⟨rfl, rfl, rfl, rfl⟩ := h1
      obtain ⟨hc, hd⟩ := ih hno' hy
      exact ⟨fin (hno r List.mem_cons_self) hc, hd⟩

theorem txRound_rel {w : Nat → Bool} {send : Nat → Int} {c : Cmd} {a : CStr} (hc : c.type = .rx) {p : Bool} :
    ∀ {rs rs' rs1 : List Resource} {i k k1 : Nat} {e : List Event} {m : Bool}, RelL c a p rs rs' →
    txRound w send i k rs = .ok (rs1, k1, e, m) →
    ∃ rs1', txRound w send i k rs' = .ok (rs1', k1, e, m) ∧ RelL c a p rs1 rs1' ∧ ∀ a b, Event.rxErr a b ∉ e := by
  intro rs
  induction rs with
  | nil => intro rs' rs1 i k k1 e m h; simp [RelL] at h
  | cons r rs ih =>
    intro rs' rs1 i k k1 e m h h1
    cases rs' with
    | nil => simp [RelL] at h
    | cons r' rs' =>
      simp only [txRound] at h1 ⊢
      rcases h with ⟨hr, rfl, hno⟩ | ⟨hr, rfl, hrs⟩
      · rw [hr.cmds, txFirst_last (x := { c with done := p }) hc]
        split at h1
        · rename_i hw
          rw [if_pos hw]
          obtain ⟨o, ho, h1⟩ := Out.bind_eq_ok.mp h1
          rw [ho, omap_ok, Out.ok_bind]
          split at h1
          · obtain ⟨⟨rs2, k2, e2, m2⟩, hy, h1⟩ := Out.bind_eq_ok.mp h1
            simp only [Out.ok.injEq, Prod.mk.injEq] at h1
            obtain ⟨rfl, rfl, rfl, rfl⟩ := h1
            obtain ⟨hc', hd⟩ := txRound_other hno hy
            exact ⟨r' :: rs2, by simp only [Option.map_none]; rw [hy]; rfl, .inl ⟨hr, rfl, hc'⟩, hd⟩
          · rename_i cs e0 m0
            obtain ⟨⟨rs2, k2, e2, m2⟩, hy, h1⟩ := Out.bind_eq_ok.mp h1
            simp only [Out.ok.injEq, Prod.mk.injEq] at h1
            obtain ⟨rfl, rfl, rfl, rfl⟩ := h1
            obtain ⟨hc', hd⟩ := txRound_other hno hy
            obtain ⟨hq, hs⟩ := txFirst_quiet ho
            refine ⟨_ :: rs2, by simp only [Option.map_some]; rw [hy]; rfl, .inl ⟨hr.same hs, rfl, hc'⟩, fun a b hb => ?_⟩
            rcases List.mem_append.mp hb with hb | hb
            · exact hq a b hb
            · exact hd a b hb
        · rename_i hw
          rw [if_neg hw]
          obtain ⟨⟨rs2, k2, e2, m2⟩, hy, h1⟩ := Out.bind_eq_ok.mp h1
          simp only [Out.ok.injEq, Prod.mk.injEq] at h1
          obtain ⟨rfl, rfl, rfl, rfl⟩ := h1
          obtain ⟨hc', hd⟩ := txRound_other hno hy
          exact ⟨r' :: rs2, by rw [hy]; rfl, .inl ⟨hr, rfl, hc'⟩, hd⟩
      · split at h1
        · rename_i hw
          rw [if_pos hw]
          obtain ⟨o, ho, h1⟩ := Out.bind_eq_ok.mp h1
          rw [ho, Out.ok_bind]
          split at h1
          · obtain ⟨⟨rs2, k2, e2, m2⟩, hy, h1⟩ := Out.bind_eq_ok.mp h1
            simp only [Out.ok.injEq, Prod.mk.injEq] at h1
            obtain ⟨rfl, rfl, rfl, rfl⟩ := h1
            obtain ⟨rs2', hy', hrel, hd⟩ := ih hrs hy
            exact ⟨r' :: rs2', by rw [hy']; rfl, .inr ⟨hr, rfl, hrel⟩, hd⟩
          · rename_i cs e0 m0
            obtain ⟨⟨rs2, k2, e2, m2⟩, hy, h1⟩ := Out.bind_eq_ok.mp h1
            simp only [Out.ok.injEq, Prod.mk.injEq] at h1
            obtain ⟨rfl, rfl, rfl, rfl⟩ := h1
            obtain ⟨rs2', hy', hrel, hd⟩ := ih hrs hy
            obtain ⟨hq, hs⟩ := txFirst_quiet ho
            refine ⟨_ :: rs2', by rw [hy']; rfl, .inr ⟨hr.same hs, rfl, hrel⟩, fun a b hb => ?_⟩
            rcases List.mem_append.mp hb with hb | hb
            · exact hq a b hb
            · exact hd a b hb
        · rename_i hw
          rw [if_neg hw]
          obtain ⟨⟨rs2, k2, e2, m2⟩, hy, h1⟩ := Out.bind_eq_ok.mp h1
          simp only [Out.ok.injEq, Prod.mk.injEq] at h1
          obtain ⟨rfl, rfl, rfl, rfl⟩ := h1
          obtain ⟨rs2', hy', hrel, hd⟩ := ih hrs hy
          exact ⟨r' :: rs2', by rw [hy']; rfl, .inr ⟨hr, rfl, hrel⟩, hd⟩

theorem txLoop_rel {w : Nat → Bool} {send : Nat → Int} {c : Cmd} {a : CStr} (hc : c.type = .rx) {p : Bool} :
    ∀ {fuel k : Nat} {rs rs' rs1 : List Resource} {e : List Event} {fin : Bool}, RelL c a p rs rs' →
    txLoop w send fuel k rs = .ok (fin, rs1, e) →
    ∃ rs1', txLoop w send fuel k rs' = .ok (fin, rs1', e) ∧ RelL c a p rs1 rs1' ∧ ∀ a b, Event.rxErr a b ∉ e := by
  intro fuel
  induction fuel with
  | zero =>
    intro k rs rs' rs1 e fin h h1
    simp only [txLoop, Out.ok.injEq, Prod.mk.injEq] at h1 ⊢
    obtain ⟨rfl, rfl, rfl⟩ := h1
    exact ⟨rs', ⟨rfl, rfl, rfl⟩, h, by simp⟩
  | succ fuel ih =>
    intro k rs rs' rs1 e fin h h1
    simp only [txLoop] at h1 ⊢
    obtain ⟨⟨rs2, k2, e2, m2⟩, hy, h1⟩ := Out.bind_eq_ok.mp h1
    obtain ⟨rs2', hy', hrel, hd⟩ := txRound_rel hc h hy
    rw [hy', Out.ok_bind]
    simp only at h1 ⊢
    split at h1
    · rename_i hm
      rw [if_pos hm]
      obtain ⟨⟨f3, rs3, e3⟩, hz, h1⟩ := Out.bind_eq_ok.mp h1
      simp only [Out.ok.injEq, Prod.mk.injEq] at h1
      obtain ⟨rfl, rfl, rfl⟩ := h1
      obtain ⟨rs3', hz', hrel', hd'⟩ := ih hrel hz
      refine ⟨rs3', by rw [hz']; rfl, hrel', fun a b hb => ?_⟩
      rcases List.mem_append.mp hb with hb | hb
      · exact hd a b hb
      · exact hd' a b hb
    · rename_i hm
      rw [if_neg hm]
      simp only [Out.ok.injEq, Prod.mk.injEq] at h1
      obtain ⟨rfl, rfl, rfl⟩ := h1
      exact ⟨rs2', rfl, hrel, hd⟩

/-! ## The main loop -/

theorem RelR.hasRx' {c : Cmd} {a : CStr} {p : Bool} {r r' : Resource} (h : RelR c a p r r') : hasRx r' = true := by
  have := h.rx
  unfold hasRx at this ⊢
  rw [h.cmds, List.any_append, this, Bool.true_or]

theorem RelR.hasTx' {c : Cmd} {a : CStr} (hc : c.type = .rx) {p : Bool} {r r' : Resource} (h : RelR c a p r r') :
    hasTx r' = hasTx r := by
  unfold hasTx
  rw [h.cmds, List.any_append]
  simp [hc]

theorem RelL.wants {c : Cmd} {a : CStr} {p : Bool} : ∀ {rs rs' : List Resource}, RelL c a p rs rs' →
    wantsIo rs = true ∧ wantsIo rs' = true := by
  intro rs
  induction rs with
  | nil => intro rs' h; simp [RelL] at h
  | cons r rs ih =>
    intro rs' h
    cases rs' with
    | nil => simp [RelL] at h
    | cons r' rs' =>
      rcases h with ⟨hr, _⟩ | ⟨_, _, h⟩
      · simp [wantsIo, hr.rx, hr.hasRx']
      · have := ih h
        unfold wantsIo at this ⊢
        simp only [List.any_cons, this.1, this.2, Bool.or_true, and_self]

theorem RelL.writeSet {c : Cmd} {a : CStr} (hc : c.type = .rx) {p : Bool} {s : Step} : ∀ {rs rs' : List Resource},
    RelL c a p rs rs' → writeSet s rs' = writeSet s rs := by
  intro rs rs' h
  have key : ∀ {rs rs' : List Resource}, RelL c a p rs rs' → ∀ i : Nat, (rs'[i]?).map hasTx = (rs[i]?).map hasTx := by
    intro rs
    induction rs with
    | nil => intro rs' h; simp [RelL] at h
    | cons r rs ih =>
      intro rs' h i
      cases rs' with
      | nil => simp [RelL] at h
      | cons r' rs' =>
        rcases h with ⟨hr, rfl, _⟩ | ⟨_, rfl, h⟩
        · cases i with
          | zero => simp [hr.hasTx' hc]
          | succ i => simp
        · cases i with
          | zero => simp
          | succ i => simpa using ih h i
  funext i
  have := key h i
  unfold Ef.writeSet
  cases h1 : rs[i]? <;> cases h2 : rs'[i]? <;> simp_all

theorem mainLoop_rel {cfg : Config} {fuel : Nat} {tend : TimeVal} {c : Cmd} {a : CStr} (hc : c.type = .rx)
    (ha : c.arg0 = some a) : ∀ {hist : List Step} {p : Bool} {left : TimeVal} {rs rs' rs1 rs1' : List Resource}
    {e e' : List Event} {st st' : LoopEnd}, RelL c a p rs rs' → mainLoop cfg fuel tend hist left rs = .ok (st, rs1, e) →
    mainLoop cfg fuel tend hist left rs' = .ok (st', rs1', e') →
    st' = st ∧ ∃ q, RelL c a q rs1 rs1' ∧ Swap c a p e e' q := by
  intro hist
  induction hist with
  | nil =>
    intro p left rs rs' rs1 rs1' e e' st st' h h1 h1'
    unfold mainLoop at h1 h1'
    rw [h.wants.1] at h1
    rw [h.wants.2] at h1'
    simp only [not_true_eq_false, if_false, Out.ok.injEq, Prod.mk.injEq] at h1 h1'
    obtain ⟨rfl, rfl, rfl⟩ := h1
    obtain ⟨rfl, rfl, rfl⟩ := h1'
    exact ⟨rfl, p, h, .quiet (by simp)⟩
  | cons s hist ih =>
    intro p left rs rs' rs1 rs1' e e' st st' h h1 h1'
    unfold mainLoop at h1 h1'
    rw [h.wants.1] at h1
    rw [h.wants.2] at h1'
    simp only [not_true_eq_false, if_false] at h1 h1'
    split at h1
    · rename_i ht
      rw [if_pos ht] at h1'
      simp only [Out.ok.injEq, Prod.mk.injEq] at h1 h1'
      obtain ⟨rfl, rfl, rfl⟩ := h1
      obtain ⟨rfl, rfl, rfl⟩ := h1'
      exact ⟨rfl, p, h, .quiet (by simp)⟩
    · rename_i ht
      rw [if_neg ht] at h1'
      split at h1
      · rename_i hr
        rw [if_pos hr] at h1'
        simp only [Out.ok.injEq, Prod.mk.injEq] at h1 h1'
        obtain ⟨rfl, rfl, rfl⟩ := h1
        obtain ⟨rfl, rfl, rfl⟩ := h1'
        exact ⟨rfl, p, h, .quiet (by simp)⟩
      · rename_i hr
        rw [if_neg hr] at h1'
        obtain ⟨⟨f2, rs2, e2⟩, hx, h1⟩ := Out.bind_eq_ok.mp h1
        obtain ⟨⟨f2', rs2', e2'⟩, hx', h1'⟩ := Out.bind_eq_ok.mp h1'
        -- the step
        have step : f2' = f2 ∧ ∃ q, RelL c a q rs2 rs2' ∧ Swap c a p e2 e2' q := by
          unfold process at hx hx'
          simp only at hx hx'
          obtain ⟨⟨rs3, e3⟩, hy, hx⟩ := Out.bind_eq_ok.mp hx
          obtain ⟨⟨rs3', e3'⟩, hy', hx'⟩ := Out.bind_eq_ok.mp hx'
          obtain ⟨⟨f4, rs4, e4⟩, hz, hx⟩ := Out.bind_eq_ok.mp hx
          obtain ⟨⟨f4', rs4', e4'⟩, hz', hx'⟩ := Out.bind_eq_ok.mp hx'
          simp only [Out.ok.injEq, Prod.mk.injEq] at hx hx'
          obtain ⟨rfl, rfl, rfl⟩ := hx
          obtain ⟨rfl, rfl, rfl⟩ := hx'
          obtain ⟨q, hq, hs⟩ := rxAll_rel ha h hy hy'
          obtain ⟨rs5, hz2, hrel, hd⟩ := txLoop_rel hc hq hz
          rw [h.writeSet hc, hz2] at hz'
          simp only [Out.ok.injEq, Prod.mk.injEq] at hz'
          obtain ⟨rfl, rfl, rfl⟩ := hz'
          exact ⟨rfl, q, hrel, hs.append (.quiet (hd a))⟩
        obtain ⟨rfl, q, hq, hs⟩ := step
        have hw : Swap c a p [Event.wait left] [Event.wait left] p := .quiet (by simp)
        simp only at h1 h1'
        split at h1
        · rename_i hf
          rw [if_pos hf] at h1'
          obtain ⟨⟨st3, rs3, e3⟩, hy, h1⟩ := Out.bind_eq_ok.mp h1
          obtain ⟨⟨st3', rs3', e3'⟩, hy', h1'⟩ := Out.bind_eq_ok.mp h1'
          simp only [Out.ok.injEq, Prod.mk.injEq] at h1 h1'
          obtain ⟨rfl, rfl, rfl⟩ := h1
          obtain ⟨rfl, rfl, rfl⟩ := h1'
          obtain ⟨rfl, q', hq', hs'⟩ := ih hq hy hy'
          exact ⟨rfl, q', hq', hw.append (hs.append hs')⟩
        · rename_i hf
          rw [if_neg hf] at h1'
          simp only [Out.ok.injEq, Prod.mk.injEq] at h1 h1'
          obtain ⟨rfl, rfl, rfl⟩ := h1
          obtain ⟨rfl, rfl, rfl⟩ := h1'
          exact ⟨rfl, q, hq, hw.append hs⟩

/-! ## The result -/

/-- What is printed at the end and the number of errors. -/
theorem checkResults_rel {c : Cmd} {a : CStr} (hc : c.type = .rx) (ha : c.arg0 = some a) (hb : c.buf.isSome) :
    ∀ {p : Bool} {rs rs' : List Resource}, RelL c a p rs rs' →
    (p = true ∧ (checkResults rs).1 = (checkResults rs').1 + 1 ∧ (checkResults rs').2 = (checkResults rs).2) ∨
    (p = false ∧ (checkResults rs').1 = (checkResults rs).1 + 1 ∧ ∃ pre post, (checkResults rs).2 = pre ++ post ∧
      (checkResults rs').2 = pre ++ noRxReport a c :: post) := by
  intro p rs
  induction rs with
  | nil => intro rs' h; simp [RelL] at h
  | cons r rs ih =>
    intro rs' h
    cases rs' with
    | nil => simp [RelL] at h
    | cons r' rs' =>
      rcases h with ⟨hr, rfl, _⟩ | ⟨_, rfl, h⟩
      · have hmiss : missing r' = missing r ++ (if p then [] else [{ c with done := p }]) := by
          unfold missing
          rw [hr.cmds, List.filter_append]
          cases p <;> simp [hc, hb]
        have herr := hr.errs
        simp only [checkResults, hmiss]
        cases p with
        | true =>
          refine .inl ⟨rfl, ?_, by simp⟩
          simp only [Bool.toNat_true] at herr
          simp
          omega
        | false =>
          refine .inr ⟨rfl, ?_, (missing r).flatMap noRxEvent, (checkResults rs').2, rfl, ?_⟩
          · simp only [Bool.toNat_false] at herr
            simp
            omega
          · obtain ⟨e, he⟩ := Option.isSome_iff_exists.mp hb
            simp [noRxEvent, noRxReport, ha, he]
      · simp only [checkResults]
        rcases ih h with ⟨hp, h1, h2⟩ | ⟨hp, h1, pre, post, h2, h3⟩
        · exact .inl ⟨hp, by omega, by rw [h2]⟩
        · exact .inr ⟨hp, by omega, (missing r').flatMap noRxEvent ++ pre, post, by rw [h2]; simp, by rw [h3]; simp⟩

end Ef.Props
