import Verif.Lemmas.Relax

/-! # Completing two frames which differ in ignored values -/

namespace Ef

open Spec

theorem rel_sumSizes {l k : List Hdr} (h : All2 RelH l k) : sumSizes k = sumSizes l := by
  induction h with
  | nil => rfl
  | cons r _ ih => simp [sumSizes, r.size, ih]

theorem rel_nextProto {l k : List Hdr} (h : All2 RelH l k) : nextProto k = nextProto l := by
  cases h with
  | nil => rfl
  | cons r _ => simp [nextProto, r.type]

/-- Set a value unless there is one. -/
def condSet (x : Hdr) (n : CStr) (p : Field) (v : Option Buf) : Hdr := if p.val.isSome then x else setVal x n v

theorem rel_condSet {x y : Hdr} {n : CStr} {p q : Field} (h : RelH x y) (hp : findField x n = some p)
    (hq : findField y n = some q) {u v : Option Buf} (hv : q.val.isSome = true ∨ q.rxSkip = true ∨ u = v) :
    RelH (condSet x n p u) (condSet y n q v) := by
  have hpq : RelF p q := by
    rcases relH_find h n with ⟨h1, _⟩ | ⟨p', q', h1, h2, r⟩
    · rw [h1] at hp; simp at hp
    · rw [h1] at hp; rw [h2] at hq
      cases hp; cases hq; exact r
  have hself : ∀ {z : Hdr}, updField z n id = z := by
    intro z
    unfold updField
    have : ∀ l : List Field, updFirst (fun f => f.name == n) id l = l := by
      intro l
      induction l with
      | nil => rfl
      | cons x l ih => unfold updFirst; split <;> simp [ih]
    rw [this]
  unfold condSet
  by_cases hs : q.rxSkip = true
  · -- an ignored field may have any value
    have key : ∀ g g' : Field → Field,
        (∀ f, ∃ w, g f = { f with val := w }) → (∀ f, ∃ w, g' f = { f with val := w }) →
        RelH (updField x n g) (updField y n g') := by
      intro g g' hg hg'
      refine relH_upd h n g g' fun p' q' _ h2 r => ?_
      obtain ⟨w, e⟩ := hg p'
      obtain ⟨w', e'⟩ := hg' q'
      rw [e, e']
      refine ⟨r.name, r.width, r.offset, r.dflt, r.parser, r.multi, fun c => ?_, r.plain⟩
      rw [hq] at h2
      cases h2
      simp only at c
      rw [hs] at c; simp at c
    split <;> split
    · exact h
    · have := key id (fun f => { f with val := v }) (fun f => ⟨f.val, rfl⟩) (fun f => ⟨v, rfl⟩)
      rw [hself] at this
      exact this
    · have := key (fun f => { f with val := u }) id (fun f => ⟨u, rfl⟩) (fun f => ⟨f.val, rfl⟩)
      rw [hself] at this
      exact this
    · exact key _ _ (fun f => ⟨u, rfl⟩) (fun f => ⟨v, rfl⟩)
  · have hs' : q.rxSkip = false := by simpa using hs
    have hval := hpq.val hs'
    rw [hval]
    split
    · exact h
    · rename_i hnone
      have huv : u = v := by
        rcases hv with hv | hv | hv
        · rw [hval] at hv; exact absurd hv hnone
        · exact absurd hv hs
        · exact hv
      subst huv
      exact relH_upd h n _ _ fun p' q' _ _ r =>
        ⟨r.name, r.width, r.offset, r.dflt, r.parser, r.multi, fun _ => rfl, r.plain⟩

theorem getField_ok {h : Hdr} {n : CStr} {f : Field} (e : getField h n = .ok f) : findField h n = some f := by
  unfold getField at e
  split at e
  · rename_i f' hf
    simp only [Out.ok.injEq] at e
    rw [hf, e]
  · simp at e

theorem find_condSet_other {x : Hdr} {n m : CStr} {p : Field} {v : Option Buf} (h : m ≠ n) :
    findField (condSet x n p v) m = findField x m := by
  unfold condSet
  split
  · rfl
  · unfold setVal
    rw [find_updField x n m (fun f => { f with val := v }) (fun _ => rfl)]
    cases findField x m with
    | none => rfl
    | some f => simp [h]

/-- The common form of the computations: a value which does not depend on `x`, unless there is one already. -/
theorem rel_step {x y x1 y1 : Hdr} {n : CStr} {w w' : Out (Option Buf)} (h : RelH x y)
    (hw : w = w' ∨ ∃ q, findField y n = some q ∧ (q.val.isSome = true ∨ q.rxSkip = true))
    (e : (getField x n >>= fun p => if p.val.isSome then Out.ok x else w >>= fun v => .ok (setVal x n v)) = .ok x1)
    (e' : (getField y n >>= fun p => if p.val.isSome then Out.ok y else w' >>= fun v => .ok (setVal y n v)) = .ok y1) :
    ∃ p q u v, findField x n = some p ∧ findField y n = some q ∧ x1 = condSet x n p u ∧ y1 = condSet y n q v ∧ RelH x1 y1 := by
  rw [Out.bind_eq_ok] at e e'
  obtain ⟨p, e1, e⟩ := e
  obtain ⟨q, e1', e'⟩ := e'
  have hp := getField_ok e1
  have hq := getField_ok e1'
  by_cases hv : p.val.isSome = true ∨ q.val.isSome = true
  · -- no two values are computed
    have hx : ∃ u, x1 = condSet x n p u := by
      split at e
      · rename_i hps
        simp only [Out.ok.injEq] at e
        exact ⟨none, by unfold condSet; rw [if_pos hps, e]⟩
      · rename_i hps
        rw [Out.bind_eq_ok] at e
        obtain ⟨u, _, e⟩ := e
        simp only [Out.ok.injEq] at e
        exact ⟨u, by unfold condSet; rw [if_neg hps, e]⟩
    have hy : ∃ v, y1 = condSet y n q v := by
      split at e'
      · rename_i hps
        simp only [Out.ok.injEq] at e'
        exact ⟨none, by unfold condSet; rw [if_pos hps, e']⟩
      · rename_i hps
        rw [Out.bind_eq_ok] at e'
        obtain ⟨u, _, e'⟩ := e'
        simp only [Out.ok.injEq] at e'
        exact ⟨u, by unfold condSet; rw [if_neg hps, e']⟩
    obtain ⟨u, hu⟩ := hx
    obtain ⟨v, hv'⟩ := hy
    refine ⟨p, q, u, v, hp, hq, hu, hv', ?_⟩
    rw [hu, hv']
    apply rel_condSet h hp hq
    cases hs : q.rxSkip with
    | true => exact Or.inr (Or.inl rfl)
    | false =>
      left
      rcases relH_find h n with ⟨h1, _⟩ | ⟨p', q', h1, h2, r⟩
      · rw [h1] at hp; simp at hp
      · rw [h1] at hp; rw [h2] at hq
        cases hp; cases hq
        rw [r.val hs]
        rcases hv with hv | hv
        · exact hv
        · rw [r.val hs] at hv; exact hv
  · rw [not_or] at hv
    rw [if_neg hv.1, Out.bind_eq_ok] at e
    rw [if_neg hv.2, Out.bind_eq_ok] at e'
    obtain ⟨u, e2, e⟩ := e
    obtain ⟨v, e2', e'⟩ := e'
    simp only [Out.ok.injEq] at e e'
    have hu : x1 = condSet x n p u := by unfold condSet; rw [if_neg hv.1, e]
    have hv' : y1 = condSet y n q v := by unfold condSet; rw [if_neg hv.2, e']
    refine ⟨p, q, u, v, hp, hq, hu, hv', ?_⟩
    rw [hu, hv']
    apply rel_condSet h hp hq
    rcases hw with hw | ⟨q', hq', hs⟩
    · subst hw
      rw [e2] at e2'
      simp only [Out.ok.injEq] at e2'
      exact Or.inr (Or.inr e2')
    · rw [hq] at hq'
      cases hq'
      rcases hs with hs | hs
      · exact Or.inl hs
      · exact Or.inr (Or.inl hs)

/-- The checksum field of the header is given or ignored. -/
def settledF (y : Hdr) : Prop := ∃ q, findField y c!"chksum" = some q ∧ (q.val.isSome = true ∨ q.rxSkip = true)

theorem settledF_of {y : Hdr} (h : Settled y) : settledF y := by
  obtain ⟨q, hq, h⟩ := h
  refine ⟨q, hq, h.elim Or.inr fun h => Or.inl ?_⟩
  cases hv : q.val with
  | none => exact absurd hv h
  | some v => rfl

theorem settledF_condSet {y : Hdr} {n : CStr} {q : Field} {v : Option Buf} (hn : c!"chksum" ≠ n) (h : settledF y) :
    settledF (condSet y n q v) := by
  obtain ⟨q', h1, h2⟩ := h
  exact ⟨q', by rw [find_condSet_other hn]; exact h1, h2⟩

theorem relax_etherType {x y x1 y1 : Hdr} {above above' : List Hdr} (h : RelH x y) (ha : All2 RelH above above')
    (e : fillEtherType x above = .ok x1) (e' : fillEtherType y above' = .ok y1) : RelH x1 y1 := by
  unfold fillEtherType at e e'
  cases ha with
  | nil =>
    rw [Out.bind_eq_ok] at e e'
    obtain ⟨_, _, e⟩ := e
    obtain ⟨_, _, e'⟩ := e'
    simp only [ite_self, Out.ok.injEq] at e e'
    rw [← e, ← e']; exact h
  | cons r _ =>
    simp only [r.type] at e e'
    obtain ⟨_, _, _, _, _, _, _, _, hR⟩ := rel_step h (Or.inl rfl) e e'
    exact hR

theorem relax_ipv4 {x y x1 y1 : Hdr} {above above' : List Hdr} (h : RelH x y) (ha : All2 RelH above above')
    (hs : settledF y ∨ x = y) (e : fillIpv4 x above = .ok x1) (e' : fillIpv4 y above' = .ok y1) : RelH x1 y1 := by
  unfold fillIpv4 at e e'
  rw [Out.bind_eq_ok] at e e'
  obtain ⟨x2, e2, e⟩ := e
  obtain ⟨y2, e2', e'⟩ := e'
  rw [Out.bind_eq_ok] at e e'
  obtain ⟨x3, e3, e⟩ := e
  obtain ⟨y3, e3', e'⟩ := e'
  have hs2 : settledF y2 ∨ x2 = y2 := by
    rcases hs with hs | rfl
    · left
      unfold fillIpv4Proto at e2 e2'
      rw [rel_nextProto ha] at e2'
      obtain ⟨_, _, _, _, _, _, _, rfl, _⟩ := rel_step h (Or.inl rfl) e2 e2'
      exact settledF_condSet (by decide) hs
    · right
      unfold fillIpv4Proto at e2 e2'
      rw [rel_nextProto ha, e2] at e2'
      simpa using e2'
  unfold fillIpv4Proto at e2 e2'
  rw [rel_nextProto ha] at e2'
  obtain ⟨_, _, _, _, _, _, _, _, h2⟩ := rel_step h (Or.inl rfl) e2 e2'
  have hsum : sumSizes (y2 :: above') = sumSizes (x2 :: above) := rel_sumSizes (.cons h2 ha)
  have hs3 : settledF y3 ∨ x3 = y3 := by
    rcases hs2 with hs | rfl
    · left
      unfold fillIpv4Len at e3 e3'
      rw [hsum] at e3'
      obtain ⟨_, _, _, _, _, _, _, rfl, _⟩ := rel_step h2 (Or.inl rfl) e3 e3'
      exact settledF_condSet (by decide) hs
    · right
      unfold fillIpv4Len at e3 e3'
      rw [hsum, e3] at e3'
      simpa using e3'
  unfold fillIpv4Len at e3 e3'
  rw [hsum] at e3'
  obtain ⟨_, _, _, _, _, _, _, _, h3⟩ := rel_step h2 (Or.inl rfl) e3 e3'
  unfold fillIpv4Chksum at e e'
  have key : ∀ z : Hdr, (getField z c!"chksum" >>= fun chksum => if chksum.val.isSome then Out.ok z
      else copyHdr false z 0 (balloc 20) >>= fun b => parseBytes (decStr (inetChksum 0 b)) 2 >>= fun v => .ok (setVal z c!"chksum" v)) =
      (getField z c!"chksum" >>= fun chksum => if chksum.val.isSome then Out.ok z
      else (copyHdr false z 0 (balloc 20) >>= fun b => parseBytes (decStr (inetChksum 0 b)) 2) >>= fun v => .ok (setVal z c!"chksum" v)) := by
    intro z
    congr 1; funext p
    split
    · rfl
    · cases copyHdr false z 0 (balloc 20) <;> rfl
  have k1 := key x3
  have k2 := key y3
  have e4 := k1.symm.trans e
  have e4' := k2.symm.trans e'
  obtain ⟨_, _, _, _, _, _, _, _, hR⟩ := rel_step h3 (by
    rcases hs3 with hs | rfl
    · exact Or.inr hs
    · exact Or.inl rfl) e4 e4'
  exact hR

theorem relax_ipv6 {x y x1 y1 : Hdr} {above above' : List Hdr} (h : RelH x y) (ha : All2 RelH above above')
    (e : fillIpv6 x above = .ok x1) (e' : fillIpv6 y above' = .ok y1) : RelH x1 y1 := by
  unfold fillIpv6 at e e'
  rw [Out.bind_eq_ok] at e e'
  obtain ⟨x2, e2, e⟩ := e
  obtain ⟨y2, e2', e'⟩ := e'
  unfold fillIpv6Next at e2 e2'
  rw [rel_nextProto ha] at e2'
  obtain ⟨_, _, _, _, _, _, _, _, h2⟩ := rel_step h (Or.inl rfl) e2 e2'
  unfold fillIpv6Len at e e'
  rw [rel_sumSizes ha] at e'
  obtain ⟨_, _, _, _, _, _, _, _, h3⟩ := rel_step h2 (Or.inl rfl) e e'
  exact h3

/-- Fields which only some headers of the kind have. -/
theorem rel_stepOpt {x y x1 y1 : Hdr} {n : CStr} {w : Out (Option Buf)} (h : RelH x y)
    (e : (match findField x n with
          | none => Out.ok x
          | some p => if p.val.isSome then Out.ok x else w >>= fun v => .ok (setVal x n v)) = .ok x1)
    (e' : (match findField y n with
          | none => Out.ok y
          | some p => if p.val.isSome then Out.ok y else w >>= fun v => .ok (setVal y n v)) = .ok y1) :
    RelH x1 y1 ∧ (y1 = y ∨ ∃ q v, y1 = condSet y n q v) ∧ (x = y → x1 = y1) := by
  rcases relH_find h n with ⟨h1, h2⟩ | ⟨p, q, h1, h2, r⟩
  · rw [h1] at e
    rw [h2] at e'
    simp only [Out.ok.injEq] at e e'
    subst e e'
    exact ⟨h, Or.inl rfl, fun hx => hx⟩
  · rw [h1] at e
    rw [h2] at e'
    simp only at e e'
    have f1 : (getField x n >>= fun p => if p.val.isSome then Out.ok x else w >>= fun v => .ok (setVal x n v)) = .ok x1 := by
      unfold getField; rw [h1, Out.ok_bind]; exact e
    have f2 : (getField y n >>= fun p => if p.val.isSome then Out.ok y else w >>= fun v => .ok (setVal y n v)) = .ok y1 := by
      unfold getField; rw [h2, Out.ok_bind]; exact e'
    obtain ⟨_, q', _, v, _, _, _, hy, hR⟩ := rel_step h (Or.inl rfl) f1 f2
    refine ⟨hR, Or.inr ⟨q', v, hy⟩, ?_⟩
    rintro rfl
    rw [f1] at f2
    simpa using f2

theorem rel_last {l k : List Hdr} (h : All2 RelH l k) :
    (l.getLast? = none ∧ k.getLast? = none) ∨ ∃ x y, l.getLast? = some x ∧ k.getLast? = some y ∧ RelH x y := by
  rw [← List.head?_reverse, ← List.head?_reverse]
  have h' := h.reverse
  revert h'
  generalize l.reverse = l'
  generalize k.reverse = k'
  intro h'
  cases h' with
  | nil => exact Or.inl ⟨rfl, rfl⟩
  | cons r _ => exact Or.inr ⟨_, _, rfl, rfl, r⟩

theorem relax_udpTcp {below below' above above' : List Hdr} {x y x1 y1 : Hdr} (h : RelH x y) (hb : All2 RelH below below')
    (ha : All2 RelH above above')
    (hs : settledF y ∨ (below.getLast? = below'.getLast? ∧ x = y ∧ above = above'))
    (e : fillUdpTcp below x above = .ok x1) (e' : fillUdpTcp below' y above' = .ok y1) : RelH x1 y1 := by
  unfold fillUdpTcp at e e'
  rw [Out.bind_eq_ok] at e e'
  obtain ⟨x2, e2, e⟩ := e
  obtain ⟨y2, e2', e'⟩ := e'
  unfold fillUdpLen at e2 e2'
  rw [show sumSizes (y :: above') = sumSizes (x :: above) from rel_sumSizes (.cons h ha)] at e2'
  obtain ⟨h2, hy, hxy⟩ := rel_stepOpt h e2 e2'
  have hs2 : settledF y2 ∨ (below.getLast? = below'.getLast? ∧ x2 = y2 ∧ above = above') := by
    rcases hs with hs | ⟨s1, s2, s3⟩
    · left
      rcases hy with rfl | ⟨q, v, rfl⟩
      · exact hs
      · exact settledF_condSet (by decide) hs
    · exact Or.inr ⟨s1, hxy s2, s3⟩
  unfold fillUdpChksum at e e'
  -- the value to be computed
  let W : Option Hdr → Hdr → List Hdr → Hdr → Out (Option Buf) := fun _ z ab ll =>
    match pseudoFor ll with
    | none => .ok none
    | some ps => fillPseudo ps ll (decStr z.type) (sumSizes (z :: ab)) >>= fun p =>
      copyHdr false p 0 (balloc (sumSizes (z :: ab) + p.size)) >>= fun b =>
      copyHdrs false (z :: ab) p.size b >>= fun b => parseBytes (decStr (inetChksum 0 b)) 2
  rcases rel_last hb with ⟨l1, l2⟩ | ⟨ll, ll', l1, l2, hl⟩
  · rw [l1] at e
    rw [l2] at e'
    rw [Out.bind_eq_ok] at e e'
    obtain ⟨_, _, e⟩ := e
    obtain ⟨_, _, e'⟩ := e'
    simp only [ite_self, Out.ok.injEq] at e e'
    rw [← e, ← e']; exact h2
  · rw [l1] at e
    rw [l2] at e'
    have hps : pseudoFor ll' = pseudoFor ll := by unfold pseudoFor; rw [hl.name]
    cases hp : pseudoFor ll with
    | none =>
      rw [hp] at hps
      simp only [hp, hps] at e e'
      rw [Out.bind_eq_ok] at e e'
      obtain ⟨_, _, e⟩ := e
      obtain ⟨_, _, e'⟩ := e'
      simp only [ite_self, Out.ok.injEq] at e e'
      rw [← e, ← e']; exact h2
    | some ps =>
      rw [hp] at hps
      simp only [hp, hps] at e e'
      have key : ∀ (z ll : Hdr) (ab : List Hdr) (hp : pseudoFor ll = some ps), (getField z c!"chksum" >>= fun chksum => if chksum.val.isSome then Out.ok z
          else (W none z ab ll >>= fun v => .ok (setVal z c!"chksum" v))) = (getField z c!"chksum" >>= fun chksum => if chksum.val.isSome then Out.ok z
          else fillPseudo ps ll (decStr z.type) (sumSizes (z :: ab)) >>= fun p =>
            copyHdr false p 0 (balloc (sumSizes (z :: ab) + p.size)) >>= fun b =>
            copyHdrs false (z :: ab) p.size b >>= fun b => parseBytes (decStr (inetChksum 0 b)) 2 >>= fun v => .ok (setVal z c!"chksum" v)) := by
        intro z ll ab hp
        congr 1; funext p
        split
        · rfl
        · simp only [W, hp]
          cases fillPseudo ps ll (decStr z.type) (sumSizes (z :: ab)) with
          | ok p =>
            simp only [Out.ok_bind]
            cases copyHdr false p 0 (balloc (sumSizes (z :: ab) + p.size)) with
            | ok b => simp only [Out.ok_bind]; cases copyHdrs false (z :: ab) p.size b <;> rfl
            | _ => rfl
          | _ => rfl
      have e4 := (key x2 ll above hp).trans e
      have e4' := (key y2 ll' above' hps).trans e'
      obtain ⟨_, _, _, _, _, _, _, _, hR⟩ := rel_step h2 (by
        rcases hs2 with hs | ⟨s1, rfl, rfl⟩
        · exact Or.inr hs
        · rw [l1, l2] at s1
          simp only [Option.some.injEq] at s1
          subst s1
          exact Or.inl rfl) e4 e4'
      exact hR

theorem given_find {x : Hdr} {n : CStr} {p : Field} (h : findField x n = some p) : given x n = p.val := by
  unfold given
  unfold findField at h
  rw [h]; rfl

theorem relax_icmp {below below' above above' : List Hdr} {x y x1 y1 : Hdr} (h : RelH x y) (hb : All2 RelH below below')
    (ha : All2 RelH above above')
    (hs : settledF y ∨ (below.getLast? = below'.getLast? ∧ x = y ∧ above = above'))
    (hg : given x c!"chksum" = none ↔ given y c!"chksum" = none)
    (e : fillIcmp below x above = .ok x1) (e' : fillIcmp below' y above' = .ok y1) : RelH x1 y1 := by
  unfold fillIcmp at e e'
  rw [Out.bind_eq_ok] at e e'
  obtain ⟨p, e2, e⟩ := e
  obtain ⟨q, e2', e'⟩ := e'
  have hp := getField_ok e2
  have hq := getField_ok e2'
  rw [given_find hp, given_find hq] at hg
  cases hpv : p.val with
  | some v =>
    have : q.val.isSome = true := by
      cases hqv : q.val with
      | none => rw [hg.mpr hqv] at hpv; simp at hpv
      | some _ => rfl
    rw [hpv] at e
    rw [this] at e'
    simp only [Option.isSome_some, if_true, Out.ok.injEq] at e e'
    rw [← e, ← e']; exact h
  | none =>
    have hqv := hg.mp hpv
    rw [hpv] at e
    rw [hqv] at e'
    simp only [Option.isSome_none, Bool.false_eq_true, if_false] at e e'
    have hset : ∀ {u v : Option Buf} {tx : Nat} (hv : q.rxSkip = true ∨ u = v),
        RelH (setVal { x with type := tx } c!"chksum" u) (setVal { y with type := tx } c!"chksum" v) := by
      intro u v tx hv
      have h' : RelH { x with type := tx } { y with type := tx } := ⟨h.name, rfl, h.size, h.fill, h.parser, h.fields⟩
      have := rel_condSet (p := p) (q := q) (u := u) (v := v) h' hp hq (Or.inr hv)
      unfold condSet at this
      simpa [hpv, hqv] using this
    have hskip : settledF y → q.rxSkip = true := by
      rintro ⟨q', h1, h2⟩
      rw [hq] at h1
      cases h1
      rw [hqv] at h2
      simpa using h2
    have h6 : (ipv6Below below = none ∧ ipv6Below below' = none) ∨
        ∃ ll ll', ipv6Below below = some ll ∧ ipv6Below below' = some ll' ∧ (below.getLast? = below'.getLast? → ll = ll') := by
      unfold ipv6Below
      rcases rel_last hb with ⟨l1, l2⟩ | ⟨ll, ll', l1, l2, hl⟩
      · rw [l1, l2]; exact Or.inl ⟨rfl, rfl⟩
      · rw [l1, l2]
        simp only [hl.name]
        split
        · exact Or.inr ⟨ll, ll', rfl, rfl, fun c => by simpa using c⟩
        · exact Or.inl ⟨rfl, rfl⟩
    rcases h6 with ⟨l1, l2⟩ | ⟨ll, ll', l1, l2, hl⟩
    · rw [l1] at e
      rw [l2] at e'
      simp only at e e'
      rw [Out.bind_eq_ok] at e e'
      obtain ⟨b, e3, e⟩ := e
      obtain ⟨b', e3', e'⟩ := e'
      rw [Out.bind_eq_ok] at e e'
      obtain ⟨v, e4, e⟩ := e
      obtain ⟨v', e4', e'⟩ := e'
      simp only [Out.ok.injEq] at e e'
      subst e e'
      have : q.rxSkip = true ∨ v = v' := by
        rcases hs with hs | ⟨s1, rfl, rfl⟩
        · exact Or.inl (hskip hs)
        · right
          rw [e3] at e3'
          cases e3'
          rw [e4] at e4'
          cases e4'
          rfl
      have := hset (u := v) (v := v') (tx := x.type) this
      have ey : ({ y with type := x.type } : Hdr) = y := by rw [← h.type]
      rw [ey] at this
      exact this
    · rw [l1] at e
      rw [l2] at e'
      simp only at e e'
      rw [Out.bind_eq_ok] at e e'
      obtain ⟨ps, e3, e⟩ := e
      obtain ⟨ps', e3', e'⟩ := e'
      rw [Out.bind_eq_ok] at e e'
      obtain ⟨b, e4, e⟩ := e
      obtain ⟨b', e4', e'⟩ := e'
      rw [Out.bind_eq_ok] at e e'
      obtain ⟨c, e5, e⟩ := e
      obtain ⟨c', e5', e'⟩ := e'
      rw [Out.bind_eq_ok] at e e'
      obtain ⟨v, e6, e⟩ := e
      obtain ⟨v', e6', e'⟩ := e'
      simp only [Out.ok.injEq] at e e'
      subst e e'
      apply hset
      rcases hs with hs | ⟨s1, rfl, rfl⟩
      · exact Or.inl (hskip hs)
      · right
        have := hl s1
        subst this
        rw [e3] at e3'; cases e3'
        rw [e4] at e4'; cases e4'
        rw [e5] at e5'; cases e5'
        rw [e6] at e6'; cases e6'
        rfl

theorem relax_hdr {below below' above above' : List Hdr} {x y x1 y1 : Hdr} (h : RelH x y) (hb : All2 RelH below below')
    (ha : All2 RelH above above')
    (hk : y.fill ≠ .igmp ∧ y.fill ≠ .mld ∧ y.fill ≠ .sv ∧ y.fill ≠ .coap ∧ y.fill ≠ .coapOpt)
    (h4 : y.fill = .ipv4 → settledF y ∨ x = y)
    (hl : y.fill = .udpTcp ∨ y.fill = .icmp → settledF y ∨ (below.getLast? = below'.getLast? ∧ x = y ∧ above = above'))
    (hi : y.fill = .icmp → (given x c!"chksum" = none ↔ given y c!"chksum" = none))
    (e : fillHdr below x above = .ok x1) (e' : fillHdr below' y above' = .ok y1) : RelH x1 y1 := by
  unfold fillHdr at e e'
  rw [← h.fill] at e
  cases hf : y.fill with
  | none =>
    rw [hf] at e e'
    simp only [Out.ok.injEq] at e e'
    rw [← e, ← e']; exact h
  | etherType => rw [hf] at e e'; exact relax_etherType h ha e e'
  | ipv4 => rw [hf] at e e'; exact relax_ipv4 h ha (h4 hf) e e'
  | ipv6 => rw [hf] at e e'; exact relax_ipv6 h ha e e'
  | udpTcp => rw [hf] at e e'; exact relax_udpTcp h hb ha (hl (Or.inl hf)) e e'
  | icmp => rw [hf] at e e'; exact relax_icmp h hb ha (hl (Or.inr hf)) (hi hf) e e'
  | igmp => exact absurd hf hk.1
  | mld => exact absurd hf hk.2.1
  | sv => exact absurd hf hk.2.2.1
  | coap => exact absurd hf hk.2.2.2.1
  | coapOpt => exact absurd hf hk.2.2.2.2
  | ptp =>
    rw [hf] at e e'
    simp only [fillPtp] at e e'
    rw [show sumSizes (y :: above') = sumSizes (x :: above) from rel_sumSizes (.cons h ha)] at e'
    exact (rel_stepOpt h e e').1
  | ptpTlv =>
    rw [hf] at e e'
    simp only [fillPtpTlv] at e e'
    rw [show sumSizes (y :: above') = sumSizes (x :: above) from rel_sumSizes (.cons h ha)] at e'
    exact (rel_stepOpt h e e').1

/-- Which header kinds the computations belong to. -/
theorem relax_kinds : ∀ t ∈ hdrTmpls, (t.fill = .igmp ∨ t.fill = .mld ∨ t.fill = .sv ∨ t.fill = .coap ∨ t.fill = .coapOpt →
    t.name ∈ flexible) ∧ (t.fill = .ipv4 → t.name = c!"ipv4") ∧ (t.fill = .udpTcp → t.name = c!"udp" ∨ t.name = c!"tcp") ∧
    (t.fill = .icmp → t.name = c!"icmp") := by decide +kernel

theorem relax_inst {y : Hdr} (h : IsInst y) : (y.fill = .igmp ∨ y.fill = .mld ∨ y.fill = .sv ∨ y.fill = .coap ∨ y.fill = .coapOpt →
    y.name ∈ flexible) ∧ (y.fill = .ipv4 → y.name = c!"ipv4") ∧ (y.fill = .udpTcp → y.name = c!"udp" ∨ y.name = c!"tcp") ∧
    (y.fill = .icmp → y.name = c!"icmp") := by
  obtain ⟨t, ht, t', hv, hi, _⟩ := h
  rw [hi.fill, hi.name]
  cases hv with
  | same => exact relax_kinds t ht
  | coap k _ => simp [coapShape, flexible]
  | pnet k _ => simp [pnetShape]
  | opt k m _ _ _ => simp [optShape, flexible]
  | parms k _ => simp [parmsShape]
  | data k _ => simp [dataShape]

/-- Only the header directly before matters, except for `mld`. -/
theorem fillHdr_below {below below' above : List Hdr} {x : Hdr} (hm : x.fill ≠ .mld) (hl : below.getLast? = below'.getLast?) :
    fillHdr below x above = fillHdr below' x above := by
  unfold fillHdr
  cases hf : x.fill with
  | mld => exact absurd hf hm
  | udpTcp => simp only [fillUdpTcp, fillUdpChksum, hl]
  | icmp => simp only [fillIcmp, ipv6Below, hl]
  | _ => rfl

theorem fillStack_below (hs : List Hdr) : ∀ {below below' : List Hdr}, (∀ x ∈ hs, x.fill ≠ .mld) →
    below.getLast? = below'.getLast? → fillStack below hs = fillStack below' hs := by
  induction hs with
  | nil => intros; rfl
  | cons x hs ih =>
    intro below below' hm hl
    simp only [fillStack]
    rw [ih (below := below ++ [x]) (below' := below' ++ [x]) (fun y hy => hm y (List.mem_cons_of_mem _ hy)) (by simp)]
    congr 1; funext hs'
    rw [fillHdr_below (hm x (List.mem_cons_self ..)) hl]

/-- Completing all headers. -/
theorem relax_stack {hs hs' : List Hdr} (h : All2 RelH hs hs') : ∀ {below below' : List Hdr}, All2 RelH below below' →
    (∀ y ∈ hs', IsInst y ∧ y.name ∉ flexible) →
    (∀ l x post l' x' post', hs = l ++ x :: post → hs' = l' ++ x' :: post' → l.length = l'.length →
      ChecksumSafe (below ++ l) x post (below' ++ l') x' post') →
    ∀ {k k' : List Hdr}, fillStack below hs = .ok k → fillStack below' hs' = .ok k' → All2 RelH k k' := by
  induction h with
  | nil =>
    intro _ _ _ _ _ k k' e e'
    simp only [fillStack, Out.ok.injEq] at e e'
    subst e e'
    exact .nil
  | @cons x y l k r rs ih =>
    intro below below' hb hi hc k1 k1' e e'
    simp only [fillStack, Out.bind_eq_ok, Out.ok.injEq] at e e'
    obtain ⟨ab, e1, x1, e2, rfl⟩ := e
    obtain ⟨ab', e1', y1, e2', rfl⟩ := e'
    have hy := hi y (List.mem_cons_self ..)
    have hk := relax_inst hy.1
    have hcs := hc [] x l [] y k rfl rfl rfl
    simp only [List.append_nil] at hcs
    have hab := ih (below := below ++ [x]) (below' := below' ++ [y]) (hb.append (.cons r .nil))
      (fun z hz => hi z (List.mem_cons_of_mem _ hz)) (fun l1 z p l1' z' p' a1 a2 a3 => by
        have := hc (x :: l1) z p (y :: l1') z' p' (by rw [a1]; rfl) (by rw [a2]; rfl) (by simp [a3])
        simpa using this) e1 e1'
    refine .cons ?_ hab
    refine relax_hdr r hb hab ⟨?_, ?_, ?_, ?_, ?_⟩ ?_ ?_ ?_ e2 e2'
    · exact fun c => hy.2 (hk.1 (by simp [c]))
    · exact fun c => hy.2 (hk.1 (by simp [c]))
    · exact fun c => hy.2 (hk.1 (by simp [c]))
    · exact fun c => hy.2 (hk.1 (by simp [c]))
    · exact fun c => hy.2 (hk.1 (by simp [c]))
    · exact fun c => (hcs.ipv4 (hk.2.1 c)).imp_left settledF_of
    · intro c
      have : y.name = c!"udp" ∨ y.name = c!"tcp" ∨ y.name = c!"icmp" := by
        rcases c with c | c
        · rcases hk.2.2.1 c with c | c <;> simp [c]
        · simp [hk.2.2.2 c]
      rcases hcs.l4 this with c | ⟨c1, c2, c3⟩
      · exact Or.inl (settledF_of c)
      · refine Or.inr ⟨c1, c2, ?_⟩
        subst c2 c3
        rw [fillStack_below l (below' := below' ++ [x]) (fun z hz c => by
          have hz' := hi z (List.mem_cons_of_mem _ hz)
          exact hz'.2 ((relax_inst hz'.1).1 (by simp [c]))) (by simp), e1'] at e1
        cases e1
        rfl
    · exact fun c => hcs.icmp (hk.2.2.2 c)

/-- Where no ignored field is, the same bits are sent and expected. -/
theorem relax_wireBit {l k : List Field} (h : All2 RelF l k) {i : Nat} (hs : ∀ q ∈ k, covers q i → q.rxSkip = false) :
    wireBit l i = wireBit k i := by
  unfold wireBit
  have hr := h.reverse
  have hs' : ∀ q ∈ k.reverse, covers q i → q.rxSkip = false := fun q hq => hs q (List.mem_reverse.mp hq)
  revert hs' hr
  generalize l.reverse = a
  generalize k.reverse = b
  intro hr hs'
  induction hr with
  | nil => rfl
  | @cons p q a b r _ ih =>
    have ih := ih fun z hz => hs' z (List.mem_cons_of_mem _ hz)
    have hcov : covers q i ↔ covers p i := by unfold covers; rw [r.offset, r.width]
    by_cases hc : covers q i
    · have hsk := hs' q (List.mem_cons_self ..) hc
      have hfv : fieldValue q = fieldValue p := by unfold fieldValue; rw [r.val hsk, r.dflt]
      simp only [List.find?_cons, hcov.mp hc, hc, hfv, decide_true, Bool.true_and]
      cases hv : (fieldValue p).isSome with
      | false => exact ih
      | true =>
        simp only
        unfold valueBit
        rw [r.width, r.offset, hfv]
    · have hcp : ¬ covers p i := fun c => hc (hcov.mpr c)
      simp only [List.find?_cons, hcp, hc, decide_false, Bool.false_and]
      exact ih

theorem relax_totalSize {l k : List Hdr} (h : All2 RelH l k) : totalSize l = totalSize k := by
  induction h with
  | nil => rfl
  | cons r _ ih => simp only [totalSize, List.map_cons, List.sum_cons, r.size] at ih ⊢; omega

/-- A position inside the headers belongs to one of them. -/
theorem locate (hs : List Hdr) : ∀ i, i < 8 * totalSize hs →
    ∃ pre x post j, hs = pre ++ x :: post ∧ i = 8 * totalSize pre + j ∧ j < 8 * x.size := by
  induction hs with
  | nil => intro i hi; simp [totalSize] at hi
  | cons x hs ih =>
    intro i hi
    by_cases h : i < 8 * x.size
    · exact ⟨[], x, hs, i, rfl, by simp [totalSize], h⟩
    · have : i - 8 * x.size < 8 * totalSize hs := by
        simp only [totalSize, List.map_cons, List.sum_cons] at hi ⊢; omega
      obtain ⟨pre, y, post, j, h1, h2, h3⟩ := ih _ this
      refine ⟨x :: pre, y, post, j, by rw [h1]; rfl, ?_, h3⟩
      simp only [totalSize, List.map_cons, List.sum_cons] at h2 ⊢; omega

theorem All2.mem_left {α : Type} {R : α → α → Prop} {l k : List α} (h : All2 R l k) : ∀ {x}, x ∈ l → ∃ y ∈ k, R x y := by
  induction h with
  | nil => intro x hx; simp at hx
  | @cons p q l k r _ ih =>
    intro x hx
    rcases List.mem_cons.mp hx with rfl | hx
    · exact ⟨q, List.mem_cons_self .., r⟩
    · obtain ⟨y, hy, r⟩ := ih hx
      exact ⟨y, List.mem_cons_of_mem _ hy, r⟩

theorem All2.at_right {α : Type} {R : α → α → Prop} (pre' : List α) : ∀ {l : List α} {x' : α} {post' : List α},
    All2 R l (pre' ++ x' :: post') → ∃ pre x post, l = pre ++ x :: post ∧ All2 R pre pre' ∧ R x x' := by
  induction pre' with
  | nil =>
    intro l x' post' h
    cases h with
    | cons r t => exact ⟨[], _, _, rfl, .nil, r⟩
  | cons z zs ih =>
    intro l x' post' h
    cases h with
    | @cons p _ l _ r t =>
      obtain ⟨pre, x, post, e1, e2, e3⟩ := ih t
      exact ⟨p :: pre, x, post, by rw [e1]; rfl, .cons r e2, e3⟩

end Ef
