import Verif.Spec.Descriptors
import Verif.Lemmas.ExecAll

/-! # The run with descriptors and the run by places -/

namespace Ef

open Spec

theorem Spec.Agrees.bind {α β γ δ : Type} {P : α → β → Prop} {Q : γ → δ → Prop} {x : Out α} {y : Out β} {f : α → Out γ}
    {g : β → Out δ} (h : Agrees P x y) (hf : ∀ a b, P a b → Agrees Q (f a) (g b)) : Agrees Q (x >>= f) (y >>= g) := by
  cases h with
  | ok hp => exact hf _ _ hp
  | ub u => exact .ub u
  | abort => exact .abort
  | exit c => exact .exit c

theorem Spec.Agrees.same {α : Type} (x : Out α) : Agrees (fun a b => a = b ∧ x = .ok a) x x := by
  cases x with
  | ok a => exact .ok ⟨rfl, rfl⟩
  | ub u => exact .ub u
  | abort => exact .abort
  | exit c => exact .exit c

theorem Spec.Agrees.mono {α β : Type} {P Q : α → β → Prop} {x : Out α} {y : Out β} (h : Agrees P x y) (hq : ∀ a b, P a b → Q a b) :
    Agrees Q x y := by
  cases h with
  | ok hp => exact .ok (hq _ _ hp)
  | ub u => exact .ub u
  | abort => exact .abort
  | exit c => exact .exit c

theorem bind_ok {α : Type} (x : Out α) : (x >>= fun p => Out.ok p) = x := by cases x <;> rfl

theorem bind_ok_bind {α β : Type} (x : Out α) (f : α → Out β) : ((x >>= fun p => Out.ok p) >>= f) = (x >>= f) := by
  cases x <;> rfl

/-- Descriptors among `F` that fit into a set. -/
def InSet (F : List Int) (fd : Int) : Prop := (0 ≤ fd ∧ fd < fdSetSize) ∧ fd ∈ F

theorem fdIsSet_eq {F : List Int} {fd : Int} (h : InSet F fd) (s : FdSet) : fdIsSet fd s = .ok (s.contains fd) := by
  unfold fdIsSet; rw [if_pos h.1]

theorem fdAdd_eq {F : List Int} {fd : Int} (h : InSet F fd) (s : FdSet) : fdAdd fd s = .ok (fd :: s) := by
  unfold fdAdd; rw [if_pos h.1]

/-! ## The sets -/

theorem fillSets_eq {F : List Int} : ∀ (ks : List Sock) (r w : FdSet) (m : Int) (c : Nat), (∀ k ∈ ks, InSet F k.fd) →
    ∃ r' w' m' c', fillSets ks r w m c = .ok (r', w', m', c') ∧
      (∀ d, d ∈ r' ↔ d ∈ r ∨ ∃ k ∈ ks, k.fd = d ∧ hasRx k.res = true) ∧
      (∀ d, d ∈ w' ↔ d ∈ w ∨ ∃ k ∈ ks, k.fd = d ∧ hasTx k.res = true) ∧
      m ≤ m' ∧ (∀ k ∈ ks, hasRx k.res = true ∨ hasTx k.res = true → k.fd ≤ m') ∧
      (c' = 0 ↔ c = 0 ∧ wantsIo (ks.map (·.res)) = false) := by
  intro ks
  induction ks with
  | nil => intro r w m c _; exact ⟨r, w, m, c, rfl, by simp, by simp, by omega, by simp, by simp [wantsIo]⟩
  | cons k ks ih =>
    intro r w m c h
    have hk := h k (by simp)
    unfold fillSets
    rw [fdAdd_eq hk, fdAdd_eq hk]
    have step : ∃ r1 m1 c1, (if hasRx k.res then (do
        let r ← (Out.ok (k.fd :: r) : Out FdSet)
        .ok (r, max k.fd m, c + 1) : Out (FdSet × Int × Nat))
      else .ok (r, m, c)) = .ok (r1, m1, c1) ∧ (∀ d, d ∈ r1 ↔ d ∈ r ∨ (k.fd = d ∧ hasRx k.res = true)) ∧ m ≤ m1 ∧
        (hasRx k.res = true → k.fd ≤ m1) ∧ (c1 = 0 ↔ c = 0 ∧ hasRx k.res = false) := by
      cases hx : hasRx k.res with
      | false => exact ⟨r, m, c, by simp, by simp, by omega, by simp, by simp⟩
      | true =>
        refine ⟨k.fd :: r, max k.fd m, c + 1, by simp, ?_, by omega, by omega, by simp⟩
        intro d
        simp only [List.mem_cons, and_true]
        constructor
        · rintro (e | e)
          · exact .inr e.symm
          · exact .inl e
        · rintro (e | e)
          · exact .inr e
          · exact .inl e.symm
    obtain ⟨r1, m1, c1, e1, a1, a2, a3, a4⟩ := step
    have step : ∃ w1 m2 c2, (if hasTx k.res then (do
        let w ← (Out.ok (k.fd :: w) : Out FdSet)
        .ok (w, max k.fd m1, c1 + 1) : Out (FdSet × Int × Nat))
      else .ok (w, m1, c1)) = .ok (w1, m2, c2) ∧ (∀ d, d ∈ w1 ↔ d ∈ w ∨ (k.fd = d ∧ hasTx k.res = true)) ∧ m1 ≤ m2 ∧
        (hasTx k.res = true → k.fd ≤ m2) ∧ (c2 = 0 ↔ c1 = 0 ∧ hasTx k.res = false) := by
      cases hx : hasTx k.res with
      | false => exact ⟨w, m1, c1, by simp, by simp, by omega, by simp, by simp⟩
      | true =>
        refine ⟨k.fd :: w, max k.fd m1, c1 + 1, by simp, ?_, by omega, by omega, by simp⟩
        intro d
        simp only [List.mem_cons, and_true]
        constructor
        · rintro (e | e)
          · exact .inr e.symm
          · exact .inl e
        · rintro (e | e)
          · exact .inr e
          · exact .inl e.symm
    obtain ⟨w1, m2, c2, e2, b1, b2, b3, b4⟩ := step
    obtain ⟨r', w', m', c', e, d1, d2, d3, d4, d5⟩ := ih r1 w1 m2 c2 (fun x hx => h x (by simp [hx]))
    refine ⟨r', w', m', c', ?_, ?_, ?_, by omega, ?_, ?_⟩
    · rw [e1, Out.ok_bind]
      simp only
      rw [e2, Out.ok_bind]
      exact e
    · intro d
      rw [d1, a1]
      simp only [List.mem_cons, exists_eq_or_imp]
      exact or_assoc
    · intro d
      rw [d2, b1]
      simp only [List.mem_cons, exists_eq_or_imp]
      exact or_assoc
    · intro x hx hi
      rcases List.mem_cons.1 hx with rfl | hx
      · rcases hi with hi | hi
        · have := a3 hi; omega
        · have := b3 hi; omega
      · exact d4 x hx hi
    · rw [d5, b4, a4]
      simp only [wantsIo, List.map_cons, List.any_cons, Bool.or_eq_false_iff]
      constructor
      · rintro ⟨⟨⟨p, q⟩, s⟩, t⟩; exact ⟨p, ⟨q, s⟩, t⟩
      · rintro ⟨p, ⟨q, s⟩, t⟩; exact ⟨⟨⟨p, q⟩, s⟩, t⟩

/-- The sockets have descriptors of their own, each belongs to an interface. -/
structure Socks (F : List Int) (nm : Int → CStr) (ks : List Sock) : Prop where
  own : (ks.map (·.fd)).Nodup
  low : ∀ k ∈ ks, InSet F k.fd
  named : ∀ k ∈ ks, Named (nm k.fd) k.res

/-- What happens with a descriptor belongs to its interface. -/
def OwnEvents (F : List Int) (nm : Int → CStr) (es : List FdEvent) : Prop :=
  ∀ fd e, FdEvent.on fd e ∈ es → fd ∈ F ∧ ifaceOf e = some (nm fd)

theorem OwnEvents.append {F : List Int} {nm : Int → CStr} {a b : List FdEvent} (h1 : OwnEvents F nm a) (h2 : OwnEvents F nm b) : OwnEvents F nm (a ++ b) := by
  intro fd e h
  rcases List.mem_append.1 h with h | h
  · exact h1 fd e h
  · exact h2 fd e h

theorem OwnEvents.one {F : List Int} {nm : Int → CStr} {fd : Int} {es : List Event} (hF : fd ∈ F) (h : ∀ e ∈ es, ifaceOf e = some (nm fd)) :
    OwnEvents F nm (es.map (.on fd)) := by
  intro f e he
  rw [List.mem_map] at he
  obtain ⟨x, hx, hq⟩ := he
  cases hq
  exact ⟨hF, h _ hx⟩

theorem plain_on (fd : Int) (es : List Event) : (es.map (FdEvent.on fd)).map plain = es := by
  rw [List.map_map]
  exact (List.map_congr_left fun _ _ => rfl).trans (List.map_id es)

theorem selectSets_eq {F : List Int} {nm : Int → CStr} {ks : List Sock} (h : Socks F nm ks) :
    ∃ r w m, selectSets ks = .ok (r, w, m) ∧ (m < 0 ↔ wantsIo (ks.map (·.res)) = false) ∧
      (∀ k ∈ ks, ∀ f : Int → Bool, (selected (m + 1) f r).contains k.fd = (hasRx k.res && f k.fd)) ∧
      (∀ k ∈ ks, ∀ f : Int → Bool, (selected (m + 1) f w).contains k.fd = (hasTx k.res && f k.fd)) := by
  obtain ⟨r, w, m, c, e, d1, d2, d3, d4, d5⟩ := fillSets_eq ks [] [] 0 0 h.low
  have uniq : ∀ k ∈ ks, ∀ k' ∈ ks, k'.fd = k.fd → k' = k := by
    intro k hk k' hk' he
    obtain ⟨i, hi, rfl⟩ := List.mem_iff_getElem.mp hk
    obtain ⟨j, hj, rfl⟩ := List.mem_iff_getElem.mp hk'
    have : j = i := (List.getElem_inj (h₀ := by simpa using hj) (h₁ := by simpa using hi) h.own).mp (by simpa using he)
    subst this
    rfl
  unfold selectSets
  rw [e, Out.ok_bind]
  simp only [true_and, List.not_mem_nil, false_or] at d1 d2 d5
  by_cases hc : c = 0
  · have hw := d5.mp hc
    refine ⟨r, w, -1, by simp only; rw [if_neg (by simpa using hc)], by simp [hw], ?_, ?_⟩
    · intro k hk f
      have : hasRx k.res = false := by
        unfold wantsIo at hw
        rw [List.any_eq_false] at hw
        have := hw k.res (List.mem_map_of_mem hk)
        simp at this
        exact this.1
      rw [this, Bool.false_and, List.contains_eq_mem, decide_eq_false_iff_not]
      unfold selected
      rw [List.mem_filter]
      rintro ⟨h1, _⟩
      obtain ⟨k', hk', he, hx⟩ := (d1 _).mp h1
      rw [uniq k hk k' hk' he, this] at hx
      cases hx
    · intro k hk f
      have : hasTx k.res = false := by
        unfold wantsIo at hw
        rw [List.any_eq_false] at hw
        have := hw k.res (List.mem_map_of_mem hk)
        simp at this
        exact this.2
      rw [this, Bool.false_and, List.contains_eq_mem, decide_eq_false_iff_not]
      unfold selected
      rw [List.mem_filter]
      rintro ⟨h1, _⟩
      obtain ⟨k', hk', he, hx⟩ := (d2 _).mp h1
      rw [uniq k hk k' hk' he, this] at hx
      cases hx
  · have hw : wantsIo (ks.map (·.res)) ≠ false := fun e => hc (d5.mpr e)
    refine ⟨r, w, m, by simp only; rw [if_pos hc], ⟨fun h => by omega, fun h => absurd h hw⟩, ?_, ?_⟩
    · intro k hk f
      rw [List.contains_eq_mem, Bool.eq_iff_iff, decide_eq_true_iff, Bool.and_eq_true]
      unfold selected
      rw [List.mem_filter, Bool.and_eq_true, decide_eq_true_iff, d1]
      constructor
      · rintro ⟨⟨k', hk', he, hx⟩, _, hf⟩
        rw [uniq k hk k' hk' he] at hx
        exact ⟨hx, hf⟩
      · rintro ⟨hx, hf⟩
        have := d4 k hk (.inl hx)
        exact ⟨⟨k, hk, rfl, hx⟩, by omega, hf⟩
    · intro k hk f
      rw [List.contains_eq_mem, Bool.eq_iff_iff, decide_eq_true_iff, Bool.and_eq_true]
      unfold selected
      rw [List.mem_filter, Bool.and_eq_true, decide_eq_true_iff, d2]
      constructor
      · rintro ⟨⟨k', hk', he, hx⟩, _, hf⟩
        rw [uniq k hk k' hk' he] at hx
        exact ⟨hx, hf⟩
      · rintro ⟨hx, hf⟩
        have := d4 k hk (.inr hx)
        exact ⟨⟨k, hk, rfl, hx⟩, by omega, hf⟩

/-! ## One round -/

/-- The same sockets, with resources `rs`. -/
structure After (nm : Int → CStr) (fds : List Int) (ks : List Sock) (rs : List Resource) : Prop where
  fds : ks.map (·.fd) = fds
  res : ks.map (·.res) = rs
  named : ∀ k ∈ ks, Named (nm k.fd) k.res

theorem After.nil (nm : Int → CStr) : After nm [] [] [] := ⟨rfl, rfl, by simp⟩

theorem After.cons {nm : Int → CStr} {fds ks rs} {k : Sock} {r : Resource} (hk : Named (nm k.fd) k.res) (hr : k.res = r)
    (h : After nm fds ks rs) : After nm (k.fd :: fds) (k :: ks) (r :: rs) := by
  refine ⟨by rw [List.map_cons, h.fds], by rw [List.map_cons, h.res, hr], ?_⟩
  intro x hx
  rcases List.mem_cons.1 hx with rfl | hx
  · exact hk
  · exact h.named x hx

theorem rxSocks_agrees {cfg : Config} {s : FdStep} {st : Step} {rfds : FdSet} {F : List Int} {nm : Int → CStr} : ∀ (ks : List Sock) (i : Nat),
    (∀ k ∈ ks, InSet F k.fd) → (∀ k ∈ ks, Named (nm k.fd) k.res) →
    (∀ (j : Nat) k, ks[j]? = some k → rfds.contains k.fd = (hasRx k.res && st.readable (i + j)) ∧ st.recv (i + j) = s.recv k.fd) →
    Agrees (fun p q => After nm (ks.map (·.fd)) p.1 q.1 ∧ p.2.map plain = q.2 ∧ OwnEvents F nm p.2)
      (rxSocks cfg s rfds ks) (rxAll cfg st i (ks.map (·.res))) := by
  intro ks
  induction ks with
  | nil => intro i _ _ _; exact .ok ⟨.nil nm, rfl, by simp [OwnEvents]⟩
  | cons k ks ih =>
    intro i hl hn hs
    obtain ⟨h1, h2⟩ := hs 0 k rfl
    rw [Nat.add_zero] at h1 h2
    unfold rxSocks
    rw [show (k :: ks).map (·.res) = k.res :: ks.map (·.res) from rfl, rxAll, fdIsSet_eq (hl k (by simp)), Out.ok_bind, h1]
    have one : Agrees (fun (p : Sock × List FdEvent) (q : Resource × List Event) =>
        p.1.fd = k.fd ∧ p.1.res = q.1 ∧ Named (nm k.fd) q.1 ∧ p.2.map plain = q.2 ∧ OwnEvents F nm p.2)
        (if hasRx k.res && st.readable i then
          match s.recv k.fd with
          | none => .ok (k, [])
          | some m => do
            let (r, e) ← rxFrame cfg k.res m
            .ok ({ k with res := r }, e.map (.on k.fd))
        else .ok (k, [])) (rxResource cfg st i k.res) := by
      unfold rxResource
      rw [h2]
      have stay : Agrees (fun (p : Sock × List FdEvent) (q : Resource × List Event) =>
          p.1.fd = k.fd ∧ p.1.res = q.1 ∧ Named (nm k.fd) q.1 ∧ p.2.map plain = q.2 ∧ OwnEvents F nm p.2)
          (.ok (k, [])) (.ok (k.res, [])) := .ok ⟨rfl, rfl, hn k (by simp), rfl, by simp [OwnEvents]⟩
      split
      · cases s.recv k.fd with
        | none => exact stay
        | some m =>
          simp only
          rw [← bind_ok (rxFrame cfg k.res m), bind_ok_bind]
          refine (Agrees.same _).bind ?_
          rintro ⟨r, ev⟩ _ ⟨rfl, hx⟩
          obtain ⟨ops, ch⟩ := rxFrame_ok (hn k (by simp)) hx
          refine .ok ⟨rfl, rfl, (hn k (by simp)).same ch.run.same, plain_on _ _, .one (hl k (by simp)).2 ?_⟩
          intro e he
          rw [ch.ev, List.mem_flatMap] at he
          obtain ⟨op, _, he⟩ := he
          exact opEvents_iface _ _ _ _ he
      · exact stay
    refine one.bind ?_
    rintro ⟨k', e⟩ ⟨r', e'⟩ ⟨p1, p2, p3, p4, p5⟩
    simp only at p1 p2 p3 p4 p5
    refine (ih (i + 1) (fun x hx => hl x (by simp [hx])) (fun x hx => hn x (by simp [hx])) (fun j x hx => ?_)).bind ?_
    · have := hs (j + 1) x hx
      rw [Nat.add_right_comm, Nat.add_assoc i j 1]
      exact this
    · rintro ⟨ks', es⟩ ⟨rs', es'⟩ ⟨q1, q2, q3⟩
      simp only at q1 q2 q3
      refine .ok ⟨?_, ?_, p5.append q3⟩
      · rw [List.map_cons, ← p1]
        exact q1.cons (by rw [p1, p2]; exact p3) p2
      · simp only
        rw [List.map_append, p4, q2]

theorem txSocks_agrees {wfds : FdSet} {send : Nat → Int} {w : Nat → Bool} {F : List Int} {nm : Int → CStr} : ∀ (ks : List Sock) (i n : Nat),
    (∀ k ∈ ks, InSet F k.fd) → (∀ k ∈ ks, Named (nm k.fd) k.res) →
    (∀ (j : Nat) k, ks[j]? = some k → wfds.contains k.fd = w (i + j)) →
    Agrees (fun p q => After nm (ks.map (·.fd)) p.1 q.1 ∧ p.2.1 = q.2.1 ∧ p.2.2.1.map plain = q.2.2.1 ∧ p.2.2.2 = q.2.2.2 ∧
        OwnEvents F nm p.2.2.1)
      (txSocks wfds send n ks) (txRound w send i n (ks.map (·.res))) := by
  intro ks
  induction ks with
  | nil => intro i n _ _ _; exact .ok ⟨.nil nm, rfl, rfl, rfl, by simp [OwnEvents]⟩
  | cons k ks ih =>
    intro i n hl hn hs
    have h1 := hs 0 k rfl
    rw [Nat.add_zero] at h1
    have hk := hn k (by simp)
    have tl : ∀ n', Agrees (fun p q => After nm (ks.map (·.fd)) p.1 q.1 ∧ p.2.1 = q.2.1 ∧ p.2.2.1.map plain = q.2.2.1 ∧ p.2.2.2 = q.2.2.2 ∧
        OwnEvents F nm p.2.2.1)
      (txSocks wfds send n' ks) (txRound w send (i + 1) n' (ks.map (·.res))) := fun n' =>
        ih (i + 1) n' (fun x hx => hl x (by simp [hx])) (fun x hx => hn x (by simp [hx])) (fun j x hx => by
          have := hs (j + 1) x hx
          rw [Nat.add_right_comm, Nat.add_assoc i j 1]
          exact this)
    unfold txSocks
    rw [show (k :: ks).map (·.res) = k.res :: ks.map (·.res) from rfl, txRound, fdIsSet_eq (hl k (by simp)), Out.ok_bind, h1]
    cases hw : w i with
    | false =>
      simp only [Bool.false_eq_true, if_false]
      refine (tl n).bind ?_
      rintro ⟨ks', n', es, more⟩ ⟨rs', m', es', more'⟩ ⟨q1, q2, q3, q4, q5⟩
      exact .ok ⟨q1.cons hk rfl, q2, q3, q4, q5⟩
    | true =>
      simp only [if_true]
      refine (Agrees.same _).bind ?_
      rintro o _ ⟨rfl, ho⟩
      cases o with
      | none =>
        simp only
        refine (tl n).bind ?_
        rintro ⟨ks', n', es, more⟩ ⟨rs', m', es', more'⟩ ⟨q1, q2, q3, q4, q5⟩
        exact .ok ⟨q1.cons hk rfl, q2, q3, q4, q5⟩
      | some x =>
        obtain ⟨cs, e, m⟩ := x
        simp only
        have hx : Named (nm k.fd) { k.res with cmds := cs } ∧ ∀ y ∈ e, ifaceOf y = some (nm k.fd) := by
          rcases txFirst_ok ho with ⟨h0, _⟩ | ⟨j, c, b, a, h0, hj, _, _, _, ha⟩
          · cases h0
          · simp only [Option.some.injEq, Prod.mk.injEq] at h0
            obtain ⟨rfl, h0⟩ := h0
            refine ⟨hk.same (r' := ⟨_, _⟩) (sameList_set hj (txOne_static _ _ _ _)), ?_⟩
            have ha' : a = nm k.fd := by
              have := hk.2 c (List.mem_of_getElem? hj)
              rw [ha] at this
              exact Option.some.inj this
            have h3 : e = (txOne c b a (send n)).2.1 := by rw [← h0]
            rw [h3, ha']
            unfold txOne
            simp only
            split <;> simp [ifaceOf]
        refine (tl (n + 1)).bind ?_
        rintro ⟨ks', n', es, more⟩ ⟨rs', m', es', more'⟩ ⟨q1, q2, q3, q4, q5⟩
        simp only at q1 q2 q3 q4 q5
        refine .ok ⟨After.cons (k := ⟨k.fd, { k.res with cmds := cs }⟩) hx.1 rfl q1, q2, ?_, by simp only; rw [q4], (OwnEvents.one (hl k (by simp)).2 hx.2).append q5⟩
        simp only
        rw [List.map_append, plain_on, q3]

theorem txSocksLoop_agrees {wfds : FdSet} {send : Nat → Int} {w : Nat → Bool} {F : List Int} {nm : Int → CStr} : ∀ (fuel n : Nat) (ks : List Sock),
    (∀ k ∈ ks, InSet F k.fd) → (∀ k ∈ ks, Named (nm k.fd) k.res) →
    (∀ (j : Nat) fd, (ks.map (·.fd))[j]? = some fd → wfds.contains fd = w j) →
    Agrees (fun p q => p.1 = q.1 ∧ After nm (ks.map (·.fd)) p.2.1 q.2.1 ∧ p.2.2.map plain = q.2.2 ∧ OwnEvents F nm p.2.2)
      (txSocksLoop wfds send fuel n ks) (txLoop w send fuel n (ks.map (·.res))) := by
  intro fuel
  induction fuel with
  | zero => intro n ks _ hn _; exact .ok ⟨rfl, ⟨rfl, rfl, hn⟩, rfl, by simp [OwnEvents]⟩
  | succ fuel ih =>
    intro n ks hl hn hs
    unfold txSocksLoop txLoop
    refine (txSocks_agrees ks 0 n hl hn (w := w) (fun j k hk => ?_)).bind ?_
    · rw [Nat.zero_add]
      exact hs j k.fd (by rw [List.getElem?_map, hk]; rfl)
    · rintro ⟨ks', n', e, more⟩ ⟨rs', m', e', more'⟩ ⟨q1, q2, q3, q4, q5⟩
      simp only at q1 q2 q3 q4 q5
      subst q2 q4
      simp only
      split
      · have := ih n' ks' (fun k hk => by
            have : k.fd ∈ ks.map (·.fd) := by rw [← q1.fds]; exact List.mem_map_of_mem hk
            obtain ⟨k2, hk2, e2⟩ := List.mem_map.1 this
            rw [← e2]
            exact hl k2 hk2) q1.named (fun j fd h => hs j fd (by rw [← q1.fds]; exact h))
        rw [q1.res] at this
        refine this.bind ?_
        rintro ⟨fin, ks2, es⟩ ⟨fin', rs2, es'⟩ ⟨p1, p2, p3, p4⟩
        simp only at p1 p2 p3 p4
        refine .ok ⟨p1, by rw [← q1.fds]; exact p2, ?_, q5.append p4⟩
        simp only
        rw [List.map_append, q3, p3]
      · exact .ok ⟨rfl, q1, q3, q5⟩

/-! ## The main loop -/

theorem Socks.after {F : List Int} {nm : Int → CStr} {ks ks' : List Sock} {rs : List Resource} (h : Socks F nm ks) (ha : After nm (ks.map (·.fd)) ks' rs) :
    Socks F nm ks' where
  own := by rw [ha.fds]; exact h.own
  low := fun k hk => by
    have : k.fd ∈ ks.map (·.fd) := by rw [← ha.fds]; exact List.mem_map_of_mem hk
    obtain ⟨k2, hk2, e2⟩ := List.mem_map.1 this
    rw [← e2]
    exact h.low k2 hk2
  named := ha.named

theorem sockLoop_agrees {cfg : Config} {fuel : Nat} {tend : TimeVal} {F : List Int} {nm : Int → CStr} : ∀ (hist : List FdStep) (left : TimeVal) (ks : List Sock),
    Socks F nm ks → Agrees (fun p q => p.1 = q.1 ∧ After nm (ks.map (·.fd)) p.2.1 q.2.1 ∧ p.2.2.map plain = q.2.2 ∧ OwnEvents F nm p.2.2)
      (sockLoop cfg fuel tend hist left ks)
      (mainLoop cfg fuel tend (hist.map (byPlace (ks.map (·.fd)))) left (ks.map (·.res))) := by
  intro hist
  induction hist with
  | nil =>
    intro left ks h
    obtain ⟨r, w, m, e, e1, e2, e3⟩ := selectSets_eq h
    unfold sockLoop
    rw [e, Out.ok_bind, List.map_nil, mainLoop]
    simp only
    by_cases hm : m < 0
    · rw [if_pos hm, if_pos (c := ¬ wantsIo (ks.map (·.res)) = true) (by rw [e1.mp hm]; decide)]
      exact .ok ⟨rfl, ⟨rfl, rfl, h.named⟩, rfl, by simp [OwnEvents]⟩
    · rw [if_neg hm, if_neg (c := ¬ wantsIo (ks.map (·.res)) = true) (fun hc => hm (e1.mpr (by simpa using hc)))]
      exact .ok ⟨rfl, ⟨rfl, rfl, h.named⟩, rfl, by simp [OwnEvents]⟩
  | cons s hist ih =>
    intro left ks h
    obtain ⟨r, w, m, e, e1, e2, e3⟩ := selectSets_eq h
    unfold sockLoop
    rw [e, Out.ok_bind, List.map_cons, mainLoop]
    simp only
    by_cases hm : m < 0
    · rw [if_pos hm, if_pos (c := ¬ wantsIo (ks.map (·.res)) = true) (by rw [e1.mp hm]; decide)]
      exact .ok ⟨rfl, ⟨rfl, rfl, h.named⟩, rfl, by simp [OwnEvents]⟩
    · rw [if_neg hm, if_neg (c := ¬ wantsIo (ks.map (·.res)) = true) (fun hc => hm (e1.mpr (by simpa using hc)))]
      show Agrees _ (if timerGt s.now tend = true then _ else _) (if timerGt s.now tend = true then _ else _)
      by_cases ht : timerGt s.now tend = true
      · rw [if_pos ht, if_pos ht]
        exact .ok ⟨rfl, ⟨rfl, rfl, h.named⟩, rfl, by simp [OwnEvents]⟩
      rw [if_neg ht, if_neg ht]
      show Agrees _ (if s.res ≤ 0 then _ else _) (if s.res ≤ 0 then _ else _)
      by_cases hr : s.res ≤ 0
      · rw [if_pos hr, if_pos hr]
        exact .ok ⟨rfl, ⟨rfl, rfl, h.named⟩, rfl, by simp [OwnEvents]⟩
      rw [if_neg hr, if_neg hr]
      have get : ∀ (j : Nat) k, ks[j]? = some k → (ks.map (·.fd))[j]? = some k.fd := fun j k hk => by
        rw [List.getElem?_map, hk]; rfl
      have hp : Agrees (fun p q => p.1 = q.1 ∧ After nm (ks.map (·.fd)) p.2.1 q.2.1 ∧ p.2.2.map plain = q.2.2 ∧ OwnEvents F nm p.2.2)
          (processSocks cfg fuel s (selected (m + 1) s.readable r) (selected (m + 1) s.writable w) ks)
          (process cfg fuel (byPlace (ks.map (·.fd)) s) (ks.map (·.res))) := by
        unfold processSocks process
        simp only
        refine (rxSocks_agrees ks 0 h.low h.named (fun j k hk => ?_)).bind ?_
        · rw [Nat.zero_add]
          have hj := get j k hk
          constructor
          · rw [e2 k (List.mem_of_getElem? hk)]
            show _ = (hasRx k.res && match (ks.map (·.fd))[j]? with | some fd => s.readable fd | none => false)
            rw [hj]
          · show (match (ks.map (·.fd))[j]? with | some fd => s.recv fd | none => none) = _
            rw [hj]
        · rintro ⟨ks1, es1⟩ ⟨rs1, es1'⟩ ⟨q1, q2, q3⟩
          simp only at q1 q2 q3
          have h1 := h.after q1
          have := txSocksLoop_agrees (wfds := selected (m + 1) s.writable w) (send := s.send)
            (w := writeSet (byPlace (ks.map (·.fd)) s) (ks.map (·.res))) (nm := nm) fuel 0 ks1 h1.low h1.named (fun j fd hfd => by
              rw [q1.fds] at hfd
              rw [List.getElem?_map, Option.map_eq_some_iff] at hfd
              obtain ⟨k, hk, rfl⟩ := hfd
              rw [e3 k (List.mem_of_getElem? hk)]
              unfold writeSet
              rw [List.getElem?_map, hk]
              show _ = (hasTx k.res && match (ks.map (·.fd))[j]? with | some fd => s.writable fd | none => false)
              rw [get j k hk])
          rw [q1.res] at this
          refine this.bind ?_
          rintro ⟨fin, ks2, es⟩ ⟨fin', rs2, es'⟩ ⟨p1, p2, p3, p4⟩
          simp only at p1 p2 p3 p4
          refine .ok ⟨p1, by rw [← q1.fds]; exact p2, ?_, q3.append p4⟩
          simp only
          rw [List.map_append, q2, p3]
      refine hp.bind ?_
      rintro ⟨fin, ks2, es⟩ ⟨fin', rs2, es'⟩ ⟨p1, p2, p3, p4⟩
      simp only at p1 p2 p3 p4
      subst p1
      simp only
      have hsel : ∀ l : List FdEvent, OwnEvents F nm l → OwnEvents F nm (.select (m + 1) left :: l) := by
        intro l hl fd e he
        rcases List.mem_cons.1 he with he | he
        · cases he
        · exact hl fd e he
      split
      · have := ih (timerSub tend s.now) ks2 (h.after p2)
        rw [p2.fds, p2.res] at this
        refine this.bind ?_
        rintro ⟨st, ks3, es3⟩ ⟨st', rs3, es3'⟩ ⟨q1, q2, q3, q4⟩
        simp only at q1 q2 q3 q4
        refine .ok ⟨q1, q2, ?_, hsel _ (p4.append q4)⟩
        simp only
        rw [List.map_cons, List.map_append, p3, q3]
        rfl
      · refine .ok ⟨rfl, p2, ?_, hsel _ p4⟩
        simp only
        rw [List.map_cons, p3]
        rfl

end Ef
