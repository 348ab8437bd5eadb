import Verif.Lemmas.ParseCmds

/-!
# Counting credited frames
-/

namespace Ef

open Spec

/-- An injection from the positions of `l` with `p` into the positions of `l'` with `q`. -/
theorem countP_le_of_inj {α β : Type} (l : List α) (l' : List β) (p : α → Bool) (q : β → Bool) (f : Nat → Nat)
    (h1 : ∀ (k : Nat) a, l[k]? = some a → p a = true → ∃ b, l'[f k]? = some b ∧ q b = true)
    (h2 : ∀ (k k' : Nat) a a', l[k]? = some a → p a = true → l[k']? = some a' → p a' = true → f k = f k' → k = k') :
    l.countP p ≤ l'.countP q := by
  induction l generalizing l' f with
  | nil => simp
  | cons x l ih =>
    by_cases hx : p x = true
    · obtain ⟨b, hb, hqb⟩ := h1 0 x rfl hx
      have hlt : f 0 < l'.length := (List.getElem?_eq_some_iff.mp hb).1
      have hcnt : l'.countP q = (l'.eraseIdx (f 0)).countP q + 1 := by
        rw [List.eraseIdx_eq_take_drop_succ]
        have e : l' = l'.take (f 0) ++ b :: l'.drop (f 0 + 1) := by
          have hbe : l'[f 0] = b := (List.getElem?_eq_some_iff.mp hb).2
          rw [← hbe, List.getElem_cons_drop]
          exact (List.take_append_drop _ _).symm
        conv => lhs; rw [e]
        rw [List.countP_append, List.countP_cons, List.countP_append, hqb]
        simp only [↓reduceIte]
        omega
      rw [List.countP_cons, hx]
      simp only [↓reduceIte]
      rw [hcnt]
      apply Nat.succ_le_succ
      apply ih (l'.eraseIdx (f 0)) (fun k => if f (k + 1) < f 0 then f (k + 1) else f (k + 1) - 1)
      · intro k a hk hp
        obtain ⟨c, hc, hq⟩ := h1 (k + 1) a (by simpa using hk) hp
        have hne : f (k + 1) ≠ f 0 := fun h => by
          have := h2 (k + 1) 0 a x (by simpa using hk) hp rfl hx h
          omega
        refine ⟨c, ?_, hq⟩
        rw [List.getElem?_eraseIdx]
        by_cases h3 : f (k + 1) < f 0
        · simp only [h3, ↓reduceIte]; exact hc
        · have h4 : ¬ f (k + 1) - 1 < f 0 := by omega
          simp only [h3, h4, ↓reduceIte]
          rw [show f (k + 1) - 1 + 1 = f (k + 1) by omega]; exact hc
      · intro k k' a a' hk hp hk' hp' he
        have hne : f (k + 1) ≠ f 0 := fun h => by
          have := h2 (k + 1) 0 a x (by simpa using hk) hp rfl hx h
          omega
        have hne' : f (k' + 1) ≠ f 0 := fun h => by
          have := h2 (k' + 1) 0 a' x (by simpa using hk') hp' rfl hx h
          omega
        have : f (k + 1) = f (k' + 1) := by
          split at he <;> split at he <;> omega
        have := h2 (k + 1) (k' + 1) a a' (by simpa using hk) hp (by simpa using hk') hp' this
        omega
    · rw [List.countP_cons, if_neg hx, Nat.add_zero]
      apply ih l' (fun k => f (k + 1))
      · intro k a hk hp; exact h1 (k + 1) a (by simpa using hk) hp
      · intro k k' a a' hk hp hk' hp' he
        have := h2 (k + 1) (k' + 1) a a' (by simpa using hk) hp (by simpa using hk') hp' he
        omega

open Classical in
/-- The number of earlier commands that want the same frames. -/
noncomputable def before (cs : List Cmd) (j : Nat) (c : Cmd) : Nat :=
  (cs.take j).countP (fun c' => decide (∀ b, Wants c' b ↔ Wants c b))

open Classical in
/-- The number of frames a command wants. -/
noncomputable def wanted (F : List Buf) (c : Cmd) : Nat := F.countP (fun b => decide (Wants c b))

open Classical in
/-- Without overlap, an expectation gets a frame if and only if there are more frames for it than earlier
expectations of the same kind. -/
theorem credited_iff {cs F out} (h : Credited cs F out) (hrx : ∀ c ∈ cs, c.type = .rx) (hno : NoOverlap cs)
    (j : Nat) (c : Cmd) (hj : cs[j]? = some c) : some j ∈ out ↔ before cs j c < wanted F c := by
  have hcmem : c ∈ cs := List.mem_of_getElem? hj
  constructor
  · intro hm
    obtain ⟨k, hk, hko⟩ := mem_iff_getElem?_some.mp hm
    obtain ⟨c0, b, hc0, hb, hw, _, hlow⟩ := h.hit k j hko
    rw [hj] at hc0
    simp only [Option.some.injEq] at hc0
    subst hc0
    -- where command `i` was credited
    have hex : ∀ i, ∃ k', ∀ c', i ≤ j → cs[i]? = some c' → (∀ b, Wants c' b ↔ Wants c b) →
        k' ≤ k ∧ out[k']? = some (some i) := by
      intro i
      by_cases hi : ∃ c', i ≤ j ∧ cs[i]? = some c' ∧ ∀ b, Wants c' b ↔ Wants c b
      · obtain ⟨c', hij, hc', hsame⟩ := hi
        by_cases hlt : i < j
        · obtain ⟨k', hk', he⟩ := hlow i c' hlt hc' (hrx c' (List.mem_of_getElem? hc')) ((hsame b).mpr hw)
          exact ⟨k', fun _ _ _ _ => ⟨by omega, he⟩⟩
        · have : i = j := by omega
          subst this
          exact ⟨k, fun _ _ _ _ => ⟨Nat.le_refl _, hko⟩⟩
      · exact ⟨0, fun c' h1 h2 h3 => absurd ⟨c', h1, h2, h3⟩ hi⟩
    have hf : ∃ g : Nat → Nat, ∀ i, ∀ c', i ≤ j → cs[i]? = some c' → (∀ b, Wants c' b ↔ Wants c b) →
        g i ≤ k ∧ out[g i]? = some (some i) := ⟨fun i => choose (hex i), fun i => choose_spec (hex i)⟩
    obtain ⟨g, hg⟩ := hf
    have hcount : (cs.take (j + 1)).countP (fun c' => decide (∀ b, Wants c' b ↔ Wants c b)) ≤ wanted F c := by
      unfold wanted
      apply countP_le_of_inj _ _ _ _ g
      · intro i c' hi hp
        rw [List.getElem?_take] at hi
        split at hi
        · rename_i hij
          have hsame := of_decide_eq_true hp
          obtain ⟨_, ho⟩ := hg i c' (by omega) hi hsame
          obtain ⟨c1, b1, hc1, hb1, hw1, _, _⟩ := h.hit (g i) i ho
          rw [hi] at hc1
          simp only [Option.some.injEq] at hc1
          subst hc1
          exact ⟨b1, hb1, by simpa using (hsame b1).mp hw1⟩
        · simp at hi
      · intro i i' c' c'' hi hp hi' hp' he
        rw [List.getElem?_take] at hi hi'
        split at hi
        · split at hi'
          · rename_i h1 h2
            obtain ⟨_, ho⟩ := hg i c' (by omega) hi (of_decide_eq_true hp)
            obtain ⟨_, ho'⟩ := hg i' c'' (by omega) hi' (of_decide_eq_true hp')
            rw [he, ho'] at ho
            simp only [Option.some.injEq] at ho
            exact ho.symm
          · simp at hi'
        · simp at hi
    have htake : cs.take (j + 1) = cs.take j ++ [c] := by
      rw [List.take_add_one, hj]; rfl
    rw [htake, List.countP_append] at hcount
    unfold before
    simp only [List.countP_cons, List.countP_nil, decide_true, implies_true, ↓reduceIte, iff_self] at hcount
    omega
  · intro hlt
    refine byContradiction fun hnot => ?_
    -- every frame `c` wants is credited to an earlier command of the same kind
    have hex : ∀ k : Nat, ∃ i : Nat, ∀ b, F[k]? = some b → Wants c b →
        ∃ c', i < j ∧ cs[i]? = some c' ∧ (∀ b, Wants c' b ↔ Wants c b) ∧ out[k]? = some (some i) := by
      intro k
      by_cases hk : ∃ b, F[k]? = some b ∧ Wants c b
      · obtain ⟨b, hb, hw⟩ := hk
        have hkl : k < out.length := by
          rw [h.len]; exact (List.getElem?_eq_some_iff.mp hb).1
        cases ho : out[k] with
        | none =>
          have hko : out[k]? = some none := by rw [List.getElem?_eq_getElem hkl, ho]
          obtain ⟨k', _, he⟩ := h.miss k b hko hb j c hj (hrx c hcmem) hw
          exact absurd (List.mem_of_getElem? he) hnot
        | some i =>
          have hko : out[k]? = some (some i) := by rw [List.getElem?_eq_getElem hkl, ho]
          obtain ⟨c', b', hc', hb', hw', _, hlow⟩ := h.hit k i hko
          rw [hb] at hb'
          simp only [Option.some.injEq] at hb'
          subst hb'
          have hsame := hno c' (List.mem_of_getElem? hc') c hcmem ⟨b, hw', hw⟩
          refine ⟨i, fun b1 hb1 _ => ⟨c', ?_, hc', hsame, hko⟩⟩
          by_cases hij : i < j
          · exact hij
          · exfalso
            by_cases he : i = j
            · subst he; exact hnot (List.mem_of_getElem? hko)
            · obtain ⟨k', _, he'⟩ := hlow j c (by omega) hj (hrx c hcmem) hw
              exact hnot (List.mem_of_getElem? he')
      · exact ⟨0, fun b h1 h2 => absurd ⟨b, h1, h2⟩ hk⟩
    have hf : ∃ g : Nat → Nat, ∀ k : Nat, ∀ b, F[k]? = some b → Wants c b →
        ∃ c', g k < j ∧ cs[g k]? = some c' ∧ (∀ b, Wants c' b ↔ Wants c b) ∧ out[k]? = some (some (g k)) :=
      ⟨fun k => choose (hex k), fun k => choose_spec (hex k)⟩
    obtain ⟨g, hg⟩ := hf
    have : wanted F c ≤ before cs j c := by
      unfold wanted before
      apply countP_le_of_inj _ _ _ _ g
      · intro k b hb hp
        obtain ⟨c', h1, h2, h3, _⟩ := hg k b hb (of_decide_eq_true hp)
        exact ⟨c', by rw [List.getElem?_take, if_pos h1]; exact h2, by simpa using h3⟩
      · intro k k' b b' hb hp hb' hp' he
        obtain ⟨_, _, _, _, ho⟩ := hg k b hb (of_decide_eq_true hp)
        obtain ⟨_, _, _, _, ho'⟩ := hg k' b' hb' (of_decide_eq_true hp')
        rw [he] at ho
        by_cases hkk : k < k'
        · obtain ⟨_, _, _, _, _, huniq, _⟩ := h.hit k' _ ho'
          exact absurd ho (huniq k hkk)
        · by_cases hkk' : k' < k
          · obtain ⟨_, _, _, _, _, huniq, _⟩ := h.hit k _ ho
            exact absurd ho' (huniq k' hkk')
          · omega
    omega

end Ef
