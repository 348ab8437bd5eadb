import Verif.Model.Buf
import Verif.Lemmas.Bits
import Verif.Spec.Match

/-! # Lemmas about buffer comparison -/

namespace Ef

open Spec

theorem byte_masked_eq : ∀ a b m : Byte,
    (a &&& m = b &&& m) ↔ ∀ j < 8, m.getLsbD j = true → a.getLsbD j = b.getLsbD j := by
  intro a b m
  constructor
  · intro h j _ hm
    have := congrArg (fun x => BitVec.getLsbD x j) h
    simpa [hm] using this
  · intro h
    apply BitVec.eq_of_getLsbD_eq
    intro j hj
    rw [BitVec.getLsbD_and, BitVec.getLsbD_and]
    cases hm : m.getLsbD j with
    | false => simp
    | true => simp [h j hj hm]

theorem getLsb_ff : ∀ j < 8, (0xff#8).getLsbD j = true := by decide

/-- Byte `k` agrees under the mask (bytes behind the mask are compared completely). -/
def agreeAt (a e m : Buf) (k : Nat) : Prop :=
  (a[k]?.getD 0#8) &&& (m[k]?.getD 0xff#8) = (e[k]?.getD 0#8) &&& (m[k]?.getD 0xff#8)

instance (a e m : Buf) (k : Nat) : Decidable (agreeAt a e m k) := inferInstanceAs (Decidable (_ = _))

theorem maskLoop_succ (a e m : Buf) (n i : Nat) (h1 : i < a.length) (h2 : i < e.length) :
    maskLoop a e m (n + 1) i = if agreeAt a e m i then maskLoop a e m n (i + 1) else .ok false := by
  rw [maskLoop]
  by_cases h : agreeAt a e m i
  · rw [if_pos h]
    unfold agreeAt at h
    rw [List.getElem?_eq_getElem h1, List.getElem?_eq_getElem h2] at *
    simp only [Option.getD_some] at h ⊢
    cases hm : m[i]? <;> rw [hm] at h <;> simp only [Option.getD_some, Option.getD_none] at h ⊢ <;> simp [h]
  · rw [if_neg h]
    unfold agreeAt at h
    rw [List.getElem?_eq_getElem h1, List.getElem?_eq_getElem h2] at *
    simp only [Option.getD_some] at h ⊢
    cases hm : m[i]? <;> rw [hm] at h <;> simp only [Option.getD_some, Option.getD_none] at h ⊢ <;> simp [h]

theorem maskLoop_spec (a e m : Buf) : ∀ n i, i + n = a.length → a.length = e.length →
    ∃ r, maskLoop a e m n i = .ok r ∧ (r = true ↔ ∀ k, i ≤ k → k < a.length → agreeAt a e m k) := by
  intro n
  induction n with
  | zero =>
    intro i h1 h2
    refine ⟨true, rfl, ?_⟩
    simp only [true_iff]
    intro k hk hk2
    omega
  | succ n ih =>
    intro i h1 h2
    rw [maskLoop_succ a e m n i (by omega) (by omega)]
    split
    · rename_i heq
      obtain ⟨r, hr, h⟩ := ih (i + 1) (by omega) h2
      refine ⟨r, hr, ?_⟩
      rw [h]
      constructor
      · intro h k hk hk2
        by_cases hki : k = i
        · subst hki; exact heq
        · exact h k (by omega) hk2
      · intro h k hk hk2
        exact h k (by omega) hk2
    · rename_i hne
      refine ⟨false, rfl, ?_⟩
      simp only [Bool.false_eq_true, false_iff]
      intro hall
      exact hne (hall i (Nat.le_refl _) (by omega))

theorem maskLoop_match (a e m : Buf) (hl : a.length = e.length) :
    (∀ k, 0 ≤ k → k < a.length → agreeAt a e m k) ↔
    ∀ i, compared (some m) i → bit a i = bit e i := by
  constructor
  · intro h i hc
    by_cases hi : i < 8 * a.length
    · have hk := h (i / 8) (by omega) (by omega)
      unfold agreeAt at hk
      rw [byte_masked_eq] at hk
      have hj := hk (7 - i % 8) (by omega)
      unfold bit
      rw [List.getElem?_eq_getElem (show i / 8 < a.length by omega),
        List.getElem?_eq_getElem (show i / 8 < e.length by omega)] at *
      apply hj
      unfold compared at hc
      by_cases him : i < 8 * m.length
      · have := hc him
        rw [bit_of_lt _ _ him] at this
        rw [List.getElem?_eq_getElem (show i / 8 < m.length by omega)]
        exact this
      · rw [List.getElem?_eq_none (by omega)]
        exact getLsb_ff _ (by omega)
    · rw [bit_of_ge _ _ (by omega), bit_of_ge _ _ (by omega)]
  · intro h k _ hk
    unfold agreeAt
    rw [byte_masked_eq]
    intro j hj hmj
    have e1 : (8 * k + (7 - j)) / 8 = k := by omega
    have e2 : 7 - (8 * k + (7 - j)) % 8 = j := by omega
    have := h (8 * k + (7 - j)) (by
      unfold compared
      intro him
      rw [bit_of_lt _ _ him]
      simp only [e1, e2]
      rw [List.getElem?_eq_getElem (show k < m.length by omega)] at hmj
      exact hmj)
    rw [bit_of_lt _ _ (by omega), bit_of_lt _ _ (by omega)] at this
    simp only [e1, e2] at this
    rw [List.getElem?_eq_getElem (show k < a.length by omega), List.getElem?_eq_getElem (show k < e.length by omega)]
    exact this

theorem eq_iff_bits (a e : Buf) : a = e ↔ a.length = e.length ∧ ∀ i, bit a i = bit e i := by
  constructor
  · rintro rfl; exact ⟨rfl, fun _ => rfl⟩
  · rintro ⟨hl, h⟩; exact buf_ext hl (fun i _ => h i)

/-- `bequal_mask` without padding is `Matches`, and it never reads out of bounds. -/
theorem bequalMask_zero (a e : Buf) (m : Option Buf) :
    ∃ r, bequalMask (some a) (some e) m 0 = .ok r ∧ (r = true ↔ Matches a e m) := by
  unfold bequalMask
  simp only [Int.lt_irrefl, if_false, Int.toNat_zero, Nat.add_zero]
  by_cases hl : a.length = e.length
  · rw [if_neg (by omega)]
    cases m with
    | none =>
      unfold memcmpEq
      rw [if_pos (by omega)]
      refine ⟨_, rfl, ?_⟩
      have : List.take a.length a = a := List.take_length
      rw [this, hl, List.take_length, beq_iff_eq, eq_iff_bits]
      unfold Matches compared
      simp
    | some m =>
      simp only
      obtain ⟨r, hr, h⟩ := maskLoop_spec a e m a.length 0 (by omega) hl
      refine ⟨r, hr, ?_⟩
      rw [h, maskLoop_match a e m hl]
      unfold Matches
      simp [hl]
  · rw [if_pos hl]
    refine ⟨false, rfl, ?_⟩
    unfold Matches
    simp [hl]

/-- With padding, a received frame that agrees on the whole expected frame makes the comparison read behind it. -/
theorem maskLoop_oob (a e m : Buf) : ∀ n i, i + n = a.length → e.length < a.length → i ≤ e.length →
    maskLoop a e m n i = if ∃ k, k < e.length ∧ i ≤ k ∧ ¬ agreeAt a e m k then .ok false else .ub .oobRead := by
  intro n
  induction n with
  | zero => intro i h1 h2 h3; omega
  | succ n ih =>
    intro i h1 h2 h3
    by_cases hi : i < e.length
    · rw [maskLoop_succ a e m n i (by omega) hi]
      split
      · rename_i heq
        rw [ih (i + 1) (by omega) h2 (by omega)]
        congr 1
        apply propext
        constructor
        · rintro ⟨k, h4, h5, h6⟩; exact ⟨k, h4, by omega, h6⟩
        · rintro ⟨k, h4, h5, h6⟩
          refine ⟨k, h4, ?_, h6⟩
          by_cases hki : k = i
          · subst hki; exact absurd heq h6
          · omega
      · rename_i hne
        rw [if_pos ⟨i, hi, Nat.le_refl _, hne⟩]
    · rw [maskLoop, List.getElem?_eq_none (l := e) (by omega), if_neg]
      · cases a[i]? <;> rfl
      · rintro ⟨k, h4, h5, h6⟩; omega

/-- The byte-wise condition on a prefix, as bits. -/
theorem agree_prefix_iff (core t e m : Buf) (hl : core.length = e.length) :
    (∃ k, k < e.length ∧ 0 ≤ k ∧ ¬ agreeAt (core ++ t) e m k) ↔ ¬ ∀ i, compared (some m) i → bit core i = bit e i := by
  rw [← maskLoop_match core e m hl]
  have hag : ∀ k, k < e.length → (agreeAt (core ++ t) e m k ↔ agreeAt core e m k) := by
    intro k hk
    unfold agreeAt
    rw [List.getElem?_append_left (by omega)]
  constructor
  · rintro ⟨k, h1, _, h2⟩ hall
    exact h2 ((hag k h1).mpr (hall k (Nat.zero_le _) (by omega)))
  · intro h
    apply Classical.byContradiction
    intro hn
    apply h
    intro k _ hk
    apply Classical.byContradiction
    intro hna
    exact hn ⟨k, by omega, Nat.zero_le _, fun hc => hna ((hag k (by omega)).mp hc)⟩

end Ef
