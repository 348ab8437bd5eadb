import Verif.Model.Frame
import Verif.Spec.Bits

/-! # Lemmas about the bit reader and writer -/

namespace Ef

open Spec

theorem bit_of_lt (b : Buf) (i : Nat) (h : i < 8 * b.length) :
    bit b i = (b[i / 8]'(by omega)).getLsbD (7 - i % 8) := by
  unfold bit
  rw [List.getElem?_eq_getElem (by omega)]

theorem bit_of_ge (b : Buf) (i : Nat) (h : 8 * b.length ≤ i) : bit b i = false := by
  unfold bit
  rw [List.getElem?_eq_none (by omega)]

theorem byte_get (x : Byte) : ∀ k < 8, (x >>> k &&& 1#8 ≠ 0#8) ↔ x.getLsbD k = true := by
  revert x; decide +kernel

theorem byte_set (x : Byte) : ∀ k < 8, ∀ v : Bool, ∀ j < 8,
    (if v then x ||| (1#8 <<< k) else x &&& ~~~(1#8 <<< k)).getLsbD j =
      if j = k then v else x.getLsbD j := by
  revert x; decide +kernel

theorem bitGet_ok (val : Buf) (pos : Nat) (h : pos < 8 * val.length) :
    bitGet val pos = .ok (bit val pos) := by
  unfold bitGet
  rw [bit_of_lt val pos h, List.getElem?_eq_getElem (by omega)]
  have := byte_get (val[pos / 8]'(by omega)) (7 - pos % 8) (by omega)
  simp only [ne_eq] at this
  simp only [this, Bool.decide_eq_true]

theorem bitGet_abort (val : Buf) (pos : Nat) (h : 8 * val.length ≤ pos) : bitGet val pos = .abort := by
  unfold bitGet
  rw [List.getElem?_eq_none (by omega)]

/-- The effect of `bit_set` on the bits. -/
theorem bitSet_ok (b : Buf) (pos : Nat) (v : Bool) (h : pos < 8 * b.length) :
    ∃ b', bitSet b pos v = .ok b' ∧ b'.length = b.length ∧
      ∀ i, bit b' i = if i = pos then v else bit b i := by
  unfold bitSet
  rw [List.getElem?_eq_getElem (show pos / 8 < b.length by omega)]
  refine ⟨_, rfl, by simp, ?_⟩
  intro i
  unfold bit
  rw [List.getElem?_set]
  by_cases hb : pos / 8 = i / 8
  · have hi : i / 8 < b.length := by omega
    simp only [hb, hi, if_true, List.getElem?_eq_getElem]
    have := byte_set (b[i / 8]) (7 - pos % 8) (by omega) v (7 - i % 8) (by omega)
    rw [this]
    by_cases hip : i = pos
    · simp [hip]
    · rw [if_neg (by omega), if_neg hip]
  · rw [if_neg hb]
    have : i ≠ pos := by intro hc; exact hb (by rw [hc])
    simp [this]

theorem bitSet_abort (b : Buf) (pos : Nat) (v : Bool) (h : 8 * b.length ≤ pos) : bitSet b pos v = .abort := by
  unfold bitSet
  rw [List.getElem?_eq_none (by omega)]

theorem writeLoop_ok (val : Buf) (dst src : Nat) :
    ∀ n pos (b : Buf), dst + pos + n ≤ 8 * b.length → src + pos + n ≤ 8 * val.length →
      8 * val.length < 2 ^ 64 →
      ∃ b', writeLoop val dst src n pos b = .ok b' ∧ b'.length = b.length ∧
        ∀ i, bit b' i = if dst + pos ≤ i ∧ i < dst + pos + n then bit val (src + (i - dst)) else bit b i := by
  intro n
  induction n with
  | zero =>
    intro pos b _ _ _
    refine ⟨b, rfl, rfl, fun i => ?_⟩
    rw [if_neg (by omega)]
  | succ n ih =>
    intro pos b hd hs hv
    unfold writeLoop
    rw [Nat.mod_eq_of_lt (by omega), bitGet_ok val _ (by omega)]
    obtain ⟨b1, e1, l1, g1⟩ := bitSet_ok b (dst + pos) (bit val (pos + src)) (by omega)
    simp only [Out.ok_bind, e1]
    obtain ⟨b2, e2, l2, g2⟩ := ih (pos + 1) b1 (by omega) (by omega) hv
    refine ⟨b2, e2, by omega, fun i => ?_⟩
    rw [g2, g1]
    by_cases hi : i = dst + pos
    · rw [if_neg (by omega), if_pos hi, if_pos (by omega)]
      congr 1; omega
    · by_cases h2 : dst + (pos + 1) ≤ i ∧ i < dst + (pos + 1) + n
      · rw [if_pos h2, if_pos (by omega)]
      · rw [if_neg h2, if_neg hi, if_neg (by omega)]

/-- `hdr_write_field` when field and value fit. -/
theorem writeField_ok (b : Buf) (offset : Nat) (f : Field) (val : Buf)
    (hb : f.offset + 8 * offset + f.width ≤ 8 * b.length) (hw : f.width ≤ 8 * val.length)
    (hv : 8 * val.length < 2 ^ 64) :
    ∃ b', writeField b offset f val = .ok b' ∧ b'.length = b.length ∧
      ∀ i, bit b' i = if f.offset + 8 * offset ≤ i ∧ i < f.offset + 8 * offset + f.width
        then bit val (8 * val.length - f.width + (i - (f.offset + 8 * offset))) else bit b i := by
  unfold writeField
  rw [if_pos (by omega)]
  have : (8 * val.length + 2 ^ 64 - f.width) % 2 ^ 64 = 8 * val.length - f.width := by omega
  rw [this]
  obtain ⟨b', e, l, g⟩ := writeLoop_ok val (f.offset + 8 * offset) (8 * val.length - f.width) f.width 0 b
    (by omega) (by omega) hv
  exact ⟨b', e, l, fun i => by rw [g]; simp only [Nat.add_zero]⟩

theorem writeField_abort (b : Buf) (offset : Nat) (f : Field) (val : Buf)
    (hb : 8 * b.length < f.offset + 8 * offset + f.width) : writeField b offset f val = .abort := by
  unfold writeField
  rw [if_neg (by omega)]

/-- Equality of buffers is equality of length and bits. -/
theorem buf_ext {a b : Buf} (hl : a.length = b.length) (h : ∀ i, i < 8 * a.length → bit a i = bit b i) :
    a = b := by
  apply List.ext_getElem hl
  intro n h1 h2
  apply BitVec.eq_of_getLsbD_eq
  intro j hj
  have := h (8 * n + (7 - j)) (by omega)
  rw [bit_of_lt a _ (by omega), bit_of_lt b _ (by omega)] at this
  have e1 : (8 * n + (7 - j)) / 8 = n := by omega
  have e2 : 7 - (8 * n + (7 - j)) % 8 = j := by omega
  simpa only [e1, e2] using this

theorem bit_append (a b : Buf) (i : Nat) :
    bit (a ++ b) i = if i < 8 * a.length then bit a i else bit b (i - 8 * a.length) := by
  unfold bit
  by_cases h : i < 8 * a.length
  · rw [if_pos h, List.getElem?_append_left (by omega)]
  · rw [if_neg h, List.getElem?_append_right (by omega)]
    have e1 : i / 8 - a.length = (i - 8 * a.length) / 8 := by omega
    have e2 : i % 8 = (i - 8 * a.length) % 8 := by omega
    rw [e1, e2]

theorem bit_zeros (n i : Nat) : bit (zeros n) i = false := by
  by_cases h : i < 8 * n
  · rw [bit_of_lt _ _ (by simpa [zeros] using h)]
    simp [zeros]
  · rw [bit_of_ge _ _ (by simp [zeros]; omega)]

theorem bit_ones (n i : Nat) : bit (List.replicate n 0xff#8) i = decide (i < 8 * n) := by
  by_cases h : i < 8 * n
  · rw [bit_of_lt _ _ (by simpa using h), List.getElem_replicate]
    have : ∀ k < 8, (0xff#8).getLsbD (7 - k) = true := by decide
    rw [this _ (by omega)]; simp [h]
  · rw [bit_of_ge _ _ (by simp; omega)]; simp [h]

/-! ## Numbers -/

theorem bitsNat_append (xs ys : List Bool) : bitsNat (xs ++ ys) = bitsNat xs * 2 ^ ys.length + bitsNat ys := by
  unfold bitsNat
  rw [List.foldl_append]
  generalize List.foldl _ 0 xs = a
  have key : ∀ (ys : List Bool) (a : Nat), ys.foldl (fun a x => 2 * a + x.toNat) a =
      a * 2 ^ ys.length + ys.foldl (fun a x => 2 * a + x.toNat) 0 := by
    intro ys
    induction ys with
    | nil => intro a; simp
    | cons y ys ih =>
      intro a
      simp only [List.foldl_cons, List.length_cons]
      rw [ih, ih (2 * 0 + y.toNat), Nat.pow_succ]
      simp only [Nat.mul_zero, Nat.zero_add, Nat.add_mul, Nat.add_assoc, Nat.add_right_cancel_iff]
      rw [Nat.mul_comm 2 a, Nat.mul_assoc, Nat.mul_comm 2]
  exact key ys a

theorem bitsNat_lt (xs : List Bool) : bitsNat xs < 2 ^ xs.length := by
  have key : ∀ n, ∀ xs : List Bool, xs.length = n → bitsNat xs < 2 ^ n := by
    intro n
    induction n with
    | zero => intro xs h; rw [List.eq_nil_of_length_eq_zero h]; simp [bitsNat]
    | succ n ih =>
      intro xs h
      have hne : xs ≠ [] := by intro hc; simp [hc] at h
      rw [← List.dropLast_concat_getLast hne, bitsNat_append]
      have := ih xs.dropLast (by simp [h])
      have hl : bitsNat [xs.getLast hne] = (xs.getLast hne).toNat := by simp [bitsNat]
      have h1 : (xs.getLast hne).toNat ≤ 1 := by cases xs.getLast hne <;> simp
      rw [hl]; simp only [List.length_cons, List.length_nil, Nat.pow_succ]
      omega
  exact key _ xs rfl

theorem bitsAt_length (b : Buf) (off w : Nat) : (bitsAt b off w).length = w := by simp [bitsAt]

theorem bitsAt_add (b : Buf) (off w v : Nat) : bitsAt b off (w + v) = bitsAt b off w ++ bitsAt b (off + w) v := by
  unfold bitsAt
  rw [List.range_add, List.map_append, List.map_map]
  congr 1
  apply List.map_congr_left
  intro k _
  simp [Nat.add_assoc]

theorem bitsAt_congr {a b : Buf} {off off' w : Nat} (h : ∀ k < w, bit a (off + k) = bit b (off' + k)) :
    bitsAt a off w = bitsAt b off' w := by
  unfold bitsAt
  apply List.map_congr_left
  intro k hk
  exact h k (List.mem_range.mp hk)

theorem numAt_congr {a b : Buf} {off off' w : Nat} (h : ∀ k < w, bit a (off + k) = bit b (off' + k)) :
    numAt a off w = numAt b off' w := by
  unfold numAt; rw [bitsAt_congr h]

theorem byte_bits : ∀ x : Byte, bitsNat (bitsAt [x] 0 8) = x.toNat := by decide +kernel

theorem beNat_append (a b : Buf) : beNat (a ++ b) = beNat a * 256 ^ b.length + beNat b := by
  unfold beNat
  rw [List.foldl_append]
  generalize List.foldl _ 0 a = c
  have key : ∀ (ys : Buf) (a : Nat), ys.foldl (fun a x => 256 * a + x.toNat) a =
      a * 256 ^ ys.length + ys.foldl (fun a x => 256 * a + x.toNat) 0 := by
    intro ys
    induction ys with
    | nil => intro a; simp
    | cons y ys ih =>
      intro a
      simp only [List.foldl_cons, List.length_cons]
      rw [ih, ih (256 * 0 + y.toNat), Nat.pow_succ]
      simp only [Nat.mul_zero, Nat.zero_add, Nat.add_mul, Nat.add_assoc, Nat.add_right_cancel_iff]
      rw [Nat.mul_comm 256 a, Nat.mul_assoc, Nat.mul_comm 256]
  exact key b c

theorem beNat_cons (x : Byte) (b : Buf) : beNat (x :: b) = x.toNat * 256 ^ b.length + beNat b := by
  have := beNat_append [x] b
  simpa [beNat] using this

@[simp] theorem beNat_nil : beNat [] = 0 := rfl

/-- All bits of a byte sequence as a number. -/
theorem numAt_all (b : Buf) : numAt b 0 (8 * b.length) = beNat b := by
  induction b with
  | nil => rfl
  | cons x b ih =>
    have e : 8 * (x :: b).length = 8 + 8 * b.length := by simp [List.length_cons]; omega
    unfold numAt
    rw [e, bitsAt_add, bitsNat_append, bitsAt_length, beNat_cons]
    have h1 : bitsAt (x :: b) 0 8 = bitsAt [x] 0 8 := by
      apply bitsAt_congr
      intro k hk
      have := bit_append [x] b (0 + k)
      simp only [List.cons_append, List.nil_append, List.length_cons, List.length_nil] at this
      rw [this, if_pos (by omega)]
    have h2 : bitsAt (x :: b) (0 + 8) (8 * b.length) = bitsAt b 0 (8 * b.length) := by
      apply bitsAt_congr
      intro k hk
      have := bit_append [x] b (0 + 8 + k)
      simp only [List.cons_append, List.nil_append, List.length_cons, List.length_nil] at this
      rw [this, if_neg (by omega)]
      congr 1; omega
    rw [h1, h2, byte_bits]
    have : (2 : Nat) ^ (8 * b.length) = 256 ^ b.length := by rw [Nat.pow_mul]
    rw [this]
    have := ih
    unfold numAt at this
    rw [this]

/-- The last `w` bits are the number modulo `2 ^ w`. -/
theorem numAt_low (b : Buf) (w : Nat) (h : w ≤ 8 * b.length) :
    numAt b (8 * b.length - w) w = beNat b % 2 ^ w := by
  rw [← numAt_all b]
  have e : 8 * b.length = (8 * b.length - w) + w := by omega
  conv => rhs; rw [e]
  unfold numAt
  rw [bitsAt_add, bitsNat_append, bitsAt_length, Nat.zero_add]
  rw [Nat.mul_comm (bitsNat _), Nat.mul_add_mod, Nat.mod_eq_of_lt]
  have := bitsNat_lt (bitsAt b (8 * b.length - w) w)
  rwa [bitsAt_length] at this

theorem numAt_lt (b : Buf) (off w : Nat) : numAt b off w < 2 ^ w := by
  have := bitsNat_lt (bitsAt b off w)
  rwa [bitsAt_length] at this

theorem beNat_lt (b : Buf) : beNat b < 256 ^ b.length := by
  have := numAt_lt b 0 (8 * b.length)
  rw [numAt_all] at this
  rwa [Nat.pow_mul] at this

end Ef
