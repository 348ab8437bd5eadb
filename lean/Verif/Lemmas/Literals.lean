import Verif.Lemmas.Text

/-! # Lemmas about long hexadecimal and binary literals -/

namespace Ef

open Spec

theorem beBytes_length (k n : Nat) : (beBytes k n).length = k := by
  induction k with
  | zero => rfl
  | succ k ih => simp [beBytes, ih]

theorem beBytes_snoc (k m r : Nat) (h : r < 256) : beBytes (k + 1) (256 * m + r) = beBytes k m ++ [BitVec.ofNat 8 r] := by
  induction k with
  | zero =>
    simp only [beBytes, Nat.pow_zero, Nat.div_one, List.nil_append, List.cons.injEq, and_true]
    apply BitVec.eq_of_toNat_eq
    simp
  | succ k ih =>
    rw [beBytes, ih, beBytes, List.cons_append]
    congr 2
    rw [Nat.pow_succ, Nat.mul_comm (256 ^ k) 256, ← Nat.div_div_eq_div_mul]
    congr 1
    omega

theorem hexText_append {s : CStr} {b : Buf} (h : HexText s b) {t : CStr} {c : Buf} (h2 : HexText t c) :
    HexText (s ++ t) (b ++ c) := by
  induction h with
  | nil => exact h2
  | delim hd _ ih => exact HexText.delim hd ih
  | pair h1 h3 _ ih => exact HexText.pair h1 h3 ih

/-- A numeral with an even number of digits, read in pairs. -/
theorem numeral_hexText {s : CStr} {n : Nat} (h : Numeral 16 s n) :
    (s.length % 2 = 0 → HexText s (beBytes (s.length / 2) n)) ∧
    (s.length % 2 = 1 → ∃ s' n' c d, s = s' ++ [c] ∧ n = n' * 16 + d ∧ Digit c d ∧
      HexText s' (beBytes (s.length / 2) n')) := by
  induction h with
  | nil => exact ⟨fun _ => HexText.nil, fun h => by simp at h⟩
  | snoc s n c d hn hd hb ih =>
    simp only [List.length_append, List.length_singleton]
    constructor
    · intro hl
      obtain ⟨s', n', c', d', rfl, rfl, hd', ht⟩ := ih.2 (by omega)
      have h2 : HexText [c', c] [BitVec.ofNat 8 (16 * d' + d)] := HexText.pair hd' hd HexText.nil
      have h3 := hexText_append ht h2
      have e : (List.length (s' ++ [c']) + 1) / 2 = List.length (s' ++ [c']) / 2 + 1 := by omega
      have e2 : (n' * 16 + d') * 16 + d = 256 * n' + (16 * d' + d) := by omega
      have := digit_lt hd
      have := digit_lt hd'
      rw [e, e2, beBytes_snoc _ _ _ (by omega), List.append_assoc]
      exact h3
    · intro hl
      refine ⟨s, n, c, d, rfl, rfl, hd, ?_⟩
      have e : (s.length + 1) / 2 = s.length / 2 := by omega
      rw [e]
      exact ih.1 (by omega)

theorem hexScan_odd {s : CStr} {n : Nat} (h : Numeral 16 s n) (hl : s.length % 2 = 1) : (hexScan s).align = true := by
  have key : ∀ (s : CStr) (n : Nat), Numeral 16 s n → ∀ st : HexScan, (s.foldl hexScanStep st).cnt = st.cnt + s.length := by
    intro s n h
    induction h with
    | nil => intro st; rfl
    | snoc s n c d _ hd _ ih =>
      intro st
      rw [List.foldl_append]
      simp only [List.foldl_cons, List.foldl_nil, List.length_append, List.length_singleton]
      have e : ∀ st : HexScan, (hexScanStep st c).cnt = st.cnt + 1 := by
        intro st
        unfold hexScanStep
        rw [digit_hexVal hd]
      rw [e, ih]
      omega
  unfold hexScan
  simp only
  rw [if_pos]
  rw [key s n h]
  simp only
  omega

theorem parseBytesHex_fits {s : CStr} {n : Nat} (h : Numeral 16 s n) (size : Nat) (hne : s ≠ [])
    (hl : s.length % 2 = 0) (hf : s.length / 2 ≤ size) :
    parseBytesHex s size = .ok (some (zeros (size - s.length / 2) ++ beBytes (s.length / 2) n)) := by
  have ht := (numeral_hexText h).1 hl
  have hlen := beBytes_length (s.length / 2) n
  have hpos : 0 < s.length := List.length_pos_iff.mpr hne
  unfold parseBytesHex
  rw [hexScan_text ht, hlen]
  simp only [Bool.false_or, decide_eq_true_eq]
  rw [if_neg (by omega), if_neg (by simp)]
  have e : balloc size = zeros (size - s.length / 2) ++ zeros (beBytes (s.length / 2) n).length ++ [] := by
    rw [List.append_nil, hlen, ← zeros_add]
    unfold balloc zeros
    congr 1
    omega
  have e2 : ((size : Int) - ((2 * (s.length / 2) / 2 : Nat) : Int)) = ((zeros (size - s.length / 2)).length : Nat) := by
    simp only [zeros, List.length_replicate]
    omega
  rw [e, e2, hexWrite_text ht _ _ _ rfl]
  simp

theorem parseBytesHex_odd {s : CStr} {n : Nat} (h : Numeral 16 s n) (size : Nat) (hl : s.length % 2 = 1) :
    parseBytesHex s size = .ok none := by
  unfold parseBytesHex
  simp only [hexScan_odd h hl]
  split <;> rfl

theorem parseBytesHex_overflow {s : CStr} {n : Nat} (h : Numeral 16 s n) (size : Nat)
    (hl : s.length % 2 = 0) (hf : size < s.length / 2) : parseBytesHex s size = .ub .oobWrite := by
  have ht := (numeral_hexText h).1 hl
  have hlen := beBytes_length (s.length / 2) n
  unfold parseBytesHex
  rw [hexScan_text ht, hlen]
  simp only [Bool.false_or, decide_eq_true_eq]
  rw [if_neg (by omega), if_neg (by simp)]
  cases s with
  | nil => simp at hf
  | cons c s =>
    obtain ⟨d, hd, _⟩ := numeral_mem h c (by simp)
    rw [hexWrite, digit_hexVal hd]
    simp only
    unfold orByteAt
    rw [if_neg (by omega)]
    rfl

theorem parseBytesHex_empty (size : Nat) : parseBytesHex [] size = .ok none := rfl

/-! ## Binary -/

theorem bit_or_byte : ∀ y < 128, ∀ d < 2, BitVec.ofNat 8 (2 * y) ||| BitVec.ofNat 8 d = BitVec.ofNat 8 (2 * y + d) := by
  decide +kernel

theorem shl_byte (z : Nat) : (BitVec.ofNat 8 z) <<< 1 = BitVec.ofNat 8 (2 * z) := by
  apply BitVec.eq_of_toNat_eq
  simp [Nat.shiftLeft_eq]
  omega

/-- One digit of the second pass. -/
theorem binWrite_step (pre post : Buf) (c : Byte) (t : CStr) (y d cnt : Nat) (hd : Digit c d) (hd2 : d < 2) (hy : y < 128) :
    binWrite (c :: t) pre.length cnt (pre ++ BitVec.ofNat 8 (2 * y) :: post) =
      if (cnt + 1) % 8 = 0 then binWrite t (pre.length + 1) (cnt + 1) (pre ++ BitVec.ofNat 8 (2 * y + d) :: post)
      else binWrite t pre.length (cnt + 1) (pre ++ BitVec.ofNat 8 (2 * (2 * y + d)) :: post) := by
  have hc := digit_class hd
  rw [binWrite, if_pos (hc.2.2.2.2.2.2.2.2.2.1 hd2), hc.2.2.2.2.2.2.2.2.2.2 hd2, orByteAt_at, Out.ok_bind,
    bit_or_byte y hy d hd2]
  split
  · rfl
  · rw [shlByteAt_at, Out.ok_bind, shl_byte]

theorem binWrite_numeral {s : CStr} {n : Nat} (h : Numeral 2 s n) : ∀ (pre post : Buf) (t : CStr),
    binWrite (s ++ t) pre.length 0 (pre ++ zeros (s.length / 8 + 1) ++ post) =
      binWrite t ((pre.length + s.length / 8 : Nat) : Int) s.length
        (pre ++ beBytes (s.length / 8) (n / 2 ^ (s.length % 8)) ++ BitVec.ofNat 8 (2 * (n % 2 ^ (s.length % 8))) :: post) := by
  induction h with
  | nil => intro pre post t; simp [zeros, beBytes]
  | snoc s n c d hn hd hb ih =>
    intro pre post t
    have hy : n % 2 ^ (s.length % 8) < 128 := by
      have : 2 ^ (s.length % 8) ≤ 2 ^ 7 := Nat.pow_le_pow_right (by decide) (by omega)
      have := Nat.mod_lt n (Nat.two_pow_pos (s.length % 8))
      omega
    simp only [List.length_append, List.length_singleton]
    rw [List.append_assoc, List.singleton_append]
    have hpl : ∀ q x, ((pre.length + q : Nat) : Int) = ((pre ++ beBytes q x).length : Nat) := by
      intro q x; simp [beBytes_length]
    by_cases hj : s.length % 8 = 7
    · have e1 : (s.length + 1) / 8 = s.length / 8 + 1 := by omega
      have e2 : (s.length + 1) % 8 = 0 := by omega
      have hz : pre ++ zeros (s.length / 8 + 1 + 1) ++ post = pre ++ zeros (s.length / 8 + 1) ++ 0#8 :: post := by
        rw [zeros_add]; simp [zeros]
      rw [e1, e2, hz, ih, hpl _ (n / 2 ^ (s.length % 8)), binWrite_step _ _ _ _ _ d _ hd hb hy, if_pos e2]
      congr 1
      · simp [beBytes_length]; omega
      · have : n * 2 + d = 256 * (n / 2 ^ 7) + (2 * (n % 2 ^ 7) + d) := by omega
        rw [hj, Nat.pow_zero, Nat.div_one, Nat.mod_one, this, beBytes_snoc _ _ _ (by omega)]
        simp
    · have e1 : (s.length + 1) / 8 = s.length / 8 := by omega
      have e2 : (s.length + 1) % 8 = s.length % 8 + 1 := by omega
      rw [e1, e2, ih, hpl _ (n / 2 ^ (s.length % 8)), binWrite_step _ _ _ _ _ d _ hd hb hy, if_neg (by omega)]
      have h1 : (n * 2 + d) / 2 ^ (s.length % 8 + 1) = n / 2 ^ (s.length % 8) := by
        rw [Nat.pow_succ, Nat.mul_comm (2 ^ _) 2, ← Nat.div_div_eq_div_mul]
        congr 1
        omega
      have h2 : (n * 2 + d) % 2 ^ (s.length % 8 + 1) = 2 * (n % 2 ^ (s.length % 8)) + d := by
        rw [Nat.pow_succ, Nat.mul_comm (2 ^ _) 2, Nat.mod_mul]
        have : (n * 2 + d) / 2 = n := by omega
        rw [this]
        omega
      rw [h1, h2]

theorem binWrite_full {s : CStr} {n : Nat} (h : Numeral 2 s n) (pre : Buf) (hl : s.length % 8 = 0) :
    binWrite s pre.length 0 (pre ++ zeros (s.length / 8)) = .ok (pre ++ beBytes (s.length / 8) n) := by
  cases h with
  | nil => simp [binWrite, zeros, beBytes]
  | snoc s n c d hn hd hb =>
    simp only [List.length_append, List.length_singleton] at hl ⊢
    have e1 : (s.length + 1) / 8 = s.length / 8 + 1 := by omega
    have hj : s.length % 8 = 7 := by omega
    have hy : n % 2 ^ (s.length % 8) < 128 := by rw [hj]; omega
    have := binWrite_numeral hn pre [] [c]
    rw [List.append_nil] at this
    rw [e1, this]
    have hpl : ∀ q x, ((pre.length + q : Nat) : Int) = ((pre ++ beBytes q x).length : Nat) := by
      intro q x; simp [beBytes_length]
    rw [hpl _ (n / 2 ^ (s.length % 8)), binWrite_step _ _ _ _ _ d _ hd hb hy, if_pos (by omega), binWrite]
    congr 1
    have : n * 2 + d = 256 * (n / 2 ^ 7) + (2 * (n % 2 ^ 7) + d) := by omega
    rw [hj, this, beBytes_snoc _ _ _ (by omega)]
    simp

theorem numeral2_bits {s : CStr} {n : Nat} (h : Numeral 2 s n) : s.countP isBit = s.length ∧ s.any (fun c => !isBit c) = false := by
  have hb : ∀ c ∈ s, isBit c = true := by
    intro c hc
    obtain ⟨d, hd, hl⟩ := numeral_mem h c hc
    exact (digit_class hd).2.2.2.2.2.2.2.2.2.1 hl
  refine ⟨List.countP_eq_length.mpr hb, any_false_of ?_⟩
  intro c hc
  simp [hb c hc]

theorem parseBytesBinary_fits {s : CStr} {n : Nat} (h : Numeral 2 s n) (size : Nat) (hne : s ≠ [])
    (hl : s.length % 8 = 0) (hf : s.length / 8 ≤ size) :
    parseBytesBinary s size = .ok (some (zeros (size - s.length / 8) ++ beBytes (s.length / 8) n)) := by
  have hpos : 0 < s.length := List.length_pos_iff.mpr hne
  unfold parseBytesBinary
  simp only [numeral2_bits h, Bool.false_or, decide_eq_true_eq]
  rw [if_neg (by omega), if_neg (by omega)]
  have e : balloc size = zeros (size - s.length / 8) ++ zeros (s.length / 8) := by
    rw [← zeros_add]
    unfold balloc zeros
    congr 1
    omega
  have e2 : ((size : Int) - ((s.length / 8 : Nat) : Int)) = ((zeros (size - s.length / 8)).length : Nat) := by
    simp only [zeros, List.length_replicate]
    omega
  rw [e, e2, binWrite_full h _ hl]
  rfl

theorem parseBytesBinary_misaligned {s : CStr} {n : Nat} (h : Numeral 2 s n) (size : Nat) (hl : s.length % 8 ≠ 0) :
    parseBytesBinary s size = .ok none := by
  unfold parseBytesBinary
  simp only [numeral2_bits h]
  split <;> rfl

theorem parseBytesBinary_overflow {s : CStr} {n : Nat} (h : Numeral 2 s n) (size : Nat)
    (hl : s.length % 8 = 0) (hf : size < s.length / 8) : parseBytesBinary s size = .ub .oobWrite := by
  unfold parseBytesBinary
  simp only [numeral2_bits h, Bool.false_or, decide_eq_true_eq]
  rw [if_neg (by omega), if_neg (by omega)]
  cases s with
  | nil => simp at hf
  | cons c s =>
    obtain ⟨d, hd, hd2⟩ := numeral_mem h c (by simp)
    rw [binWrite, if_pos ((digit_class hd).2.2.2.2.2.2.2.2.2.1 hd2)]
    unfold orByteAt
    rw [if_neg (by omega)]
    rfl

/-! ## `parse_bytes` on long literals -/

theorem beBytes_zeros (k m n : Nat) (h : n < 256 ^ k) : beBytes (m + k) n = zeros m ++ beBytes k n := by
  induction m with
  | zero => simp [zeros]
  | succ m ih =>
    have e : m + 1 + k = (m + k) + 1 := by omega
    rw [e, beBytes, ih]
    have : n / 256 ^ (m + k) = 0 := by
      apply Nat.div_eq_of_lt
      exact Nat.lt_of_lt_of_le h (Nat.pow_le_pow_right (by decide) (by omega))
    rw [this]
    rfl

theorem numeral_lt {base : Nat} {s : CStr} {n : Nat} (h : Numeral base s n) : n < base ^ s.length := by
  induction h with
  | nil => simp
  | snoc s n c d _ _ hb ih =>
    simp only [List.length_append, List.length_singleton, Nat.pow_succ]
    have : (n + 1) * base ≤ base ^ s.length * base := Nat.mul_le_mul_right _ ih
    rw [Nat.add_mul] at this
    omega

theorem parseBytes_long_hex {s : CStr} {n : Nat} (h : Numeral 16 s n) (bytes : Nat) (hb : 8 < bytes) :
    parseBytes (c!"0x" ++ s) bytes = parseBytesHex s bytes := by
  unfold parseBytes
  rw [splitPrefix_hex]
  simp only [numBase_lit.1 h]
  rw [if_neg (by omega)]
  rfl

theorem parseBytes_long_bin {s : CStr} {n : Nat} (h : Numeral 2 s n) (bytes : Nat) (hb : 8 < bytes) :
    parseBytes (c!"0b" ++ s) bytes = parseBytesBinary s bytes := by
  unfold parseBytes
  rw [splitPrefix_bin]
  simp only [numBase_lit.2.2.2 h]
  rw [if_neg (by omega)]
  rfl

end Ef
