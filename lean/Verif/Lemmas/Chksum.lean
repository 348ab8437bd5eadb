import Verif.Spec.Checksum
import Verif.Model.Frame

/-! # The checksum function and RFC 1071 -/

namespace Ef

open Spec

/-- Plain sum of the big-endian words. -/
def beSum (b : Buf) : Nat := (words b).sum

theorem beSum_cons2 (x y : Byte) (b : Buf) : beSum (x :: y :: b) = 256 * x.toNat + y.toNat + beSum b := by
  simp [beSum, words]

theorem buf_induct {P : Buf → Prop} (h0 : P []) (h1 : ∀ x, P [x]) (h2 : ∀ x y b, P b → P (x :: y :: b)) : ∀ b, P b
  | [] => h0
  | [x] => h1 x
  | x :: y :: b => h2 x y b (buf_induct h0 h1 h2 b)

theorem words_lt (b : Buf) : ∀ w ∈ words b, w < 65536 := by
  induction b using buf_induct with
  | h0 => simp [words]
  | h1 x => simp [words]; have := x.isLt; omega
  | h2 x y b ih =>
    simp only [words, List.mem_cons]
    rintro w (rfl | h)
    · have := x.isLt; have := y.isLt; omega
    · exact ih w h

theorem onesAdd_fold (ws : List Nat) : ∀ a, a < 65536 → (∀ w ∈ ws, w < 65536) →
    ws.foldl onesAdd a < 65536 ∧ ws.foldl onesAdd a % 65535 = (a + ws.sum) % 65535 ∧
      (ws.foldl onesAdd a = 0 ↔ a + ws.sum = 0) := by
  induction ws with
  | nil => intro a h _; simp; omega
  | cons w ws ih =>
    intro a ha hw
    have hw0 := hw w (by simp)
    have h1 : onesAdd a w < 65536 ∧ onesAdd a w % 65535 = (a + w) % 65535 ∧ (onesAdd a w = 0 ↔ a + w = 0) := by
      unfold onesAdd; split <;> omega
    obtain ⟨i1, i2, i3⟩ := ih (onesAdd a w) h1.1 (fun v hv => hw v (by simp [hv]))
    simp only [List.foldl_cons, List.sum_cons]
    refine ⟨i1, ?_, ?_⟩
    · rw [i2]; omega
    · rw [i3]; omega

theorem onesSum_spec (b : Buf) : onesSum b < 65536 ∧ onesSum b % 65535 = beSum b % 65535 ∧
    (onesSum b = 0 ↔ beSum b = 0) := by
  have := onesAdd_fold (words b) 0 (by omega) (words_lt b)
  simpa [onesSum, beSum] using this

theorem hostSum_beSum (b : Buf) : (256 * hostSum b) % 65535 = beSum b % 65535 ∧ (hostSum b = 0 ↔ beSum b = 0) := by
  induction b using buf_induct with
  | h0 => simp [hostSum, beSum, words]
  | h1 x => simp [hostSum, beSum, words]; omega
  | h2 x y b ih =>
    rw [beSum_cons2]
    unfold hostSum
    omega

theorem chksumLoop_eq (b : Buf) : ∀ s, s < 2 ^ 32 → chksumLoop s b = (s + hostSum b) % 2 ^ 32 := by
  induction b using buf_induct with
  | h0 => intro s h; simp [chksumLoop, hostSum]; omega
  | h1 x => intro s h; simp [chksumLoop, hostSum]
  | h2 x y b ih =>
    intro s h
    unfold chksumLoop hostSum
    rw [ih _ (by omega)]
    omega

/-- The folded sum. -/
theorem inetChksum_eq (s : Nat) (b : Buf) (hs : s < 2 ^ 32) (hb : s + hostSum b < 2 ^ 32) :
    inetChksum s b = htons (65535 - ((s + hostSum b) / 65536 + (s + hostSum b) % 65536) % 65536) := by
  unfold inetChksum
  rw [chksumLoop_eq b s hs, Nat.mod_eq_of_lt hb]
  simp only
  rw [Nat.shiftRight_eq_div_pow]
  have e1 : ∀ n, n &&& 0xffff = n % 65536 := fun n => Nat.and_two_pow_sub_one_eq_mod n 16
  rw [e1, e1]
  congr 1
  generalize s + hostSum b = n at *
  omega

theorem htons_lt (n : Nat) : htons n < 65536 := by unfold htons; omega

theorem htons_compl {n : Nat} (h : n < 65536) : htons (65535 - n) = 65535 - htons n := by unfold htons; omega

theorem htons_mod {n : Nat} (h : n < 65536) : htons n % 65535 = (256 * n) % 65535 := by
  have : 256 * n = htons n + 65535 * (n / 256) := by unfold htons; omega
  rw [this, Nat.add_mul_mod_self_left]

theorem mul256_mod {a b : Nat} (h : a % 65535 = b % 65535) : (256 * a) % 65535 = (256 * b) % 65535 := by
  rw [Nat.mul_mod, h, ← Nat.mul_mod]

theorem htons_zero {n : Nat} (h : n < 65536) : htons n = 0 ↔ n = 0 := by unfold htons; omega

/-- One fold suffices: the checksum of the code is the one of RFC 1071. -/
theorem inetChksum_rfc {b : Buf} (h : OneFold b) : inetChksum 0 b = rfc1071 b := by
  obtain ⟨h1, h2⟩ := h
  rw [inetChksum_eq 0 b (by omega) (by omega), Nat.zero_add, Nat.mod_eq_of_lt h2, htons_compl h2]
  unfold rfc1071
  congr 1
  obtain ⟨o1, o2, o3⟩ := onesSum_spec b
  obtain ⟨p1, p2⟩ := hostSum_beSum b
  have q1 := htons_mod h2
  have q2 := htons_zero h2
  have q3 := htons_lt (hostSum b / 65536 + hostSum b % 65536)
  have hr : (hostSum b / 65536 + hostSum b % 65536) % 65535 = hostSum b % 65535 ∧
      (hostSum b / 65536 + hostSum b % 65536 = 0 ↔ hostSum b = 0) := by omega
  generalize hostSum b / 65536 + hostSum b % 65536 = F at *
  have e : htons F % 65535 = onesSum b % 65535 := by
    rw [q1, o2, ← p1]; exact mul256_mod hr.1
  omega

/-- If a second carry occurs, the checksum of the code is never the one of RFC 1071, not even in its other
representation of zero. -/
theorem inetChksum_wrong' {b : Buf} (h : hostSum b < 2 ^ 32) (hn : ¬ OneFold b) :
    inetChksum 0 b % 65535 ≠ rfc1071 b % 65535 := by
  have h2 : 65536 ≤ hostSum b / 65536 + hostSum b % 65536 := by
    unfold OneFold at hn; omega
  rw [inetChksum_eq 0 b (by omega) (by omega), Nat.zero_add]
  unfold rfc1071
  obtain ⟨o1, o2, o3⟩ := onesSum_spec b
  obtain ⟨p1, p2⟩ := hostSum_beSum b
  generalize hF : (hostSum b / 65536 + hostSum b % 65536) % 65536 = F
  have hFl : F < 65536 := by omega
  rw [htons_compl hFl]
  have q1 := htons_mod hFl
  have q3 := htons_lt F
  have : (F + 1) % 65535 = hostSum b % 65535 := by
    have e1 : hostSum b = F + 1 + 65535 * (hostSum b / 65536 + 1) := by omega
    rw [e1, Nat.add_mul_mod_self_left]
  have e : (htons F + 256) % 65535 = onesSum b % 65535 := by
    rw [o2, ← p1, ← mul256_mod this, Nat.mul_add, Nat.mul_one, Nat.add_mod, q1, ← Nat.add_mod]
  omega

/-- If a second carry occurs, the checksum of the code is never the one of RFC 1071. -/
theorem inetChksum_wrong {b : Buf} (h : hostSum b < 2 ^ 32) (hn : ¬ OneFold b) : inetChksum 0 b ≠ rfc1071 b :=
  fun he => inetChksum_wrong' h hn (by rw [he])

theorem words_append {a : Buf} (h : a.length % 2 = 0) (b : Buf) : words (a ++ b) = words a ++ words b := by
  induction a using buf_induct with
  | h0 => simp [words]
  | h1 x => simp at h
  | h2 x y a ih =>
    simp only [List.length_cons] at h
    simp [words, ih (by omega)]

theorem beSum_append {a : Buf} (h : a.length % 2 = 0) (b : Buf) : beSum (a ++ b) = beSum a + beSum b := by
  simp [beSum, words_append h]

theorem chksumLoop_append {a : Buf} (h : a.length % 2 = 0) (b : Buf) : ∀ s, chksumLoop s (a ++ b) = chksumLoop (chksumLoop s a) b := by
  induction a using buf_induct with
  | h0 => intro s; simp [chksumLoop]
  | h1 x => simp at h
  | h2 x y a ih =>
    simp only [List.length_cons] at h
    intro s
    simp [chksumLoop, ih (by omega)]

theorem inetChksum_append {a : Buf} (h : a.length % 2 = 0) (b : Buf) :
    inetChksum (chksumLoop 0 a) b = inetChksum 0 (a ++ b) := by
  unfold inetChksum
  rw [chksumLoop_append h]

theorem inetChksum_lt (s : Nat) (b : Buf) : inetChksum s b < 65536 := htons_lt _

/-- Placing the RFC 1071 checksum of the data with a zero checksum word makes the data valid. -/
theorem valid_of_rfc {pre post : Buf} {c : Nat} (hp : pre.length % 2 = 0)
    (hc : c = rfc1071 (pre ++ [0#8, 0#8] ++ post)) :
    ChecksumValid (pre ++ beBytes 2 c ++ post) := by
  have hl : (pre ++ [0#8, 0#8]).length % 2 = 0 := by simp; omega
  have hl' : (pre ++ beBytes 2 c).length % 2 = 0 := by simp [beBytes]; omega
  obtain ⟨o1, o2, o3⟩ := onesSum_spec (pre ++ [0#8, 0#8] ++ post)
  obtain ⟨p1, p2, p3⟩ := onesSum_spec (pre ++ beBytes 2 c ++ post)
  have e1 : beSum (pre ++ [0#8, 0#8] ++ post) = beSum pre + beSum post := by
    rw [beSum_append hl, beSum_append hp]; simp [beSum, words]
  have hcl : c < 65536 := by rw [hc]; unfold rfc1071; omega
  have e2 : beSum (pre ++ beBytes 2 c ++ post) = beSum pre + c + beSum post := by
    rw [beSum_append hl', beSum_append hp]
    have : beSum (beBytes 2 c) = c := by
      simp [beSum, words, beBytes, BitVec.toNat_ofNat]; omega
    rw [this]
  unfold rfc1071 at hc
  unfold ChecksumValid
  omega

/-- Conversely the checksum of RFC 1071 is, up to the two representations of zero, the only one. -/
theorem not_valid_of_ne {pre post : Buf} {c : Nat} (hp : pre.length % 2 = 0) (hcl : c < 65536)
    (hc : c % 65535 ≠ rfc1071 (pre ++ [0#8, 0#8] ++ post) % 65535) :
    ¬ ChecksumValid (pre ++ beBytes 2 c ++ post) := by
  have hl : (pre ++ [0#8, 0#8]).length % 2 = 0 := by simp; omega
  have hl' : (pre ++ beBytes 2 c).length % 2 = 0 := by simp [beBytes]; omega
  obtain ⟨o1, o2, o3⟩ := onesSum_spec (pre ++ [0#8, 0#8] ++ post)
  obtain ⟨p1, p2, p3⟩ := onesSum_spec (pre ++ beBytes 2 c ++ post)
  have e1 : beSum (pre ++ [0#8, 0#8] ++ post) = beSum pre + beSum post := by
    rw [beSum_append hl, beSum_append hp]; simp [beSum, words]
  have e2 : beSum (pre ++ beBytes 2 c ++ post) = beSum pre + c + beSum post := by
    rw [beSum_append hl', beSum_append hp]
    have : beSum (beBytes 2 c) = c := by
      simp [beSum, words, beBytes, BitVec.toNat_ofNat]; omega
    rw [this]
  unfold rfc1071 at hc
  unfold ChecksumValid
  omega

/-- Data whose checksum word was zero when the checksum was computed: it is valid exactly if one fold sufficed. -/
theorem valid_iff {D D' : Buf} {k : Nat} (hk : k % 2 = 0) (hkl : k ≤ D.length)
    (h0 : D = D.take k ++ [0#8, 0#8] ++ D.drop (k + 2))
    (h1 : D' = D.take k ++ beBytes 2 (inetChksum 0 D) ++ D.drop (k + 2)) :
    D = zeroAt D' k ∧ (OneFold D → ChecksumValid D') ∧ (hostSum D < 2 ^ 32 → ChecksumValid D' → OneFold D) := by
  have hl : (D.take k).length = k := by rw [List.length_take]; omega
  have hp : (D.take k).length % 2 = 0 := by omega
  refine ⟨?_, fun ho => ?_, fun hb hv => ?_⟩
  · unfold zeroAt
    have e1 : D'.take k = D.take k := by
      rw [h1, List.append_assoc, List.take_append_of_le_length (by omega), List.take_of_length_le (by omega)]
    have e2 : D'.drop (k + 2) = D.drop (k + 2) := by
      rw [h1, List.drop_append_of_le_length (by simp [hl, beBytes]), List.drop_of_length_le (by simp [hl, beBytes]),
        List.nil_append]
    rw [e1, e2]; exact h0
  · rw [h1]
    exact valid_of_rfc hp (by rw [← h0]; exact inetChksum_rfc ho)
  · apply Decidable.byContradiction
    intro hn
    rw [h1] at hv
    refine not_valid_of_ne hp (inetChksum_lt 0 D) ?_ hv
    rw [← h0]
    exact inetChksum_wrong' hb hn

end Ef
