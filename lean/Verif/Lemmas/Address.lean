import Verif.Lemmas.Ipv4Text

/-! # Lemmas about MAC and IPv6 addresses -/

namespace Ef

open Spec

theorem numeral_one {base : Nat} {s : CStr} {n : Nat} (h : Numeral base s n) (hl : s.length = 1) :
    ∃ c, s = [c] ∧ Digit c n := by
  cases h with
  | nil => simp at hl
  | snoc s n c d h hd hb =>
    simp at hl
    subst hl
    have : n = 0 := by
      have := numeral_lt h
      simpa using this
    subst this
    exact ⟨c, rfl, by simpa using hd⟩

theorem numeral_two {base : Nat} {s : CStr} {n : Nat} (h : Numeral base s n) (hl : s.length = 2) :
    ∃ c1 c2 d1 d2, s = [c1, c2] ∧ Digit c1 d1 ∧ Digit c2 d2 ∧ n = d1 * base + d2 := by
  cases h with
  | nil => simp at hl
  | snoc s n c d h hd hb =>
    simp at hl
    obtain ⟨c1, rfl, h1⟩ := numeral_one h hl
    exact ⟨c1, c, n, d, rfl, h1, hd, rfl⟩

theorem macStep_digit {c : Byte} {d : Nat} (h : Digit c d) (pre post : Buf) (x : Byte) (sp sc vc cc ec : Nat)
    (hp : pre.length ≤ 5) (hv : vc ≤ 1) :
    macStep ⟨pre ++ x :: post, pre.length, sp, sc, vc, cc, ec⟩ c =
      some ⟨pre ++ ((x <<< 4) ||| BitVec.ofNat 8 d) :: post, pre.length, sp, sc, vc + 1, 0, if vc = 0 then ec + 1 else ec⟩ := by
  unfold macStep
  rw [digit_hexVal h]
  simp only
  rw [if_neg (by omega), if_neg (by omega), modify_at]
  simp only [Nat.add_eq_right]

theorem mac_elem {s : CStr} {b : Byte} (h : MacElem s b) (pre post : Buf) (sp sc cc ec : Nat)
    (hp : pre.length ≤ 5) :
    s.foldlM macStep ⟨pre ++ 0#8 :: post, pre.length, sp, sc, 0, cc, ec⟩ =
      some ⟨pre ++ b :: post, pre.length, sp, sc, s.length, 0, ec + 1⟩ := by
  obtain ⟨n, hn, h1, h2, rfl⟩ := h
  have : s.length = 1 ∨ s.length = 2 := by omega
  rcases this with hl | hl
  · obtain ⟨c, rfl, hd⟩ := numeral_one hn hl
    rw [List.foldlM_cons, macStep_digit hd _ _ _ _ _ _ _ _ hp (by omega)]
    simp
  · obtain ⟨c1, c2, d1, d2, rfl, hd1, hd2, rfl⟩ := numeral_two hn hl
    rw [List.foldlM_cons, macStep_digit hd1 _ _ _ _ _ _ _ _ hp (by omega)]
    simp only [Option.bind_eq_bind, Option.bind_some]
    rw [List.foldlM_cons, macStep_digit hd2 _ _ _ _ _ _ _ _ hp (by omega)]
    have := pair_byte d1 (digit_lt hd1) d2 (digit_lt hd2)
    simp only [BitVec.zero_or, BitVec.zero_shiftLeft] at this ⊢
    simp [this, Nat.mul_comm]

theorem macStep_colon_first (m : Buf) (idx sp sc vc ec : Nat) (hi : idx ≤ 5) :
    macStep ⟨m, idx, sp, sc, vc, 0, ec⟩ ch!":" = some ⟨m, if vc ≠ 0 then idx + 1 else idx, sp, sc, 0, 1, ec⟩ := by
  unfold macStep
  have h1 : hexVal ch!":" = none := by decide
  have h2 : isColon ch!":" = true := by decide
  rw [h1]
  simp only [h2, if_true]
  rw [if_neg (by omega)]
  simp

theorem macStep_colon_second (m : Buf) (idx ec : Nat) (hi : idx ≤ 5) :
    macStep ⟨m, idx, 0, 0, 0, 1, ec⟩ ch!":" = some ⟨m, idx, idx, 1, 0, 2, ec⟩ := by
  unfold macStep
  have h1 : hexVal ch!":" = none := by decide
  have h2 : isColon ch!":" = true := by decide
  rw [h1]
  simp only [h2, if_true]
  rw [if_neg (by omega)]
  simp

theorem allRel_length {α β : Type} {R : α → β → Prop} {as : List α} {bs : List β} (h : AllRel R as bs) :
    as.length = bs.length := by
  induction h with
  | nil => rfl
  | cons _ _ ih => simp [ih]

theorem mac_join {A : List CStr} {bs : Buf} (h : AllRel MacElem A bs) : ∀ (pre post : Buf) (sp sc cc ec : Nat),
    A ≠ [] → pre.length + bs.length ≤ 6 →
    ∃ vc, vc ≠ 0 ∧ (joinColon A).foldlM macStep ⟨pre ++ zeros bs.length ++ post, pre.length, sp, sc, 0, cc, ec⟩ =
      some ⟨pre ++ bs ++ post, pre.length + bs.length - 1, sp, sc, vc, 0, ec + bs.length⟩ := by
  induction h with
  | nil => intro _ _ _ _ _ _ h; exact absurd rfl h
  | @cons s b A bs hs hA ih =>
    intro pre post sp sc cc ec _ hl
    simp only [List.length_cons] at hl
    have hz : pre ++ zeros (b :: bs).length ++ post = pre ++ 0#8 :: (zeros bs.length ++ post) := by
      simp [zeros, List.replicate_succ]
    rw [hz]
    cases A with
    | nil =>
      cases hA
      refine ⟨s.length, ?_, ?_⟩
      · obtain ⟨n, _, h1, _⟩ := hs
        omega
      · simp only [joinColon]
        rw [mac_elem hs _ _ _ _ _ _ (by omega)]
        simp [zeros]
    | cons s2 A =>
      obtain ⟨vc, hvc, he⟩ := ih (pre ++ [b]) post sp sc 1 (ec + 1) (by simp) (by simp; omega)
      refine ⟨vc, hvc, ?_⟩
      simp only [joinColon]
      rw [List.foldlM_append, List.foldlM_append, mac_elem hs _ _ _ _ _ _ (by omega)]
      simp only [Option.bind_eq_bind, Option.bind_some, List.foldlM_cons, List.foldlM_nil]
      rw [macStep_colon_first _ _ _ _ _ _ (by omega)]
      have hs0 : s.length ≠ 0 := by obtain ⟨n, _, h1, _⟩ := hs; omega
      simp only [Option.bind_some, hs0, ne_eq, not_false_eq_true, if_true, Option.pure_def]
      have e1 : pre ++ b :: (zeros bs.length ++ post) = pre ++ [b] ++ zeros bs.length ++ post := by simp
      rw [e1]
      simp only [List.length_append, List.length_singleton] at he
      rw [he]
      simp
      omega

theorem mac_move (A B : Buf) (h : A.length + B.length ≤ 6) :
    memzero (memmove (A ++ B ++ zeros (6 - A.length - B.length)) (6 - (A.length + B.length) + A.length) A.length B.length)
      A.length (6 - (A.length + B.length)) = A ++ zeros (6 - A.length - B.length) ++ B := by
  obtain ⟨k, hk⟩ : ∃ k, 6 - A.length - B.length = k := ⟨_, rfl⟩
  have hk2 : 6 - (A.length + B.length) = k := by omega
  rw [hk, hk2]
  have h1 : memmove (A ++ B ++ zeros k) (k + A.length) A.length B.length =
      (A ++ B ++ zeros k).take (k + A.length) ++ B := by
    unfold memmove
    have e1 : ((A ++ B ++ zeros k).drop A.length).take B.length = B := by simp
    have e2 : (A ++ B ++ zeros k).drop (k + A.length + B.length) = [] := by
      apply List.drop_eq_nil_of_le
      simp [zeros]
      omega
    rw [e1, e2, List.append_nil]
  rw [h1]
  unfold memzero
  have hlen : ((A ++ B ++ zeros k).take (k + A.length)).length = A.length + k := by
    simp [zeros]
    omega
  have e1 : ((A ++ B ++ zeros k).take (k + A.length) ++ B).take A.length = A := by
    rw [List.take_append_of_le_length (by omega), List.take_take, Nat.min_eq_left (by omega), List.append_assoc,
      List.take_left']
    rfl
  have e2 : ((A ++ B ++ zeros k).take (k + A.length) ++ B).drop (A.length + k) = B := by
    rw [← hlen, List.drop_left']
    rfl
  rw [e1, e2]
  rfl

theorem parseMac_full {A : List CStr} {bs : Buf} (h : AllRel MacElem A bs) (hl : bs.length = 6) :
    parseMac (joinColon A) = .ok (some bs) := by
  have hne : A ≠ [] := by
    intro e
    have := allRel_length h
    rw [e, hl] at this
    simp at this
  obtain ⟨vc, _, he⟩ := mac_join h [] [] 0 0 0 0 hne (by simp [hl])
  unfold parseMac
  have hi : Mac.init = ⟨[] ++ zeros bs.length ++ [], ([] : Buf).length, 0, 0, 0, 0, 0⟩ := by
    rw [hl]
    rfl
  rw [hi, he]
  simp only [macFinish]
  rw [if_neg (by omega), if_neg (by omega), if_neg (by omega), if_neg (by omega)]
  have := mac_move [] bs (by simp [hl])
  simp [hl, zeros] at this
  simp [hl, this]

theorem parseMac_split {A B : List CStr} {as bs : Buf} (hA : AllRel MacElem A as) (hB : AllRel MacElem B bs)
    (hl : as.length + bs.length ≤ 5) :
    parseMac (joinColon A ++ c!"::" ++ joinColon B) = .ok (some (as ++ zeros (6 - as.length - bs.length) ++ bs)) := by
  have h1 : (joinColon A ++ c!"::").foldlM macStep Mac.init =
      some ⟨as ++ zeros (6 - as.length), as.length, as.length, 1, 0, 2, as.length⟩ := by
    rw [List.foldlM_append]
    by_cases hne : A = []
    · subst hne
      cases hA
      rfl
    · obtain ⟨vc, hvc, he⟩ := mac_join hA [] (zeros (6 - as.length)) 0 0 0 0 hne (by simp; omega)
      have hi : Mac.init = ⟨[] ++ zeros as.length ++ zeros (6 - as.length), ([] : Buf).length, 0, 0, 0, 0, 0⟩ := by
        rw [List.nil_append, ← zeros_add, show as.length + (6 - as.length) = 6 by omega]
        rfl
      rw [hi, he]
      have hpos : 0 < as.length := by
        rw [← allRel_length hA]
        exact List.length_pos_iff.mpr hne
      simp only [Option.bind_eq_bind, Option.bind_some, List.foldlM_cons, List.foldlM_nil]
      rw [macStep_colon_first _ _ _ _ _ _ (by simp; omega)]
      simp only [hvc, ne_eq, not_false_eq_true, if_true, Option.bind_some]
      have e : ([] : Buf).length + as.length - 1 + 1 = as.length := by simp; omega
      rw [e, macStep_colon_second _ _ _ (by omega)]
      simp
  have h2 : ∃ idx vc cc, (joinColon A ++ c!"::" ++ joinColon B).foldlM macStep Mac.init =
      some ⟨as ++ bs ++ zeros (6 - as.length - bs.length), idx, as.length, 1, vc, cc, as.length + bs.length⟩ := by
    rw [List.foldlM_append, h1]
    simp only [Option.bind_eq_bind, Option.bind_some]
    by_cases hne : B = []
    · subst hne
      cases hB
      exact ⟨as.length, 0, 2, by simp [joinColon]⟩
    · obtain ⟨vc, hvc, he⟩ := mac_join hB as (zeros (6 - as.length - bs.length)) as.length 1 2 as.length hne (by omega)
      refine ⟨as.length + bs.length - 1, vc, 0, ?_⟩
      have hz : as ++ zeros (6 - as.length) = as ++ zeros bs.length ++ zeros (6 - as.length - bs.length) := by
        rw [List.append_assoc, ← zeros_add, show bs.length + (6 - as.length - bs.length) = 6 - as.length by omega]
      rw [hz, he]
  obtain ⟨idx, vc, cc, h2⟩ := h2
  unfold parseMac
  rw [h2]
  simp only [macFinish]
  rw [if_neg (by omega), if_neg (by omega), if_neg (by omega), if_neg (by omega)]
  have e1 : as.length + bs.length - as.length = bs.length := by omega
  have e2 : 6 - (as.length + bs.length) + as.length - as.length = 6 - (as.length + bs.length) := by omega
  rw [e1, e2, mac_move as bs (by omega)]

/-- What holds in every reachable state of the MAC parser. -/
structure MacInv (st : Mac) : Prop where
  len : st.m.length = 6
  idx : st.idx ≤ st.elementCnt
  cur : st.valCnt ≠ 0 → st.idx + 1 ≤ st.elementCnt
  split : st.split ≤ st.elementCnt

theorem macInv_step {st st' : Mac} {c : Byte} (hi : MacInv st) (h : macStep st c = some st') : MacInv st' := by
  obtain ⟨m, idx, sp, sc, vc, cc, ec⟩ := st
  obtain ⟨h1, h2, h3, h4⟩ := hi
  simp only at h1 h2 h3 h4
  unfold macStep at h
  cases hv : hexVal c with
  | some v =>
    rw [hv] at h
    simp only at h
    split at h
    · simp at h
    · split at h
      · simp at h
      · simp only [Option.some.injEq] at h
        subst h
        refine ⟨by simpa using h1, ?_, ?_, ?_⟩ <;> simp only <;> split <;> omega
  | none =>
    rw [hv] at h
    simp only at h
    split at h
    · split at h
      · simp at h
      · have hidx : (if vc ≠ 0 ∧ cc = 0 then idx + 1 else idx) ≤ ec := by
          split
          · rename_i hc
            exact h3 hc.1
          · exact h2
        split at h
        · split at h
          · simp at h
          · split at h
            · simp at h
            · simp only [Option.some.injEq] at h
              subst h
              exact ⟨h1, hidx, fun h => absurd rfl h, hidx⟩
        · split at h
          · simp at h
          · simp only [Option.some.injEq] at h
            subst h
            exact ⟨h1, hidx, fun h => absurd rfl h, h4⟩
    · simp at h

theorem macInv_fold (s : CStr) : ∀ st st', MacInv st → s.foldlM macStep st = some st' → MacInv st' := by
  induction s with
  | nil =>
    intro st st' hi h
    simp at h
    subst h
    exact hi
  | cons c s ih =>
    intro st st' hi h
    rw [List.foldlM_cons, Option.bind_eq_bind, Option.bind_eq_some_iff] at h
    obtain ⟨st1, h1, h2⟩ := h
    exact ih _ _ (macInv_step hi h1) h2

/-- The MAC parser never leaves its buffer, and what it accepts has six bytes. -/
theorem parseMac_total (s : CStr) : ∃ r, parseMac s = .ok r ∧ ∀ v, r = some v → v.length = 6 := by
  unfold parseMac
  split
  · exact ⟨none, rfl, by simp⟩
  · rename_i st hst
    have hi := macInv_fold s _ _ ⟨by simp [Mac.init, balloc], by simp [Mac.init], by simp [Mac.init], by simp [Mac.init]⟩ hst
    unfold macFinish
    split
    · exact ⟨none, rfl, by simp⟩
    · split
      · exact ⟨none, rfl, by simp⟩
      · split
        · exact ⟨none, rfl, by simp⟩
        · split
          · have := hi.split
            omega
          · refine ⟨_, rfl, ?_⟩
            intro v hv
            simp only [Option.some.injEq] at hv
            subst hv
            have h1 := hi.len
            have h2 := hi.split
            simp only [memzero, memmove, List.length_append, List.length_take, List.length_drop, List.length_replicate]
            omega

/-! ## IPv6 -/

theorem group6_eq (n : Nat) : group6 n = beBytes 2 n := by
  simp [group6, beBytes]

theorem digit_hexDigit {c : Byte} {d : Nat} (h : Digit c d) : hexDigit c = some d := (digit_iff c d).mp h

theorem pton6_numeral {s : CStr} {n : Nat} (h : Numeral 16 s n) : s.length ≤ 4 → ∀ (ct t : CStr) (out : List Byte) (cp : Option Nat),
    pton6Loop ct (s ++ t) ⟨out, cp, 0, 0⟩ = pton6Loop ct t ⟨out, cp, s.length, n⟩ := by
  induction h with
  | nil => intro _ ct t out cp; rfl
  | snoc s n c d h hd hb ih =>
    intro hl ct t out cp
    simp only [List.length_append, List.length_singleton] at hl
    rw [List.append_assoc, ih (by omega), List.singleton_append, pton6Loop, digit_hexDigit hd]
    simp only
    have hn := numeral_lt h
    have : 16 ^ s.length ≤ 16 ^ 3 := Nat.pow_le_pow_right (by decide) (by omega)
    rw [if_neg (by omega), if_neg (by omega)]
    simp

theorem pton6_colon_group (ct t : CStr) (out : List Byte) (cp : Option Nat) (x n : Nat) (hx : x ≠ 0) (ht : t ≠ [])
    (ho : out.length + 2 ≤ 16) :
    pton6Loop ct (ch!":" :: t) ⟨out, cp, x, n⟩ = pton6Loop t t ⟨out ++ beBytes 2 n, cp, 0, 0⟩ := by
  rw [pton6Loop]
  have h1 : hexDigit ch!":" = none := by decide
  rw [h1]
  simp only [if_true, hx, if_false, ht]
  rw [if_neg (by omega), group6_eq]

theorem pton6_colon_split (ct t : CStr) (out : List Byte) :
    pton6Loop ct (ch!":" :: t) ⟨out, none, 0, 0⟩ = pton6Loop t t ⟨out, some out.length, 0, 0⟩ := by
  rw [pton6Loop]
  have h1 : hexDigit ch!":" = none := by decide
  rw [h1]
  simp

theorem ip6Group_length {s : CStr} {b : Buf} (h : Ip6Group s b) : b.length = 2 ∧ s ≠ [] := by
  obtain ⟨n, _, h1, _, rfl⟩ := h
  exact ⟨beBytes_length 2 n, by intro e; simp [e] at h1⟩

theorem ip6_flatten_length {A : List CStr} {gs : List Buf} (h : AllRel Ip6Group A gs) : gs.flatten.length = 2 * gs.length := by
  induction h with
  | nil => rfl
  | cons hs _ ih =>
    simp only [List.flatten_cons, List.length_append, List.length_cons, (ip6Group_length hs).1, ih]
    omega

theorem joinColon_cons_ne {s : CStr} (A : List CStr) (h : s ≠ []) : joinColon (s :: A) ≠ [] := by
  cases A with
  | nil => exact h
  | cons s2 A => simp [joinColon]

/-- Groups followed by a colon. -/
theorem pton6_groups {A : List CStr} {gs : List Buf} (h : AllRel Ip6Group A gs) : ∀ (ct t : CStr) (out : List Byte)
    (cp : Option Nat), A ≠ [] → t ≠ [] → out.length + 2 * gs.length ≤ 16 →
    ∃ ct', pton6Loop ct (joinColon A ++ ch!":" :: t) ⟨out, cp, 0, 0⟩ = pton6Loop ct' t ⟨out ++ gs.flatten, cp, 0, 0⟩ := by
  induction h with
  | nil => intro _ _ _ _ h; exact absurd rfl h
  | @cons s g A gs hs hA ih =>
    intro ct t out cp _ ht hl
    simp only [List.length_cons] at hl
    obtain ⟨n, hn, h1, h4, rfl⟩ := id hs
    cases A with
    | nil =>
      cases hA
      refine ⟨t, ?_⟩
      simp only [joinColon]
      rw [pton6_numeral hn h4, pton6_colon_group _ _ _ _ _ _ (by omega) ht (by omega)]
      simp
    | cons s2 A =>
      have hne : joinColon (s2 :: A) ++ ch!":" :: t ≠ [] := by simp
      obtain ⟨ct', he⟩ := ih (joinColon (s2 :: A) ++ ch!":" :: t) t (out ++ beBytes 2 n) cp (by simp) ht
        (by simp [beBytes_length]; omega)
      refine ⟨ct', ?_⟩
      simp only [joinColon]
      rw [List.append_assoc, List.append_assoc, pton6_numeral hn h4]
      simp only [List.singleton_append]
      rw [pton6_colon_group _ _ _ _ _ _ (by omega) hne (by omega), he]
      simp

/-- Groups at the end of the text. -/
theorem pton6_last {A : List CStr} {gs : List Buf} (h : AllRel Ip6Group A gs) : ∀ (ct : CStr) (out : List Byte)
    (cp : Option Nat), A ≠ [] → out.length + 2 * gs.length ≤ 16 →
    ∃ st, pton6Loop ct (joinColon A) ⟨out, cp, 0, 0⟩ = some st ∧ st.xdigits > 0 ∧ st.out.length + 2 ≤ 16 ∧
      st.out ++ group6 st.val = out ++ gs.flatten ∧ st.colonp = cp := by
  induction h with
  | nil => intro _ _ _ h; exact absurd rfl h
  | @cons s g A gs hs hA ih =>
    intro ct out cp _ hl
    simp only [List.length_cons] at hl
    obtain ⟨n, hn, h1, h4, rfl⟩ := id hs
    cases A with
    | nil =>
      cases hA
      refine ⟨⟨out, cp, s.length, n⟩, ?_, h1, by simp only; omega, ?_, rfl⟩
      · have := pton6_numeral hn h4 ct [] out cp
        rw [List.append_nil] at this
        simp only [joinColon]
        rw [this]
        rfl
      · simp [group6_eq]
    | cons s2 A =>
      cases hA with
      | cons hs2 hA2 =>
      have hne := joinColon_cons_ne A (ip6Group_length hs2).2
      obtain ⟨st, he, h5, h6, h7, h8⟩ := ih (joinColon (s2 :: A)) (out ++ beBytes 2 n) cp (by simp)
        (by simp [beBytes_length]; simp at hl; omega)
      refine ⟨st, ?_, h5, h6, ?_, h8⟩
      · simp only [joinColon]
        rw [List.append_assoc, pton6_numeral hn h4]
        simp only [List.singleton_append]
        rw [pton6_colon_group _ _ _ _ _ _ (by omega) hne (by omega), he]
      · rw [h7]
        simp

theorem first_not_colon {s : CStr} {b : Buf} (h : Ip6Group s b) : ∃ c t, s = c :: t ∧ c ≠ ch!":" := by
  obtain ⟨n, hn, h1, _⟩ := h
  cases s with
  | nil => simp at h1
  | cons c t =>
    refine ⟨c, t, rfl, ?_⟩
    obtain ⟨d, hd, _⟩ := numeral_mem hn c (by simp)
    intro e
    rw [e] at hd
    have := (digit_class hd).2.2.1
    revert this
    decide

theorem inetPton6_full {A : List CStr} {gs : List Buf} (h : AllRel Ip6Group A gs) (hl : gs.length = 8) :
    inetPton6 (joinColon A) = some gs.flatten := by
  cases h with
  | nil => simp at hl
  | @cons s g A gs hs hA =>
    obtain ⟨c, t, hs1, hc⟩ := first_not_colon hs
    have hj : ∃ t', joinColon (s :: A) = c :: t' := by
      cases A with
      | nil => exact ⟨t, hs1⟩
      | cons s2 A => exact ⟨t ++ c!":" ++ joinColon (s2 :: A), by simp [joinColon, hs1]⟩
    obtain ⟨t', hj⟩ := hj
    obtain ⟨st, he, h5, h6, h7, h8⟩ := pton6_last (AllRel.cons hs hA) (joinColon (s :: A)) [] none (by simp) (by simp [hl])
    have hst : pton6Start (joinColon (s :: A)) = some (joinColon (s :: A)) := by
      rw [hj]
      simp [hc, pton6Start]
    unfold inetPton6
    rw [hst]
    simp only [he]
    unfold pton6Finish
    simp only [h5, if_true]
    rw [if_neg (by omega)]
    simp only [h8, h7]
    have := ip6_flatten_length (AllRel.cons hs hA)
    rw [hl] at this
    simp only [List.nil_append]
    rw [if_pos (by omega)]

theorem inetPton6_split {A B : List CStr} {as bs : List Buf} (hA : AllRel Ip6Group A as) (hB : AllRel Ip6Group B bs)
    (hl : as.length + bs.length ≤ 7) :
    inetPton6 (joinColon A ++ c!"::" ++ joinColon B) =
      some (as.flatten ++ zeros (16 - 2 * as.length - 2 * bs.length) ++ bs.flatten) := by
  have ha := ip6_flatten_length hA
  have hb := ip6_flatten_length hB
  -- the part after the double colon
  have tail : ∀ ct, ∃ st, pton6Loop ct (joinColon B) ⟨as.flatten, some as.flatten.length, 0, 0⟩ = some st ∧
      pton6Finish st = some (as.flatten ++ zeros (16 - 2 * as.length - 2 * bs.length) ++ bs.flatten) := by
    intro ct
    by_cases hne : B = []
    · subst hne
      cases hB
      refine ⟨_, rfl, ?_⟩
      unfold pton6Finish
      simp only [Nat.lt_irrefl, if_false, gt_iff_lt]
      rw [if_neg (by omega)]
      rw [List.take_of_length_le (Nat.le_refl _), List.drop_eq_nil_of_le (Nat.le_refl _), ha]
      simp [zeros]
    · obtain ⟨st, he, h5, h6, h7, h8⟩ := pton6_last hB ct as.flatten (some as.flatten.length) hne (by omega)
      refine ⟨st, he, ?_⟩
      unfold pton6Finish
      simp only [h5, if_true]
      rw [if_neg (by omega)]
      simp only [h8, h7]
      rw [if_neg (by rw [List.length_append]; omega)]
      rw [List.take_left', List.drop_left']
      · simp only [List.length_append, ha, hb, zeros]
        rw [show 16 - (2 * as.length + 2 * bs.length) = 16 - 2 * as.length - 2 * bs.length by omega]
      · rfl
      · rfl
  -- the part before
  have head : ∃ ct src, pton6Start (joinColon A ++ c!"::" ++ joinColon B) = some src ∧
      pton6Loop src src ⟨[], none, 0, 0⟩ = pton6Loop ct (joinColon B) ⟨as.flatten, some as.flatten.length, 0, 0⟩ := by
    cases hA with
    | nil =>
      refine ⟨joinColon B, ch!":" :: joinColon B, by simp [joinColon, pton6Start], ?_⟩
      exact pton6_colon_split _ _ _
    | @cons s g A gs hs hA =>
      obtain ⟨c, t, hs1, hc⟩ := first_not_colon hs
      have hj : ∃ t', joinColon (s :: A) = c :: t' := by
        cases A with
        | nil => exact ⟨t, hs1⟩
        | cons s2 A => exact ⟨t ++ c!":" ++ joinColon (s2 :: A), by simp [joinColon, hs1]⟩
      obtain ⟨t', hj⟩ := hj
      have e : joinColon (s :: A) ++ c!"::" ++ joinColon B = joinColon (s :: A) ++ ch!":" :: ch!":" :: joinColon B := by simp
      obtain ⟨ct', he⟩ := pton6_groups (AllRel.cons hs hA) (joinColon (s :: A) ++ c!"::" ++ joinColon B)
        (ch!":" :: joinColon B) [] none (by simp) (by simp) (by simp at hl ⊢; omega)
      refine ⟨joinColon B, joinColon (s :: A) ++ c!"::" ++ joinColon B, ?_, ?_⟩
      · rw [hj]
        simp [hc, pton6Start]
      · rw [← e] at he
        rw [he, pton6_colon_split]
        simp
  obtain ⟨ct, src, h1, h2⟩ := head
  obtain ⟨st, h3, h4⟩ := tail ct
  unfold inetPton6
  rw [h1]
  simp only [h2, h3, h4]

theorem inetPton4_length {s : CStr} {v : Buf} (h : inetPton4 s = some v) : v.length = 4 := by
  obtain ⟨a, b, c, d, _, _, _, _, _, rfl⟩ := inetPton4_sound h
  rfl

theorem pton6Loop_out (src : CStr) : ∀ (ct : CStr) (st st' : Pton6), st.out.length ≤ 16 →
    (∀ p, st.colonp = some p → p ≤ st.out.length) →
    pton6Loop ct src st = some st' → st'.out.length ≤ 16 ∧ (∀ p, st'.colonp = some p → p ≤ st'.out.length) := by
  induction src with
  | nil =>
    intro ct st st' h hp he
    simp only [pton6Loop, Option.some.injEq] at he
    subst he
    exact ⟨h, hp⟩
  | cons ch src ih =>
    intro ct st st' h hp he
    rw [pton6Loop] at he
    split at he
    · split at he
      · simp at he
      · split at he
        · simp at he
        · exact ih _ _ _ (by simpa using h) (by simpa using hp) he
    · split at he
      · split at he
        · split at he
          · simp at he
          · exact ih _ _ _ (by simpa using h) (by simp) he
        · split at he
          · simp at he
          · split at he
            · simp at he
            · refine ih _ _ _ ?_ ?_ he
              · simp [group6]; omega
              · intro p hpp
                have := hp p hpp
                simp; omega
      · split at he
        · rename_i hc
          split at he
          · rename_i q hq
            simp only [Option.some.injEq] at he
            subst he
            have := inetPton4_length hq
            refine ⟨by simp; omega, ?_⟩
            intro p hpp
            have := hp p hpp
            simp; omega
          · simp at he
        · simp at he

theorem inetPton6_length {s : CStr} {v : Buf} (h : inetPton6 s = some v) : v.length = 16 := by
  unfold inetPton6 at h
  split at h
  · simp at h
  · split at h
    · simp at h
    · rename_i src _ _ st hst
      have ho := pton6Loop_out src _ _ _ (by simp) (by simp) hst
      unfold pton6Finish at h
      simp only at h
      split at h
      · simp at h
      · rename_i out hout
        have hol : out.length ≤ 16 ∧ ∀ p, st.colonp = some p → p ≤ out.length := by
          split at hout
          · split at hout
            · simp at hout
            · simp only [Option.some.injEq] at hout
              subst hout
              refine ⟨by simp [group6]; omega, ?_⟩
              intro p hp
              have := ho.2 p hp
              simp; omega
          · simp only [Option.some.injEq] at hout
            subst hout
            exact ho
        split at h
        · rename_i p hp
          split at h
          · simp at h
          · simp only [Option.some.injEq] at h
            subst h
            have := hol.2 p hp
            simp
            omega
        · split at h
          · simp only [Option.some.injEq] at h
            subst h
            assumption
          · simp at h

end Ef
