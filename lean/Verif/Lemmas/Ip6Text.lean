import Verif.Lemmas.MacText

/-! # The language of the IPv6 address parser -/

namespace Ef

open Spec

/-! ## What is accepted is an address -/

theorem ip6Group_of {cur : CStr} {n : Nat} (h : Numeral 16 cur n) (h1 : cur ≠ []) (h4 : cur.length ≤ 4) :
    Ip6Group cur (beBytes 2 n) :=
  ⟨n, h, List.length_pos_iff.mpr h1, h4, rfl⟩

theorem numeral_nil_zero {base n : Nat} (h : Numeral base [] n) : n = 0 := by
  have := numeral_lt h
  simpa using this

/-- The expansion of the double colon. -/
theorem pton6_expand {as b : Buf} {v : Buf} (h16 : (as ++ b).length ≠ 16) (hle : (as ++ b).length ≤ 16)
    (hmod : (as ++ b).length % 2 = 0)
    (hv : v = (as ++ b).take as.length ++ List.replicate (16 - (as ++ b).length) 0#8 ++ (as ++ b).drop as.length) :
    as.length + b.length ≤ 14 ∧ v = as ++ zeros (16 - as.length - b.length) ++ b := by
  rw [List.take_left', List.drop_left'] at hv
  · rw [List.length_append] at h16 hle hv hmod
    refine ⟨by omega, ?_⟩
    rw [hv, Nat.sub_sub]
    rfl
  · rfl
  · rfl

theorem finish_flush {out : Buf} {cp : Option Nat} {x n : Nat} {v : Buf} (hx : x ≠ 0)
    (h : pton6Finish ⟨out, cp, x, n⟩ = some v) :
    out.length + 2 ≤ 16 ∧ pton6Finish ⟨out ++ beBytes 2 n, cp, 0, 0⟩ = some v := by
  unfold pton6Finish at h ⊢
  simp only at h ⊢
  have hx' : x > 0 := by omega
  simp only [hx', if_true] at h
  by_cases hl : out.length + 2 > 16
  · simp [hl] at h
  · simp only [hl, if_false, group6_eq] at h
    exact ⟨by omega, by simpa using h⟩

theorem finish_split {as b : Buf} {n : Nat} {v : Buf} (hle : (as ++ b).length ≤ 16) (hmod : (as ++ b).length % 2 = 0)
    (h : pton6Finish ⟨as ++ b, some as.length, 0, n⟩ = some v) :
    as.length + b.length ≤ 14 ∧ v = as ++ zeros (16 - as.length - b.length) ++ b := by
  unfold pton6Finish at h
  simp only [gt_iff_lt, Nat.lt_irrefl, if_false] at h
  split at h
  · simp at h
  · rename_i h16
    simp only [Option.some.injEq] at h
    exact pton6_expand h16 hle hmod h.symm

theorem finish_plain {out : Buf} {n : Nat} {v : Buf} (h : pton6Finish ⟨out, none, 0, n⟩ = some v) :
    out.length = 16 ∧ v = out := by
  unfold pton6Finish at h
  simp only [gt_iff_lt, Nat.lt_irrefl, if_false] at h
  split at h
  · rename_i h16
    simp only [Option.some.injEq] at h
    exact ⟨h16, h.symm⟩
  · simp at h

/-- One character, for a loop which goes on or ends with a dotted quad. -/
theorem pton6_step {cur : CStr} {ch : Byte} {src : CStr} {out : Buf} {cp : Option Nat} {n : Nat} {st' : Pton6}
    (hn : Numeral 16 cur n) (h4 : cur.length ≤ 4)
    (h : pton6Loop (cur ++ ch :: src) (ch :: src) ⟨out, cp, cur.length, n⟩ = some st') :
    (∃ n', Numeral 16 (cur ++ [ch]) n' ∧ (cur ++ [ch]).length ≤ 4 ∧
      pton6Loop (cur ++ [ch] ++ src) src ⟨out, cp, (cur ++ [ch]).length, n'⟩ = some st') ∨
    (ch = ch!":" ∧ cur = [] ∧ cp = none ∧ pton6Loop src src ⟨out, some out.length, 0, 0⟩ = some st') ∨
    (ch = ch!":" ∧ cur ≠ [] ∧ src ≠ [] ∧ out.length + 2 ≤ 16 ∧ pton6Loop src src ⟨out ++ beBytes 2 n, cp, 0, 0⟩ = some st') ∨
    (∃ a b c d, a < 256 ∧ b < 256 ∧ c < 256 ∧ d < 256 ∧ cur ++ ch :: src = quadText a b c d ∧ out.length + 4 ≤ 16 ∧
      st' = ⟨out ++ [BitVec.ofNat 8 a, BitVec.ofNat 8 b, BitVec.ofNat 8 c, BitVec.ofNat 8 d], cp, 0, n⟩) := by
  rw [pton6Loop] at h
  split at h
  · rename_i d hd
    have hd' := (digit_iff _ _).mpr hd
    split at h
    · simp at h
    · rename_i hx
      simp only at hx
      split at h
      · simp at h
      · left
        refine ⟨n * 16 + d, Numeral.snoc _ _ _ _ hn hd' (digit_lt hd'), by simp; omega, ?_⟩
        simpa using h
  · split at h
    · rename_i hc
      right
      simp only at h
      split at h
      · rename_i hx
        have hcur : cur = [] := by simpa using hx
        subst hcur
        cases cp with
        | some p => simp at h
        | none =>
          left
          have : n = 0 := numeral_nil_zero hn
          subst this
          exact ⟨hc, rfl, rfl, by simpa using h⟩
      · rename_i hx
        split at h
        · simp at h
        · rename_i hs
          split at h
          · simp at h
          · rename_i ho
            right
            left
            refine ⟨hc, by simpa using hx, hs, by omega, ?_⟩
            rw [← group6_eq]
            exact h
    · split at h
      · rename_i hdot
        split at h
        · rename_i q hq
          obtain ⟨a, b, c, d, ha, hb, hc, hd, he, rfl⟩ := inetPton4_sound hq
          right
          right
          right
          simp only [Option.some.injEq] at h
          exact ⟨a, b, c, d, ha, hb, hc, hd, he, hdot.2, h.symm⟩
        · simp at h
      · simp at h

/-- Behind the double colon. -/
theorem pton6_split_sound {as : Buf} (has : as.length % 2 = 0) (src : CStr) :
    ∀ (B : List CStr) (bs : List Buf) (cur : CStr) (n : Nat) (st' : Pton6) (v : Buf), AllRel Ip6Group B bs → Numeral 16 cur n →
    cur.length ≤ 4 → (B ≠ [] → cur ++ src ≠ []) → (as ++ bs.flatten).length ≤ 16 →
    pton6Loop (cur ++ src) src ⟨as ++ bs.flatten, some as.length, cur.length, n⟩ = some st' →
    pton6Finish st' = some v →
    ∃ b, Ip6Tail (colonEach B ++ cur ++ src) b ∧ as.length + b.length ≤ 14 ∧
      v = as ++ zeros (16 - as.length - b.length) ++ b := by
  induction src with
  | nil =>
    intro B bs cur n st' v hB hn h4 hne hle hl hf
    simp only [pton6Loop, Option.some.injEq] at hl
    subst hl
    have hBl := ip6_flatten_length hB
    by_cases hc : cur = []
    · subst hc
      have hB0 : B = [] := Classical.byContradiction fun h => hne h rfl
      subst hB0
      cases hB
      obtain ⟨h1, h2⟩ := finish_split (b := []) (by simpa using hle) (by simpa using has) hf
      exact ⟨[], by simpa [colonEach, joinColon] using Ip6Tail.groups AllRel.nil, h1, h2⟩
    · have hl0 : cur.length ≠ 0 := by simpa using hc
      obtain ⟨h1, h2⟩ := finish_flush hl0 hf
      rw [List.append_assoc] at h2
      rw [List.length_append] at h1
      obtain ⟨h3, h5⟩ := finish_split (by simp [beBytes_length] at h1 ⊢; omega) (by simp [beBytes_length] at hBl ⊢; omega) h2
      refine ⟨bs.flatten ++ beBytes 2 n, ?_, h3, h5⟩
      have := Ip6Tail.groups (allRel_snoc hB (ip6Group_of hn hc h4))
      rw [joinColon_snoc] at this
      simpa using this
  | cons ch src ih =>
    intro B bs cur n st' v hB hn h4 hne hle hl hf
    have hBl := ip6_flatten_length hB
    rcases pton6_step hn h4 hl with ⟨n', hn', h4', hl'⟩ | ⟨_, _, h, _⟩ | ⟨rfl, hc, hs, ho, hl'⟩ | ⟨a, b, c, d, ha, hb, hc, hd, he, ho, rfl⟩
    · obtain ⟨b, h1, h2, h3⟩ := ih B bs _ n' st' v hB hn' h4' (by simp) hle hl' hf
      exact ⟨b, by simpa using h1, h2, h3⟩
    · simp at h
    · have := ih (B ++ [cur]) (bs ++ [beBytes 2 n]) [] 0 st' v (allRel_snoc hB (ip6Group_of hn hc h4)) Numeral.nil (by simp)
        (by simpa using hs) (by simp [beBytes_length] at ho ⊢; omega) (by simpa using hl') hf
      obtain ⟨b, h1, h2, h3⟩ := this
      rw [colonEach_snoc] at h1
      exact ⟨b, by simpa using h1, h2, h3⟩
    · rw [List.append_assoc] at hf
      rw [List.length_append] at ho
      obtain ⟨h1, h2⟩ := finish_split (by simp at ho ⊢; omega) (by simp at hBl ⊢; omega) hf
      refine ⟨_, ?_, h1, h2⟩
      have := Ip6Tail.quad hB ha hb hc hd
      rw [joinColon_snoc] at this
      rw [List.append_assoc, he]
      exact this

/-- Before a double colon. -/
theorem pton6_plain_sound (src : CStr) :
    ∀ (A : List CStr) (as : List Buf) (cur : CStr) (n : Nat) (st' : Pton6) (v : Buf), AllRel Ip6Group A as → Numeral 16 cur n →
    cur.length ≤ 4 → (A ≠ [] → cur ++ src ≠ []) → (A = [] → cur = [] → src.head? ≠ some ch!":") → as.flatten.length ≤ 16 →
    pton6Loop (cur ++ src) src ⟨as.flatten, none, cur.length, n⟩ = some st' →
    pton6Finish st' = some v → Ip6Text (colonEach A ++ cur ++ src) v := by
  induction src with
  | nil =>
    intro A as cur n st' v hA hn h4 hne hst hle hl hf
    simp only [pton6Loop, Option.some.injEq] at hl
    subst hl
    by_cases hc : cur = []
    · subst hc
      have hA0 : A = [] := Classical.byContradiction fun h => hne h rfl
      subst hA0
      cases hA
      have := (finish_plain hf).1
      simp at this
    · have hl0 : cur.length ≠ 0 := by simpa using hc
      obtain ⟨h1, h2⟩ := finish_flush hl0 hf
      obtain ⟨h3, rfl⟩ := finish_plain h2
      have := Ip6Tail.groups (allRel_snoc hA (ip6Group_of hn hc h4))
      rw [joinColon_snoc] at this
      exact Ip6Text.full (by simpa using this) h3
  | cons ch src ih =>
    intro A as cur n st' v hA hn h4 hne hst hle hl hf
    have hAl := ip6_flatten_length hA
    rcases pton6_step hn h4 hl with ⟨n', hn', h4', hl'⟩ | ⟨rfl, rfl, _, hl'⟩ | ⟨rfl, hc, hs, ho, hl'⟩ | ⟨a, b, c, d, ha, hb, hc, hd, he, ho, rfl⟩
    · have := ih A as _ n' st' v hA hn' h4' (by simp) (by simp) hle hl' hf
      simpa using this
    · have hA0 : A ≠ [] := by
        intro h
        exact hst h rfl rfl
      have := pton6_split_sound (as := as.flatten) (by omega) src [] [] [] 0 st' v AllRel.nil Numeral.nil (by simp) (by simp)
        (by simpa using hle) (by simpa using hl') hf
      obtain ⟨b, h1, h2, rfl⟩ := this
      have := Ip6Text.split hA h1 h2
      have e : joinColon A ++ c!"::" = colonEach A ++ c!":" := by
        rw [← joinColon_colon hA0]
        simp
      rw [e] at this
      simpa [colonEach] using this
    · have := ih (A ++ [cur]) (as ++ [beBytes 2 n]) [] 0 st' v (allRel_snoc hA (ip6Group_of hn hc h4)) Numeral.nil (by simp)
        (by simpa using hs) (by simp) (by simp [beBytes_length] at ho ⊢; omega) (by simpa using hl') hf
      rw [colonEach_snoc] at this
      simpa using this
    · obtain ⟨h3, rfl⟩ := finish_plain hf
      have := Ip6Tail.quad hA ha hb hc hd
      rw [joinColon_snoc] at this
      rw [List.append_assoc, he]
      exact Ip6Text.full this h3

theorem inetPton6_sound {s : CStr} {v : Buf} (h : inetPton6 s = some v) : Ip6Text s v := by
  unfold inetPton6 at h
  split at h
  · simp at h
  · rename_i src hst
    split at h
    · simp at h
    · rename_i st hl
      unfold pton6Start at hst
      split at hst
      · simp at hst
      · rename_i c cs
        split at hst
        · rename_i hc
          split at hst
          · simp at hst
          · rename_i d ds
            split at hst
            · rename_i hd
              simp only [Option.some.injEq] at hst
              subst hst
              subst hc
              subst hd
              rw [pton6_colon_split] at hl
              have := pton6_split_sound (as := []) (by simp) ds [] [] [] 0 st v AllRel.nil Numeral.nil (by simp) (by simp) (by simp) hl h
              obtain ⟨b, h1, h2, rfl⟩ := this
              have := Ip6Text.split AllRel.nil h1 h2
              simpa [joinColon, colonEach] using this
            · simp at hst
        · rename_i hc
          simp only [Option.some.injEq] at hst
          subst hst
          have := pton6_plain_sound (c :: cs) [] [] [] 0 st v AllRel.nil Numeral.nil (by simp) (by simp) (by simpa using hc) (by simp) hl h
          simpa [colonEach] using this

/-! ## Every address is accepted -/

theorem pton6_each {A : List CStr} {gs : List Buf} (h : AllRel Ip6Group A gs) : ∀ (ct t : CStr) (out : List Byte)
    (cp : Option Nat), t ≠ [] → out.length + 2 * gs.length ≤ 16 →
    pton6Loop ct (colonEach A ++ t) ⟨out, cp, 0, 0⟩ = pton6Loop (if A = [] then ct else t) t ⟨out ++ gs.flatten, cp, 0, 0⟩ := by
  induction h with
  | nil => intro ct t out cp ht hl; simp [colonEach]
  | @cons s g A gs hs hA ih =>
    intro ct t out cp ht hl
    obtain ⟨n, hn, h1, h4, rfl⟩ := id hs
    simp only [List.length_cons] at hl
    simp only [colonEach]
    rw [List.append_assoc, List.append_assoc, pton6_numeral hn h4, List.singleton_append,
      pton6_colon_group _ _ _ _ _ _ (by omega) (by simp [ht]) (by omega), ih _ _ _ _ ht (by simp [beBytes_length]; omega)]
    by_cases hA0 : A = []
    · simp [hA0, colonEach]
    · simp [hA0]

theorem octetText_numeral {n : Nat} (h : n < 256) : (octetText n).length ≤ 3 ∧ ∃ m, Numeral 16 (octetText n) m := by
  have dig : ∀ d, d < 10 → Digit (BitVec.ofNat 8 (48 + d)) d := fun d hd => Digit.dec d hd
  unfold octetText
  split
  · exact ⟨by simp, _, numeral_single' (dig n (by omega)) (by omega)⟩
  · split
    · exact ⟨by simp, _, Numeral.snoc _ _ _ _ (numeral_single' (base := 16) (dig (n / 10) (by omega)) (by omega))
        (dig (n % 10) (by omega)) (by omega)⟩
    · exact ⟨by simp, _, Numeral.snoc _ _ _ _ (Numeral.snoc _ _ _ _ (numeral_single' (base := 16) (dig (n / 100) (by omega)) (by omega))
        (dig (n / 10 % 10) (by omega)) (by omega)) (dig (n % 10) (by omega)) (by omega)⟩
where
  numeral_single' {base : Nat} {c : Byte} {d : Nat} (hc : Digit c d) (hd : d < base) : Numeral base [c] (0 * base + d) :=
    Numeral.snoc [] 0 c d Numeral.nil hc hd

theorem pton6_quad {a b c d : Nat} (ha : a < 256) (hb : b < 256) (hc : c < 256) (hd : d < 256) (out : Buf) (cp : Option Nat)
    (ho : out.length + 4 ≤ 16) : ∃ n, pton6Loop (quadText a b c d) (quadText a b c d) ⟨out, cp, 0, 0⟩ =
      some ⟨out ++ [BitVec.ofNat 8 a, BitVec.ofNat 8 b, BitVec.ofNat 8 c, BitVec.ofNat 8 d], cp, 0, n⟩ := by
  obtain ⟨h3, m, hm⟩ := octetText_numeral ha
  refine ⟨m, ?_⟩
  have hq : quadText a b c d = octetText a ++ ch!"." :: (octetText b ++ c!"." ++ octetText c ++ c!"." ++ octetText d) := by
    simp [quadText]
  have : ∀ ct, pton6Loop ct (quadText a b c d) ⟨out, cp, 0, 0⟩ =
      pton6Loop ct (ch!"." :: (octetText b ++ c!"." ++ octetText c ++ c!"." ++ octetText d)) ⟨out, cp, (octetText a).length, m⟩ := by
    intro ct
    rw [hq]
    exact pton6_numeral hm (by omega) _ _ _ _
  rw [this, pton6Loop]
  have h1 : hexDigit ch!"." = none := by decide
  have h2 : (ch!"." : Byte) ≠ ch!":" := by decide
  rw [h1]
  simp only [h2, if_false, true_and, ho, if_true]
  rw [inetPton4_quad a b c d ha hb hc hd]

theorem octetText_head {a : Nat} (h : a < 256) : ∃ c t, octetText a = c :: t ∧ c ≠ ch!":" := by
  have hd : ∀ d, d < 10 → (BitVec.ofNat 8 (48 + d) : Byte) ≠ ch!":" := by decide
  unfold octetText
  split
  · exact ⟨_, _, rfl, hd _ (by omega)⟩
  · split
    · exact ⟨_, _, rfl, hd _ (by omega)⟩
    · exact ⟨_, _, rfl, hd _ (by omega)⟩

theorem pton6Start_of_head {s : CStr} {c : Byte} {t : CStr} (h : s = c :: t) (hc : c ≠ ch!":") : pton6Start s = some s := by
  subst h
  simp [pton6Start, hc]

/-- The first character of groups. -/
theorem colonEach_head {A : List CStr} {gs : List Buf} (hA : AllRel Ip6Group A gs) (hne : A ≠ []) (t : CStr) :
    ∃ c u, colonEach A ++ t = c :: u ∧ c ≠ ch!":" := by
  cases hA with
  | nil => exact absurd rfl hne
  | cons hs _ =>
    obtain ⟨c, u, rfl, hc⟩ := first_not_colon hs
    exact ⟨c, _, by simp [colonEach]; rfl, hc⟩

theorem inetPton6_complete {s : CStr} {v : Buf} (h : Ip6Text s v) : inetPton6 s = some v := by
  cases h with
  | full ht h16 =>
    cases ht with
    | groups hA =>
      have := ip6_flatten_length hA
      exact inetPton6_full hA (by omega)
    | @quad A gs a b c d hA ha hb hc hd =>
      have hl := ip6_flatten_length hA
      simp at h16 hl
      rw [joinColon_snoc]
      have hq : quadText a b c d ≠ [] := by simp [quadText]
      have hA0 : A ≠ [] := by
        intro h
        subst h
        cases hA
        simp at h16
      obtain ⟨c0, u, hcu, hc0⟩ := colonEach_head hA hA0 (quadText a b c d)
      unfold inetPton6
      rw [pton6Start_of_head hcu hc0]
      simp only
      rw [pton6_each hA _ _ _ _ hq (by simp; omega), if_neg hA0]
      obtain ⟨n, hn⟩ := pton6_quad ha hb hc hd ([] ++ gs.flatten) none (by simp; omega)
      rw [hn]
      simp [pton6Finish]
      omega
  | @split A gs t b hA ht hl =>
    have hAl := ip6_flatten_length hA
    cases ht with
    | @groups B bs hB =>
      have hBl := ip6_flatten_length hB
      rw [inetPton6_split hA hB (by omega), hAl, hBl]
    | @quad B bs a b c d hB ha hb hc hd =>
      have hBl := ip6_flatten_length hB
      simp at hl hAl hBl
      rw [joinColon_snoc]
      have hq : quadText a b c d ≠ [] := by simp [quadText]
      have tail : ∀ ct, ct = colonEach B ++ quadText a b c d → ∃ st, pton6Loop ct (colonEach B ++ quadText a b c d)
          ⟨gs.flatten, some gs.flatten.length, 0, 0⟩ = some st ∧
          pton6Finish st = some (gs.flatten ++ zeros (16 - gs.flatten.length -
            (bs.flatten ++ [BitVec.ofNat 8 a, BitVec.ofNat 8 b, BitVec.ofNat 8 c, BitVec.ofNat 8 d]).length) ++
            (bs.flatten ++ [BitVec.ofNat 8 a, BitVec.ofNat 8 b, BitVec.ofNat 8 c, BitVec.ofNat 8 d])) := by
        intro ct hct
        rw [pton6_each hB _ _ _ _ hq (by simp; omega)]
        have e : (if B = [] then ct else quadText a b c d) = quadText a b c d := by
          split
          · rename_i h
            rw [hct, h]
            rfl
          · rfl
        rw [e]
        obtain ⟨n, hn⟩ := pton6_quad ha hb hc hd (gs.flatten ++ bs.flatten) (some gs.flatten.length) (by simp; omega)
        refine ⟨_, hn, ?_⟩
        unfold pton6Finish
        simp only [gt_iff_lt, Nat.lt_irrefl, if_false]
        rw [List.append_assoc, if_neg (by simp; omega), List.take_left', List.drop_left']
        · simp only [List.length_append, zeros, Nat.sub_sub]
        · rfl
        · rfl
      by_cases hA0 : A = []
      · subst hA0
        cases hA
        unfold inetPton6
        simp only [joinColon, List.nil_append, List.cons_append, pton6Start, if_true]
        rw [pton6_colon_split]
        obtain ⟨st, h1, h2⟩ := tail _ rfl
        simp only [List.flatten_nil, List.length_nil] at h1 h2
        simp only [List.length_nil]
        rw [h1]
        simpa using h2
      · have e : joinColon A ++ c!"::" ++ (colonEach B ++ quadText a b c d) =
            colonEach A ++ ch!":" :: (colonEach B ++ quadText a b c d) := by
          rw [← joinColon_colon hA0]
          simp
        rw [e]
        obtain ⟨c0, u, hcu, hc0⟩ := colonEach_head hA hA0 (ch!":" :: (colonEach B ++ quadText a b c d))
        unfold inetPton6
        rw [pton6Start_of_head hcu hc0]
        simp only
        rw [pton6_each hA _ _ _ _ (by simp) (by simp; omega), List.nil_append, pton6_colon_split]
        obtain ⟨st, h1, h2⟩ := tail _ rfl
        rw [h1]
        exact h2

end Ef
