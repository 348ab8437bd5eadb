import Verif.Spec.Value
import Verif.Lemmas.ParseSize

/-! # The language of the MAC address parser -/

namespace Ef

open Spec

/-- Each element followed by a colon. -/
def colonEach : List CStr → CStr
  | [] => []
  | s :: A => s ++ c!":" ++ colonEach A

theorem colonEach_snoc (A : List CStr) (s : CStr) : colonEach (A ++ [s]) = colonEach A ++ s ++ c!":" := by
  induction A with
  | nil => simp [colonEach]
  | cons a A ih => simp [colonEach, ih]

theorem joinColon_snoc (A : List CStr) (s : CStr) : joinColon (A ++ [s]) = colonEach A ++ s := by
  induction A with
  | nil => simp [colonEach, joinColon]
  | cons a A ih =>
    cases A with
    | nil => simp [colonEach, joinColon]
    | cons b A =>
      simp only [List.cons_append, joinColon, colonEach] at ih ⊢
      rw [ih]
      simp

theorem joinColon_colon {A : List CStr} (h : A ≠ []) : joinColon A ++ c!":" = colonEach A := by
  obtain ⟨A, s, rfl⟩ : ∃ B s, A = B ++ [s] := ⟨A.dropLast, A.getLast h, (List.dropLast_concat_getLast h).symm⟩
  rw [joinColon_snoc, colonEach_snoc]

theorem colonEach_eq_nil {A : List CStr} : colonEach A = [] ↔ A = [] := by
  cases A <;> simp [colonEach]

theorem allRel_snoc {α β : Type} {R : α → β → Prop} {as : List α} {bs : List β} (h : AllRel R as bs) {a : α} {b : β}
    (hab : R a b) : AllRel R (as ++ [a]) (bs ++ [b]) := by
  induction h with
  | nil => exact AllRel.cons hab AllRel.nil
  | cons hr _ ih => exact AllRel.cons hr ih

/-- The element being read: no character yet, or an element with its byte. -/
def MacCur (s : CStr) (b : Buf) : Prop := (s = [] ∧ b = []) ∨ ∃ x, MacElem s x ∧ b = [x]

/-- What the parser knows after the text `t`. -/
inductive MacRead : CStr → Mac → Prop
  | plain {p cur : CStr} {A : List CStr} {as cb : Buf} {cc : Nat} : Stray p → AllRel MacElem A as → MacCur cur cb →
      as.length + cb.length ≤ 6 → (cc = if cur ≠ [] then 0 else if p = [] ∧ A = [] then 0 else 1) →
      MacRead (p ++ colonEach A ++ cur)
        ⟨as ++ cb ++ zeros (6 - as.length - cb.length), as.length, 0, 0, cur.length, cc, as.length + cb.length⟩
  | split {p cur : CStr} {A B : List CStr} {as bs cb : Buf} {cc : Nat} : Stray p → (A = [] → p = []) → AllRel MacElem A as →
      AllRel MacElem B bs → MacCur cur cb → as.length + bs.length + cb.length ≤ 6 →
      (cc = if cur ≠ [] then 0 else if B = [] then 2 else 1) →
      MacRead (p ++ joinColon A ++ c!"::" ++ colonEach B ++ cur)
        ⟨as ++ bs ++ cb ++ zeros (6 - as.length - bs.length - cb.length), as.length + bs.length, as.length, 1, cur.length, cc,
          as.length + bs.length + cb.length⟩

theorem macCur_digit {cur : CStr} {cb : Buf} (h : MacCur cur cb) (hl : cur.length < 2) {c : Byte} {d : Nat} (hd : Digit c d) :
    ∃ x, MacElem (cur ++ [c]) x ∧ ((cur = [] ∧ cb = [] ∧ x = BitVec.ofNat 8 d) ∨
      (cur.length = 1 ∧ ∃ y, cb = [y] ∧ x = (y <<< 4) ||| BitVec.ofNat 8 d)) := by
  rcases h with ⟨rfl, rfl⟩ | ⟨y, ⟨n, hn, h1, h2, rfl⟩, rfl⟩
  · refine ⟨BitVec.ofNat 8 d, ⟨d, ?_, by simp, by simp, rfl⟩, Or.inl ⟨rfl, rfl, rfl⟩⟩
    have := Numeral.snoc (base := 16) [] 0 c d Numeral.nil hd (digit_lt hd)
    simpa using this
  · have h3 : cur.length = 1 := by omega
    obtain ⟨c1, rfl, hd1⟩ := numeral_one hn h3
    refine ⟨_, ⟨n * 16 + d, Numeral.snoc _ _ c d hn hd (digit_lt hd), by simp, by simp, rfl⟩, Or.inr ⟨h3, _, rfl, ?_⟩⟩
    have := pair_byte n (digit_lt hd1) d (digit_lt hd)
    simp only [BitVec.zero_or] at this
    rw [this, Nat.mul_comm]

theorem macCur_len {cur : CStr} {cb : Buf} (h : MacCur cur cb) : cb.length ≤ 1 ∧ cur.length ≤ 2 ∧ (cur = [] ↔ cb = []) := by
  rcases h with ⟨rfl, rfl⟩ | ⟨y, ⟨n, hn, h1, h2, rfl⟩, rfl⟩
  · simp
  · simp
    refine ⟨h2, ?_⟩
    intro e
    simp [e] at h1

/-- The array after one more digit. -/
theorem macCur_modify {cur : CStr} {cb : Buf} (h : MacCur cur cb) (hl : cur.length < 2) {c : Byte} {d : Nat} (hd : Digit c d)
    (pre : Buf) (k : Nat) (hk : pre.length ≤ 5) (hk2 : k = 6 - pre.length) :
    ∃ x, MacElem (cur ++ [c]) x ∧
      (pre ++ cb ++ zeros (k - cb.length)).modify pre.length (fun b => (b <<< 4) ||| BitVec.ofNat 8 d) =
        pre ++ [x] ++ zeros (k - 1) ∧
      (if cur.length + 1 = 1 then pre.length + cb.length + 1 else pre.length + cb.length) = pre.length + 1 := by
  obtain ⟨x, hx, h1⟩ := macCur_digit h hl hd
  refine ⟨x, hx, ?_⟩
  rcases h1 with ⟨rfl, rfl, rfl⟩ | ⟨h1, y, rfl, rfl⟩
  · obtain ⟨j, rfl⟩ : ∃ j, k = j + 1 := ⟨k - 1, by omega⟩
    have : pre ++ [] ++ zeros (j + 1 - ([] : Buf).length) = pre ++ 0#8 :: zeros j := by
      simp [zeros, List.replicate_succ]
    rw [this, modify_at]
    simp
  · have : pre ++ [y] ++ zeros (k - [y].length) = pre ++ y :: zeros (k - 1) := by simp
    rw [this, modify_at]
    simp [h1]

theorem macRead_step {t : CStr} {st st' : Mac} {c : Byte} (h : MacRead t st) (hs : macStep st c = some st') :
    MacRead (t ++ [c]) st' := by
  unfold macStep at hs
  cases hv : hexVal c with
  | some v =>
    obtain ⟨d, hd, rfl⟩ := hexVal_digit hv
    rw [hv] at hs
    simp only at hs
    cases h with
    | @plain p cur A as cb cc hp hA hc hl hcc =>
      simp only at hs
      split at hs
      · simp at hs
      · split at hs
        · simp at hs
        · simp only [Option.some.injEq] at hs
          subst hs
          obtain ⟨x, hx, hm, he⟩ := macCur_modify hc (by omega) hd as (6 - as.length) (by omega) rfl
          have := MacRead.plain (cc := 0) hp hA (Or.inr ⟨x, hx, rfl⟩) (by simp; omega) (by simp)
          rw [hm, he]
          simpa [List.append_assoc] using this
    | @split p cur A B as bs cb cc hp hpA hA hB hc hl hcc =>
      simp only at hs
      split at hs
      · simp at hs
      · split at hs
        · simp at hs
        · simp only [Option.some.injEq] at hs
          subst hs
          obtain ⟨x, hx, hm, he⟩ := macCur_modify hc (by omega) hd (as ++ bs) (6 - as.length - bs.length) (by simp; omega)
            (by simp; omega)
          have := MacRead.split (cc := 0) hp hpA hA hB (Or.inr ⟨x, hx, rfl⟩) (by simp; omega) (by simp)
          simp only [List.length_append] at hm he
          rw [hm, he]
          simpa [List.append_assoc] using this
  | none =>
    rw [hv] at hs
    simp only at hs
    split at hs
    · rename_i hcol
      have hcol : c = ch!":" := by simpa [isColon] using hcol
      subst hcol
      split at hs
      · simp at hs
      · rename_i hidx
        cases h with
        | @plain p cur A as cb cc hp hA hc hl hcc =>
          simp only at hs hidx
          rcases hc with ⟨rfl, rfl⟩ | ⟨y, hy, rfl⟩
          · -- no element at the moment
            simp only [List.length_nil, ne_eq, not_true_eq_false, false_and, if_false] at hs hcc
            by_cases hpA : p = [] ∧ A = []
            · obtain ⟨rfl, rfl⟩ := hpA
              cases hA
              simp at hcc
              subst hcc
              simp at hs
              subst hs
              exact MacRead.plain (p := c!":") (A := []) (cur := []) (as := []) (cb := []) (Or.inr rfl) AllRel.nil
                (Or.inl ⟨rfl, rfl⟩) (by simp) (by simp)
            · rw [if_neg hpA] at hcc
              subst hcc
              simp at hs
              subst hs
              by_cases hAn : A = []
              · subst hAn
                cases hA
                have hp2 : p = c!":" := by
                  rcases hp with rfl | rfl
                  · simp at hpA
                  · rfl
                subst hp2
                exact MacRead.split (p := []) (A := []) (B := []) (cur := []) (as := []) (bs := []) (cb := []) (Or.inl rfl)
                  (by simp) AllRel.nil AllRel.nil (Or.inl ⟨rfl, rfl⟩) (by simp) (by simp)
              · have := MacRead.split (cc := 2) (p := p) (A := A) (B := []) (cur := []) (as := as) (bs := []) (cb := []) hp
                  (by simp [hAn]) hA AllRel.nil (Or.inl ⟨rfl, rfl⟩) (by simpa using hl) (by simp)
                have e := joinColon_colon hAn
                have e2 : joinColon A ++ c!"::" = colonEach A ++ c!":" := by
                  rw [← e]
                  simp
                simpa [colonEach, List.append_assoc, ← e] using this
          · -- the element ends
            obtain ⟨n, hn, h1, h2, rfl⟩ := id hy
            have hne : cur ≠ [] := by
              intro e
              simp [e] at h1
            have hl0 : cur.length ≠ 0 := by omega
            rw [if_pos hne] at hcc
            subst hcc
            simp [hl0] at hs
            subst hs
            have := MacRead.plain (cc := 1) (p := p) (cur := []) (A := A ++ [cur]) (cb := []) hp (allRel_snoc hA hy)
              (Or.inl ⟨rfl, rfl⟩) (by simpa using hl) (by simp)
            rw [colonEach_snoc] at this
            simpa [List.append_assoc, Nat.sub_sub] using this
        | @split p cur A B as bs cb cc hp hpA hA hB hc hl hcc =>
          simp only at hs hidx
          rcases hc with ⟨rfl, rfl⟩ | ⟨y, hy, rfl⟩
          · simp at hcc
            split at hcc
            · subst hcc
              simp at hs
            · subst hcc
              simp at hs
          · obtain ⟨n, hn, h1, h2, rfl⟩ := id hy
            have hne : cur ≠ [] := by
              intro e
              simp [e] at h1
            have hl0 : cur.length ≠ 0 := by omega
            rw [if_pos hne] at hcc
            subst hcc
            simp [hl0] at hs
            subst hs
            have := MacRead.split (cc := 1) (p := p) (cur := []) (A := A) (B := B ++ [cur]) (cb := []) hp hpA hA (allRel_snoc hB hy)
              (Or.inl ⟨rfl, rfl⟩) (by simp at hl ⊢; omega) (by simp)
            rw [colonEach_snoc] at this
            simpa [List.append_assoc, Nat.sub_sub, Nat.add_assoc] using this
    · simp at hs

theorem macRead_fold (s : CStr) : ∀ (t : CStr) (st st' : Mac), MacRead t st → s.foldlM macStep st = some st' → MacRead (t ++ s) st' := by
  induction s with
  | nil =>
    intro t st st' h hs
    simp at hs
    subst hs
    simpa using h
  | cons c s ih =>
    intro t st st' h hs
    rw [List.foldlM_cons, Option.bind_eq_bind, Option.bind_eq_some_iff] at hs
    obtain ⟨st1, h1, h2⟩ := hs
    have := ih (t ++ [c]) _ _ (macRead_step h h1) h2
    simpa using this

/-- Elements with a colon behind each but possibly the last. -/
theorem macCur_join {cur : CStr} {cb : Buf} {A : List CStr} {as : Buf} (hA : AllRel MacElem A as) (hc : MacCur cur cb) :
    ∃ A' q, AllRel MacElem A' (as ++ cb) ∧ Stray q ∧ (A' = [] → q = []) ∧ colonEach A ++ cur = joinColon A' ++ q := by
  rcases hc with ⟨rfl, rfl⟩ | ⟨y, hy, rfl⟩
  · by_cases hn : A = []
    · subst hn
      cases hA
      exact ⟨[], [], AllRel.nil, Or.inl rfl, by simp, by simp [colonEach, joinColon]⟩
    · refine ⟨A, c!":", by simpa using hA, Or.inr rfl, by simp [hn], ?_⟩
      rw [joinColon_colon hn]
      simp
  · refine ⟨A ++ [cur], [], allRel_snoc hA hy, Or.inl rfl, by simp, ?_⟩
    rw [joinColon_snoc]
    simp

theorem parseMac_sound {s : CStr} {v : Buf} (h : parseMac s = .ok (some v)) : MacText s v := by
  unfold parseMac at h
  split at h
  · simp at h
  · rename_i st hst
    have hr : MacRead s st := by
      have h0 : MacRead [] Mac.init := MacRead.plain (p := []) (cur := []) (A := []) (as := []) (cb := []) (Or.inl rfl) AllRel.nil
        (Or.inl ⟨rfl, rfl⟩) (by simp) (by simp)
      simpa using macRead_fold s [] _ _ h0 hst
    cases hr with
    | @plain p cur A as cb cc hp hA hc hl hcc =>
      obtain ⟨A', q, hA', hq, _, he⟩ := macCur_join hA hc
      rw [List.append_assoc, he, ← List.append_assoc]
      unfold macFinish at h
      simp only at h
      rw [if_neg (by omega), if_neg (by omega), if_neg (by omega), if_neg (by omega)] at h
      simp only [Out.ok.injEq, Option.some.injEq] at h
      have := mac_move [] (as ++ cb) (by simpa using hl)
      simp only [List.nil_append, List.length_nil, Nat.add_zero, Nat.zero_add, Nat.sub_zero, List.length_append] at this
      simp only [Nat.add_zero, Nat.sub_zero, Nat.sub_sub] at h
      rw [this] at h
      subst h
      have hlen := allRel_length hA'
      have := MacText.plain hp hq hA' (by rw [hlen]; simpa using hl)
      simpa using this
    | @split p cur A B as bs cb cc hp hpA hA hB hc hl hcc =>
      obtain ⟨B', q, hB', hq, hqB, he⟩ := macCur_join hB hc
      rw [List.append_assoc _ (colonEach B), he]
      unfold macFinish at h
      simp only at h
      split at h
      · simp at h
      · split at h
        · simp at h
        · split at h
          · simp at h
          · rename_i h6
            rw [if_neg (by omega)] at h
            simp only [Out.ok.injEq, Option.some.injEq] at h
            have := mac_move as (bs ++ cb) (by simp; omega)
            simp only [List.length_append] at this
            have e1 : as.length + bs.length + cb.length - as.length = bs.length + cb.length := by omega
            have e2 : 6 - (as.length + bs.length + cb.length) + as.length - as.length = 6 - (as.length + (bs.length + cb.length)) := by omega
            have e3 : 6 - as.length - bs.length - cb.length = 6 - as.length - (bs.length + cb.length) := by omega
            have e4 : as.length + bs.length + cb.length = as.length + (bs.length + cb.length) := by omega
            rw [e1, e2, e3, e4, List.append_assoc as bs cb, this] at h
            subst h
            have hlA := allRel_length hA
            have hlB := allRel_length hB'
            simp only [List.length_append] at hlB
            have := MacText.split hp hq hpA hqB hA hB' (by omega)
            simpa [List.append_assoc] using this

/-- An optional leading colon changes nothing but the colon count. -/
theorem mac_stray {p : CStr} (h : Stray p) : ∃ cc, (cc = 0 ∨ cc = 1) ∧ (p = [] → cc = 0) ∧
    p.foldlM macStep Mac.init = some { Mac.init with colCnt := cc } := by
  rcases h with rfl | rfl
  · exact ⟨0, Or.inl rfl, fun _ => rfl, rfl⟩
  · exact ⟨1, Or.inr rfl, by simp, by decide⟩

theorem mac_stray_end {q : CStr} (h : Stray q) (m : Buf) (idx sp sc vc ec : Nat) (hi : idx ≤ 5) :
    ∃ idx' vc' cc', q.foldlM macStep ⟨m, idx, sp, sc, vc, 0, ec⟩ = some ⟨m, idx', sp, sc, vc', cc', ec⟩ := by
  rcases h with rfl | rfl
  · exact ⟨idx, vc, 0, rfl⟩
  · refine ⟨if vc ≠ 0 then idx + 1 else idx, 0, 1, ?_⟩
    simp only [List.foldlM_cons, List.foldlM_nil]
    rw [macStep_colon_first _ _ _ _ _ _ hi]
    rfl

theorem parseMac_complete {s : CStr} {v : Buf} (h : MacText s v) : parseMac s = .ok (some v) := by
  cases h with
  | @plain p q A bs hp hq hA hl =>
    have hlen := allRel_length hA
    have hread : ∃ idx vc cc, (p ++ joinColon A ++ q).foldlM macStep Mac.init =
        some ⟨bs ++ zeros (6 - bs.length), idx, 0, 0, vc, cc, bs.length⟩ ∨
        (A = [] ∧ p = c!":" ∧ q = c!":") := by
      obtain ⟨cc, hcc, _, hst⟩ := mac_stray hp
      by_cases hn : A = []
      · subst hn
        cases hA
        rcases hp with rfl | rfl <;> rcases hq with rfl | rfl
        · exact ⟨0, 0, 0, Or.inl (by decide)⟩
        · exact ⟨0, 0, 1, Or.inl (by decide)⟩
        · exact ⟨0, 0, 1, Or.inl (by decide)⟩
        · exact ⟨0, 0, 0, Or.inr ⟨rfl, rfl, rfl⟩⟩
      · rw [List.foldlM_append, List.foldlM_append, hst]
        simp only [Option.bind_eq_bind, Option.bind_some]
        obtain ⟨vc, hvc, he⟩ := mac_join hA [] (zeros (6 - bs.length)) 0 0 cc 0 hn (by simp; omega)
        have hi : ({ Mac.init with colCnt := cc } : Mac) =
            ⟨[] ++ zeros bs.length ++ zeros (6 - bs.length), ([] : Buf).length, 0, 0, 0, cc, 0⟩ := by
          rw [List.nil_append, ← zeros_add, show bs.length + (6 - bs.length) = 6 by omega]
          rfl
        rw [hi, he]
        have hpos : 0 < bs.length := by
          rw [← hlen]
          exact List.length_pos_iff.mpr hn
        simp only [Option.bind_some]
        obtain ⟨idx', vc', cc', hq'⟩ := mac_stray_end hq ([] ++ bs ++ zeros (6 - bs.length)) (([] : Buf).length + bs.length - 1) 0 0 vc
          (0 + bs.length) (by simp; omega)
        rw [hq']
        exact ⟨idx', vc', cc', Or.inl (by simp)⟩
    obtain ⟨idx, vc, cc, hread⟩ := hread
    rcases hread with hread | ⟨rfl, rfl, rfl⟩
    · unfold parseMac
      rw [hread]
      simp only [macFinish]
      rw [if_neg (by omega), if_neg (by omega), if_neg (by omega), if_neg (by omega)]
      have := mac_move [] bs (by simp; omega)
      simp only [List.nil_append, List.length_nil, Nat.add_zero, Nat.zero_add, Nat.sub_zero] at this
      simp only [Nat.add_zero, Nat.sub_zero]
      rw [this]
    · cases hA
      decide
  | @split p q A B as bs hp hq hpA hqB hA hB hl =>
    have hlA := allRel_length hA
    have hlB := allRel_length hB
    have h1 : (p ++ joinColon A ++ c!"::").foldlM macStep Mac.init =
        some ⟨as ++ zeros (6 - as.length), as.length, as.length, 1, 0, 2, as.length⟩ := by
      obtain ⟨cc, hcc, hcc0, hst⟩ := mac_stray hp
      by_cases hne : A = []
      · have := hpA hne
        subst hne
        subst this
        cases hA
        rfl
      · rw [List.foldlM_append, List.foldlM_append, hst]
        obtain ⟨vc, hvc, he⟩ := mac_join hA [] (zeros (6 - as.length)) 0 0 cc 0 hne (by simp; omega)
        have hi : ({ Mac.init with colCnt := cc } : Mac) =
            ⟨[] ++ zeros as.length ++ zeros (6 - as.length), ([] : Buf).length, 0, 0, 0, cc, 0⟩ := by
          rw [List.nil_append, ← zeros_add, show as.length + (6 - as.length) = 6 by omega]
          rfl
        simp only [Option.bind_eq_bind, Option.bind_some]
        rw [hi, he]
        have hpos : 0 < as.length := by
          rw [← hlA]
          exact List.length_pos_iff.mpr hne
        simp only [Option.bind_some, List.foldlM_cons, List.foldlM_nil, Option.bind_eq_bind]
        rw [macStep_colon_first _ _ _ _ _ _ (by simp; omega)]
        simp only [hvc, ne_eq, not_false_eq_true, if_true, Option.bind_some]
        have e : ([] : Buf).length + as.length - 1 + 1 = as.length := by simp; omega
        rw [e, macStep_colon_second _ _ _ (by omega)]
        simp
    have h2 : ∃ idx vc cc, (p ++ joinColon A ++ c!"::" ++ joinColon B ++ q).foldlM macStep Mac.init =
        some ⟨as ++ bs ++ zeros (6 - as.length - bs.length), idx, as.length, 1, vc, cc, as.length + bs.length⟩ := by
      rw [List.foldlM_append, List.foldlM_append, h1]
      simp only [Option.bind_eq_bind, Option.bind_some]
      by_cases hne : B = []
      · have := hqB hne
        subst hne
        subst this
        cases hB
        exact ⟨as.length, 0, 2, by simp [joinColon]⟩
      · obtain ⟨vc, hvc, he⟩ := mac_join hB as (zeros (6 - as.length - bs.length)) as.length 1 2 as.length hne (by omega)
        have hz : as ++ zeros (6 - as.length) = as ++ zeros bs.length ++ zeros (6 - as.length - bs.length) := by
          rw [List.append_assoc, ← zeros_add, show bs.length + (6 - as.length - bs.length) = 6 - as.length by omega]
        rw [hz, he]
        simp only [Option.bind_some]
        obtain ⟨idx', vc', cc', hq'⟩ := mac_stray_end hq (as ++ bs ++ zeros (6 - as.length - bs.length)) (as.length + bs.length - 1)
          as.length 1 vc (as.length + bs.length) (by omega)
        exact ⟨idx', vc', cc', hq'⟩
    obtain ⟨idx, vc, cc, h2⟩ := h2
    unfold parseMac
    rw [h2]
    simp only [macFinish]
    rw [if_neg (by omega), if_neg (by omega), if_neg (by omega), if_neg (by omega)]
    have e1 : as.length + bs.length - as.length = bs.length := by omega
    have e2 : 6 - (as.length + bs.length) + as.length - as.length = 6 - (as.length + bs.length) := by omega
    rw [e1, e2, mac_move as bs (by omega)]

end Ef
