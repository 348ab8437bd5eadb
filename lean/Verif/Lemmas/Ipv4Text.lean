import Verif.Lemmas.Literals

/-! # Lemmas about dotted-quad addresses -/

namespace Ef

open Spec

/-- Initial state of the dotted-quad parser. -/
def pton4Init : Pton4 := { octets := 0, sawDigit := false, cur := 0, fin := [] }

theorem dchar_toNat (d : Nat) (h : d < 10) : (BitVec.ofNat 8 (48 + d)).toNat = 48 + d := by
  simp; omega

theorem pton4_digit (st : Pton4) (d : Nat) (h : d < 10) : pton4Step st (BitVec.ofNat 8 (48 + d)) =
    if st.sawDigit ∧ st.cur = 0 then none
    else if st.cur * 10 + d > 255 then none
    else if st.sawDigit then some { st with cur := st.cur * 10 + d }
    else if st.octets + 1 > 4 then none
    else some { st with cur := st.cur * 10 + d, octets := st.octets + 1, sawDigit := true } := by
  unfold pton4Step
  simp only [dchar_toNat d h]
  rw [if_pos (by omega), Nat.add_sub_cancel_left]

theorem pton4_octet (a k : Nat) (fin : List Nat) (ha : a < 256) (hk : k < 4) :
    (octetText a).foldlM pton4Step ⟨k, false, 0, fin⟩ = some ⟨k + 1, true, a, fin⟩ := by
  unfold octetText
  split
  · rename_i h
    simp only [List.foldlM_cons, List.foldlM_nil]
    rw [pton4_digit _ _ h]
    simp
    omega
  · split
    · rename_i h1 h2
      simp only [List.foldlM_cons, List.foldlM_nil]
      rw [pton4_digit _ _ (by omega)]
      simp
      rw [if_neg (by omega), if_neg (by omega)]
      simp
      rw [pton4_digit _ _ (by omega)]
      simp
      omega
    · rename_i h1 h2
      simp only [List.foldlM_cons, List.foldlM_nil]
      rw [pton4_digit _ _ (by omega)]
      simp
      rw [if_neg (by omega), if_neg (by omega)]
      simp
      rw [pton4_digit _ _ (by omega)]
      simp
      rw [if_neg (by omega), if_neg (by omega)]
      simp
      rw [pton4_digit _ _ (by omega)]
      simp
      omega

theorem pton4_dot (st : Pton4) (h : st.sawDigit = true) (h4 : st.octets ≠ 4) :
    pton4Step st ch!"." = some { st with fin := st.fin ++ [st.cur], cur := 0, sawDigit := false } := by
  unfold pton4Step
  simp [h, h4]

theorem inetPton4_quad (a b c d : Nat) (ha : a < 256) (hb : b < 256) (hc : c < 256) (hd : d < 256) :
    inetPton4 (quadText a b c d) = some [BitVec.ofNat 8 a, BitVec.ofNat 8 b, BitVec.ofNat 8 c, BitVec.ofNat 8 d] := by
  unfold inetPton4 quadText
  have key : (octetText a ++ c!"." ++ octetText b ++ c!"." ++ octetText c ++ c!"." ++ octetText d).foldlM pton4Step
      { octets := 0, sawDigit := false, cur := 0, fin := [] } = some ⟨4, true, d, [a, b, c]⟩ := by
    simp only [List.foldlM_append, pton4_octet a 0 [] ha (by decide), Option.bind_eq_bind, Option.bind_some,
      List.foldlM_cons, List.foldlM_nil]
    rw [pton4_dot _ rfl (by simp)]
    simp only [Option.bind_some, Option.pure_def, List.nil_append]
    rw [pton4_octet b _ _ hb (by decide)]
    simp only [Option.bind_some]
    rw [pton4_dot _ rfl (by simp)]
    simp only [Option.bind_some]
    rw [pton4_octet c _ _ hc (by decide)]
    simp only [Option.bind_some]
    rw [pton4_dot _ rfl (by simp)]
    simp only [Option.bind_some]
    rw [pton4_octet d _ _ hd (by decide)]
    rfl
  rw [key]
  simp

/-- The text read so far, reconstructed from the state of the dotted-quad parser. -/
structure Pton4Inv (p : CStr) (st : Pton4) : Prop where
  text : p = (st.fin.map (fun x => octetText x ++ c!".")).flatten ++ (if st.sawDigit then octetText st.cur else [])
  octets : st.octets = st.fin.length + (if st.sawDigit then 1 else 0)
  fin3 : st.fin.length ≤ 3
  cur : st.cur < 256
  fin : ∀ x ∈ st.fin, x < 256
  zero : st.sawDigit = false → st.cur = 0

theorem octetText_snoc (c d : Nat) (hc : c ≠ 0) (hd : d < 10) (hl : c * 10 + d ≤ 255) :
    octetText (c * 10 + d) = octetText c ++ [BitVec.ofNat 8 (48 + d)] := by
  unfold octetText
  by_cases h : c < 10
  · rw [if_neg (by omega), if_pos (by omega), if_pos h]
    simp only [List.singleton_append]
    have e1 : (c * 10 + d) / 10 = c := by omega
    have e2 : (c * 10 + d) % 10 = d := by omega
    rw [e1, e2]
  · rw [if_neg (by omega), if_neg (by omega), if_neg h, if_pos (by omega)]
    have e1 : (c * 10 + d) / 100 = c / 10 := by omega
    have e2 : (c * 10 + d) / 10 % 10 = c % 10 := by omega
    have e3 : (c * 10 + d) % 10 = d := by omega
    rw [e1, e2, e3]
    rfl

theorem pton4Inv_step {p : CStr} {st st' : Pton4} {ch : Byte} (hi : Pton4Inv p st) (h : pton4Step st ch = some st') :
    Pton4Inv (p ++ [ch]) st' := by
  by_cases hdig : 48 ≤ ch.toNat ∧ ch.toNat ≤ 57
  · obtain ⟨d, hd, rfl⟩ : ∃ d, d < 10 ∧ ch = BitVec.ofNat 8 (48 + d) := by
      refine ⟨ch.toNat - 48, by omega, ?_⟩
      apply BitVec.eq_of_toNat_eq
      simp
      omega
    rw [pton4_digit _ _ hd] at h
    split at h
    · simp at h
    · rename_i h0
      split at h
      · simp at h
      · rename_i h1
        split at h
        · rename_i hs
          simp only [Option.some.injEq] at h
          subst h
          refine ⟨?_, hi.octets, hi.fin3, by simp only; omega, hi.fin, ?_⟩
          · rw [hi.text]
            simp only [hs, if_true]
            rw [octetText_snoc _ _ (by intro hc; exact h0 ⟨hs, hc⟩) hd (by omega), List.append_assoc]
          · simp [hs]
        · rename_i hs
          split at h
          · simp at h
          · rename_i h4
            simp only [Option.some.injEq] at h
            subst h
            have hs' : st.sawDigit = false := by simpa using hs
            have hc0 := hi.zero hs'
            refine ⟨?_, ?_, hi.fin3, by simp only; omega, hi.fin, by simp⟩
            · rw [hi.text]
              simp only [hs', if_true]
              simp only [hc0, Nat.zero_mul, Nat.zero_add]
              unfold octetText
              rw [if_pos hd]
              simp
            · have := hi.octets
              simp only [hs'] at this
              simp at this ⊢
              omega
  · unfold pton4Step at h
    simp only at h
    rw [if_neg hdig] at h
    split at h
    · rename_i hdot
      split at h
      · simp at h
      · rename_i h4
        simp only [Option.some.injEq] at h
        subst h
        have hch : ch = ch!"." := by
          apply BitVec.eq_of_toNat_eq
          exact hdot.1
        have ho := hi.octets
        simp only [hdot.2, if_true] at ho
        have h4' := hi.fin3
        refine ⟨?_, ?_, ?_, by simp, ?_, by simp⟩
        · rw [hi.text, hch]
          simp [hdot.2]
        · simp; omega
        · simp
          omega
        · intro x hx
          simp only [List.mem_append, List.mem_singleton] at hx
          rcases hx with hx | rfl
          · exact hi.fin x hx
          · exact hi.cur
    · simp at h

theorem pton4Inv_fold (s : CStr) : ∀ (p : CStr) (st st' : Pton4), Pton4Inv p st → s.foldlM pton4Step st = some st' →
    Pton4Inv (p ++ s) st' := by
  induction s with
  | nil =>
    intro p st st' hi h
    simp at h
    subst h
    simpa using hi
  | cons c s ih =>
    intro p st st' hi h
    rw [List.foldlM_cons, Option.bind_eq_bind, Option.bind_eq_some_iff] at h
    obtain ⟨st1, h1, h2⟩ := h
    have := ih _ _ _ (pton4Inv_step hi h1) h2
    simpa using this

theorem inetPton4_sound {s : CStr} {v : Buf} (h : inetPton4 s = some v) :
    ∃ a b c d, a < 256 ∧ b < 256 ∧ c < 256 ∧ d < 256 ∧ s = quadText a b c d ∧
      v = [BitVec.ofNat 8 a, BitVec.ofNat 8 b, BitVec.ofNat 8 c, BitVec.ofNat 8 d] := by
  unfold inetPton4 at h
  split at h
  · simp at h
  · rename_i st hst
    split at h
    · simp at h
    · rename_i ho
      have hi := pton4Inv_fold s [] pton4Init st ⟨by simp [pton4Init], by simp [pton4Init], by simp [pton4Init],
        by simp [pton4Init], by simp [pton4Init], by simp [pton4Init]⟩ hst
      have hoc := hi.octets
      have h3 := hi.fin3
      have hs : st.sawDigit = true := by
        cases hsd : st.sawDigit with
        | true => rfl
        | false => rw [hsd] at hoc; simp at hoc; omega
      rw [hs] at hoc
      simp only [if_true] at hoc
      have hl : st.fin.length = 3 := by omega
      match hf : st.fin, hl with
      | [a, b, c], _ =>
        have hfin := hi.fin
        rw [hf] at hfin
        refine ⟨a, b, c, st.cur, hfin a (by simp), hfin b (by simp), hfin c (by simp), hi.cur, ?_, ?_⟩
        · have := hi.text
          rw [hf, hs] at this
          simp at this
          rw [this]
          simp [quadText]
        · simp only [Option.some.injEq] at h
          rw [← h, hf]
          rfl

end Ef
