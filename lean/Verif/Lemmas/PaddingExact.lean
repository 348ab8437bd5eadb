import Verif.Lemmas.Padding
import Verif.Spec.Padding

/-! # A `padding` header behind a header that announces its successor -/

namespace Ef

open Spec Props

theorem zeroField_eq (h : Hdr) (n : CStr) (k : Nat) :
    { h with fields := zeroField n k h.fields } = setVal h n (some (List.replicate k 0#8)) := by
  unfold setVal updField
  congr 1
  induction h.fields with
  | nil => rfl
  | cons g gs ih =>
    unfold zeroField updFirst
    by_cases hg : g.name = n
    · simp [hg]
    · simp [hg, ih]

/-- Templates and what they announce. -/
theorem announce_et : ∀ t ∈ hdrTmpls, t.fill = .etherType →
    announcement t.name = some (c!"et", 2) ∧ (findField t c!"et").isSome = true := by decide +kernel

theorem announce_proto : ∀ t ∈ hdrTmpls, t.fill = .ipv4 →
    announcement t.name = some (c!"proto", 1) ∧ (findField t c!"proto").isSome = true := by decide +kernel

theorem announce_next : ∀ t ∈ hdrTmpls, t.fill = .ipv6 →
    announcement t.name = some (c!"next", 1) ∧ (findField t c!"next").isSome = true := by decide +kernel

theorem announce_none : ∀ t ∈ hdrTmpls, t.fill ≠ .etherType → t.fill ≠ .ipv4 → t.fill ≠ .ipv6 →
    announcement t.name = none := by decide +kernel

theorem announce_shape {B : Nat} {t t' : Hdr} (ht : t ∈ hdrTmpls) (hv : Variant B t t') :
    (t'.fill = .etherType ∨ t'.fill = .ipv4 ∨ t'.fill = .ipv6 → t' = t) ∧
    (t'.fill ≠ .etherType → t'.fill ≠ .ipv4 → t'.fill ≠ .ipv6 → announcement t'.name = none) := by
  cases hv with
  | same => exact ⟨fun _ => rfl, announce_none t ht⟩
  | coap k _ => exact ⟨fun h => by simp [coapShape] at h, fun _ _ _ => (by decide +kernel : announcement HDR_COAP.name = none)⟩
  | pnet k _ => exact ⟨fun h => by simp [pnetShape] at h, fun _ _ _ => (by decide +kernel : announcement HDR_PNET_RTC.name = none)⟩
  | opt k m _ _ _ =>
    exact ⟨fun h => by simp [optShape] at h, fun _ _ _ => (by decide +kernel : announcement HDR_COAP_OPTIONS.name = none)⟩
  | parms k _ =>
    exact ⟨fun h => by simp [parmsShape] at h, fun _ _ _ => (by decide +kernel : announcement HDR_COAP_PARMS.name = none)⟩
  | data k _ => exact ⟨fun h => by simp [dataShape] at h, fun _ _ _ => (by decide +kernel : announcement HDR_PAYLOAD.name = none)⟩

/-- A header with one of the three default computations and its announcement. -/
theorem announce_inst {x : Hdr} (hx : IsInst x) :
    (x.fill = .etherType → announcement x.name = some (c!"et", 2) ∧ ∃ g, findField x c!"et" = some g ∧ g.val = given x c!"et") ∧
    (x.fill = .ipv4 → announcement x.name = some (c!"proto", 1) ∧ ∃ g, findField x c!"proto" = some g ∧ g.val = given x c!"proto") ∧
    (x.fill = .ipv6 → announcement x.name = some (c!"next", 1) ∧ ∃ g, findField x c!"next" = some g ∧ g.val = given x c!"next") ∧
    (x.fill ≠ .etherType → x.fill ≠ .ipv4 → x.fill ≠ .ipv6 → announcement x.name = none) := by
  obtain ⟨t, ht, t', hv, hi, _⟩ := hx
  obtain ⟨s1, s2⟩ := announce_shape ht hv
  have a1 := announce_et t ht
  have a2 := announce_proto t ht
  have a3 := announce_next t ht
  rw [hi.fill, hi.name]
  have look : ∀ n, (findField t' n).isSome = true → ∃ g, findField x n = some g ∧ g.val = given x n := by
    intro n hn
    obtain ⟨ft, hft⟩ := Option.isSome_iff_exists.mp hn
    obtain ⟨g, _, h2, _, h4⟩ := hi.getField hft
    exact ⟨g, h2, h4⟩
  refine ⟨fun h => ?_, fun h => ?_, fun h => ?_, s2⟩
  · have e := s1 (.inl h)
    rw [e] at h ⊢
    exact ⟨(a1 h).1, look _ (by rw [e]; exact (a1 h).2)⟩
  · have e := s1 (.inr (.inl h))
    rw [e] at h ⊢
    exact ⟨(a2 h).1, look _ (by rw [e]; exact (a2 h).2)⟩
  · have e := s1 (.inr (.inr h))
    rw [e] at h ⊢
    exact ⟨(a3 h).1, look _ (by rw [e]; exact (a3 h).2)⟩

theorem announceZero_none {x : Hdr} (h : announcement x.name = none) : announceZero x = x := by
  unfold announceZero
  rw [h]

theorem announceZero_some {x : Hdr} {n : CStr} {k : Nat} (h : announcement x.name = some (n, k)) :
    announceZero x = if given x n = none then setVal x n (some (List.replicate k 0#8)) else x := by
  unfold announceZero
  rw [h]
  simp only
  rw [zeroField_eq]

theorem zero2 : parseBytes (decStr HDR_PADDING.type) 2 = .ok (some (List.replicate 2 0#8)) := by decide +kernel

theorem zero1 : parseBytes (decStr HDR_PADDING.type) 1 = .ok (some (List.replicate 1 0#8)) := by decide +kernel

/-- The value is there after it was set. -/
theorem getField_set {x : Hdr} {n : CStr} {g : Field} (hg : findField x n = some g) (v : Buf) :
    ∃ g', getField (setVal x n (some v)) n = .ok g' ∧ g'.val.isSome = true := by
  unfold getField
  rw [findField_setVal hg]
  exact ⟨_, rfl, rfl⟩

/-- The last header before `padding` is filled as if it announced 0. -/
theorem pad_fillHdr_last {below : List Hdr} {x : Hdr} (hx : IsInst x) :
    fillHdr below x [HDR_PADDING] = fillHdr below (announceZero x) [] := by
  obtain ⟨a1, a2, a3, a4⟩ := announce_inst hx
  have quiet : announceZero x = x → Quiet x → fillHdr below x [HDR_PADDING] = fillHdr below (announceZero x) [] := by
    intro e hq
    rw [e]
    exact pad_fillHdr (hs := []) (.inr hq)
  by_cases h1 : x.fill = .etherType
  · obtain ⟨e, g, g1, g2⟩ := a1 h1
    have ez := announceZero_some e
    by_cases hg : given x c!"et" = none
    · rw [if_pos hg] at ez
      rw [ez]
      have hf : (setVal x c!"et" (some (List.replicate 2 0#8))).fill = .etherType := h1
      unfold fillHdr
      rw [h1, hf]
      simp only
      unfold fillEtherType
      obtain ⟨g', e1, e2⟩ := getField_set g1 (List.replicate 2 0#8)
      rw [e1, Out.ok_bind, if_pos e2]
      unfold getField
      rw [g1]
      simp only [Out.ok_bind]
      rw [g2, hg]
      simp only [Option.isSome_none, Bool.false_eq_true, if_false]
      rw [zero2]
      rfl
    · rw [if_neg hg] at ez
      exact quiet ez ⟨fun _ => hg, fun h => (by rw [h1] at h; cases h), fun h => (by rw [h1] at h; cases h)⟩
  by_cases h2 : x.fill = .ipv4
  · obtain ⟨e, g, g1, g2⟩ := a2 h2
    have ez := announceZero_some e
    by_cases hg : given x c!"proto" = none
    · rw [if_pos hg] at ez
      rw [ez]
      have hf : (setVal x c!"proto" (some (List.replicate 1 0#8))).fill = .ipv4 := h2
      unfold fillHdr
      rw [h2, hf]
      simp only
      unfold fillIpv4
      have l1 : fillIpv4Proto x [HDR_PADDING] = .ok (setVal x c!"proto" (some (List.replicate 1 0#8))) := by
        unfold fillIpv4Proto getField
        rw [g1]
        simp only [Out.ok_bind]
        rw [g2, hg]
        simp only [Option.isSome_none, Bool.false_eq_true, if_false, nextProto]
        rw [zero1]
        rfl
      have l2 : fillIpv4Proto (setVal x c!"proto" (some (List.replicate 1 0#8))) [] =
          .ok (setVal x c!"proto" (some (List.replicate 1 0#8))) := by
        unfold fillIpv4Proto
        obtain ⟨g', e1, e2⟩ := getField_set g1 (List.replicate 1 0#8)
        rw [e1, Out.ok_bind, if_pos e2]
      rw [l1, l2, Out.ok_bind, Out.ok_bind]
      have : ∀ y, fillIpv4Len y [HDR_PADDING] = fillIpv4Len y [] := by
        intro y
        simp only [fillIpv4Len]
        rw [show [HDR_PADDING] = [] ++ [HDR_PADDING] from rfl, pad_sum']
      rw [this]
    · rw [if_neg hg] at ez
      exact quiet ez ⟨fun h => (by rw [h2] at h; cases h), fun _ => hg, fun h => (by rw [h2] at h; cases h)⟩
  by_cases h3 : x.fill = .ipv6
  · obtain ⟨e, g, g1, g2⟩ := a3 h3
    have ez := announceZero_some e
    by_cases hg : given x c!"next" = none
    · rw [if_pos hg] at ez
      rw [ez]
      have hf : (setVal x c!"next" (some (List.replicate 1 0#8))).fill = .ipv6 := h3
      unfold fillHdr
      rw [h3, hf]
      simp only
      unfold fillIpv6
      have l1 : fillIpv6Next x [HDR_PADDING] = .ok (setVal x c!"next" (some (List.replicate 1 0#8))) := by
        unfold fillIpv6Next getField
        rw [g1]
        simp only [Out.ok_bind]
        rw [g2, hg]
        simp only [Option.isSome_none, Bool.false_eq_true, if_false, nextProto]
        rw [zero1]
        rfl
      have l2 : fillIpv6Next (setVal x c!"next" (some (List.replicate 1 0#8))) [] =
          .ok (setVal x c!"next" (some (List.replicate 1 0#8))) := by
        unfold fillIpv6Next
        obtain ⟨g', e1, e2⟩ := getField_set g1 (List.replicate 1 0#8)
        rw [e1, Out.ok_bind, if_pos e2]
      rw [l1, l2, Out.ok_bind, Out.ok_bind]
      simp only [fillIpv6Len]
      rw [show [HDR_PADDING] = [] ++ [HDR_PADDING] from rfl, pad_sum]
    · rw [if_neg hg] at ez
      exact quiet ez ⟨fun h => (by rw [h3] at h; cases h), fun h => (by rw [h3] at h; cases h), fun _ => hg⟩
  · exact quiet (announceZero_none (a4 h1 h2 h3)) ⟨fun h => absurd h h1, fun h => absurd h h2, fun h => absurd h h3⟩

/-- The whole stack with `padding` at its end. -/
theorem pad_fillStack_exact {hs : List Hdr} (hx : ∀ x ∈ hs, IsInst x) (below : List Hdr) :
    fillStack below (hs ++ [HDR_PADDING]) = (fillStack below (zeroLast hs) >>= fun hs' => .ok (hs' ++ [HDR_PADDING])) := by
  induction hs generalizing below with
  | nil => rfl
  | cons x hs ih =>
    cases hs with
    | nil =>
      simp only [List.cons_append, List.nil_append, zeroLast, fillStack]
      have e : ∀ b, fillHdr b HDR_PADDING [] = .ok HDR_PADDING := fun b => rfl
      rw [Out.ok_bind, e, Out.ok_bind, Out.ok_bind, Out.ok_bind, pad_fillHdr_last (hx x (by simp)), bind_assoc]
      rfl
    | cons y ys =>
      have e1 : zeroLast (x :: y :: ys) = x :: zeroLast (y :: ys) := rfl
      rw [e1, List.cons_append]
      unfold fillStack
      rw [ih (fun z hz => hx z (by simp [hz])) (below ++ [x])]
      cases hr : fillStack (below ++ [x]) (zeroLast (y :: ys)) with
      | ok hs1 =>
        rw [Out.ok_bind, Out.ok_bind, Out.ok_bind]
        have hne : hs1 ≠ [] := by
          rintro rfl
          have hz : ∃ z zs, zeroLast (y :: ys) = z :: zs := by
            cases ys with
            | nil => exact ⟨_, _, rfl⟩
            | cons a as => exact ⟨_, _, rfl⟩
          obtain ⟨z, zs, hz⟩ := hz
          rw [hz] at hr
          unfold fillStack at hr
          rw [Out.bind_eq_ok] at hr; obtain ⟨_, _, hr⟩ := hr
          rw [Out.bind_eq_ok] at hr; obtain ⟨_, _, hr⟩ := hr
          cases hr
        rw [pad_fillHdr (.inl hne), bind_assoc]
        rfl
      | ub u => rfl
      | abort => rfl
      | exit c => rfl

end Ef
