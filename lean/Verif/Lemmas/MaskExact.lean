import Verif.Lemmas.FillStack
import Verif.Lemmas.Built
import Verif.Spec.Compared

/-! # The mask of an arbitrary frame -/

namespace Ef

open Spec

/-- No field is wider than its header. -/
def Narrow (h : Hdr) : Prop :=
  (h.size = 0 ∧ ∀ g ∈ h.fields, g.width = 0 ∧ g.offset = 0) ∨ (0 < h.size ∧ ∀ g ∈ h.fields, g.width ≤ 8 * h.size ∧ g.width < 2 ^ 60)

theorem bitSet_one {v : Buf} (n i : Nat) (hv : v = List.replicate (bitToByte n) 0xff#8) (hi : i < n) :
    bit v (8 * v.length - n + i) = true := by
  subst hv
  rw [bit_ones, List.length_replicate, decide_eq_true_eq]
  unfold bitToByte
  omega

theorem writeField_mask (b : Buf) (offset : Nat) (g : Field) (hw : g.width < 2 ^ 60) :
    (g.offset + 8 * offset + g.width ≤ 8 * b.length →
      ∃ b', writeField b offset g (List.replicate (bitToByte g.width) 0xff#8) = .ok b' ∧ b'.length = b.length ∧
        ∀ i, bit b' i = (bit b i || decide (8 * offset + g.offset ≤ i ∧ i < 8 * offset + g.offset + g.width))) ∧
    (¬ g.offset + 8 * offset + g.width ≤ 8 * b.length →
      writeField b offset g (List.replicate (bitToByte g.width) 0xff#8) = .abort) := by
  constructor
  · intro h
    obtain ⟨b', e, l, k⟩ := writeField_ok b offset g (List.replicate (bitToByte g.width) 0xff#8) h
      (by simp only [List.length_replicate]; unfold bitToByte; omega)
      (by simp only [List.length_replicate]; unfold bitToByte; omega)
    refine ⟨b', e, l, fun i => ?_⟩
    rw [k i]
    by_cases hc : g.offset + 8 * offset ≤ i ∧ i < g.offset + 8 * offset + g.width
    · rw [if_pos hc, bitSet_one g.width _ rfl (by omega)]
      have : decide (8 * offset + g.offset ≤ i ∧ i < 8 * offset + g.offset + g.width) = true := by
        rw [decide_eq_true_eq]; omega
      rw [this, Bool.or_true]
    · rw [if_neg hc]
      have : decide (8 * offset + g.offset ≤ i ∧ i < 8 * offset + g.offset + g.width) = false := by
        rw [decide_eq_false_iff_not]; omega
      rw [this, Bool.or_false]
  · intro h
    unfold writeField
    rw [if_neg (by omega)]

/-- The positions of the compared fields of one header. -/
def comparedH (offset : Nat) (fs : List Field) : List (Nat × Nat) :=
  (fs.filter (fun g => !g.rxSkip)).map (fun g => (8 * offset + g.offset, g.width))

theorem copyFields_mask (offset : Nat) (fs : List Field) : ∀ b : Buf,
    (∀ g ∈ fs, bitToByte g.width + offset ≤ b.length ∧ g.width < 2 ^ 60) →
    ((∀ p ∈ comparedH offset fs, p.1 + p.2 ≤ 8 * b.length) →
      ∃ b', copyFields true offset fs b = .ok b' ∧ b'.length = b.length ∧
        ∀ i, bit b' i = (bit b i || (comparedH offset fs).any (fun p => decide (p.1 ≤ i ∧ i < p.1 + p.2)))) ∧
    (¬ (∀ p ∈ comparedH offset fs, p.1 + p.2 ≤ 8 * b.length) → copyFields true offset fs b = .abort) := by
  induction fs with
  | nil =>
    intro b _
    exact ⟨fun _ => ⟨b, rfl, rfl, fun i => by simp [comparedH]⟩, fun h => absurd (by simp [comparedH]) h⟩
  | cons g fs ih =>
    intro b hw
    obtain ⟨w1, w2⟩ := hw g (by simp)
    have hws : ∀ x ∈ fs, bitToByte x.width + offset ≤ b.length ∧ x.width < 2 ^ 60 := fun x hx => hw x (by simp [hx])
    unfold copyFields
    rw [if_neg (by omega)]
    cases hs : g.rxSkip with
    | true =>
      have e1 : copyValue true g = none := by simp [copyValue, hs]
      have e2 : comparedH offset (g :: fs) = comparedH offset fs := by simp [comparedH, hs]
      rw [e1, e2]
      exact ih b hws
    | false =>
      have e1 : copyValue true g = some (List.replicate (bitToByte g.width) 0xff#8) := by simp [copyValue, hs]
      have e2 : comparedH offset (g :: fs) = (8 * offset + g.offset, g.width) :: comparedH offset fs := by
        simp [comparedH, hs]
      rw [e1, e2]
      simp only [List.mem_cons, forall_eq_or_imp]
      obtain ⟨k1, k2⟩ := writeField_mask b offset g w2
      by_cases hin : g.offset + 8 * offset + g.width ≤ 8 * b.length
      · obtain ⟨b1, q1, q2, q3⟩ := k1 hin
        rw [q1, Out.ok_bind]
        obtain ⟨i1, i2⟩ := ih b1 (by rw [q2]; exact hws)
        rw [q2] at i1 i2
        constructor
        · rintro ⟨_, h2⟩
          obtain ⟨b', r1, r2, r3⟩ := i1 h2
          refine ⟨b', r1, r2, fun i => ?_⟩
          rw [r3 i, q3 i, List.any_cons, Bool.or_assoc]
        · intro h
          exact i2 fun h2 => h ⟨by omega, h2⟩
      · rw [k2 hin]
        exact ⟨fun h => absurd h.1 (by omega), fun _ => rfl⟩

theorem copyHdr_mask (start : Nat) (h : Hdr) (b : Buf) (hn : Narrow h) (hl : start + h.size ≤ b.length) :
    ((∀ p ∈ comparedH start h.fields, p.1 + p.2 ≤ 8 * b.length) →
      ∃ b', copyFields true start h.fields b = .ok b' ∧ b'.length = b.length ∧
        ∀ i, bit b' i = (bit b i || (comparedH start h.fields).any (fun p => decide (p.1 ≤ i ∧ i < p.1 + p.2)))) ∧
    (¬ (∀ p ∈ comparedH start h.fields, p.1 + p.2 ≤ 8 * b.length) → copyFields true start h.fields b = .abort) := by
  rcases hn with ⟨h1, h2⟩ | ⟨h1, h2⟩
  · have hp : ∀ p ∈ comparedH start h.fields, p = (8 * start, 0) := by
      intro p hp
      obtain ⟨g, hg, rfl⟩ := List.mem_map.mp hp
      obtain ⟨q1, q2⟩ := h2 g (List.mem_filter.mp hg).1
      rw [q1, q2]; rfl
    constructor
    · intro _
      refine ⟨b, copyFields_empty true _ _ _ (by omega) h2, rfl, fun i => ?_⟩
      have : (comparedH start h.fields).any (fun p => decide (p.1 ≤ i ∧ i < p.1 + p.2)) = false := by
        rw [List.any_eq_false]
        intro p hm
        rw [hp p hm]
        simp only [decide_eq_true_eq]
        omega
      rw [this, Bool.or_false]
    · intro h3
      refine absurd (fun p hm => ?_) h3
      rw [hp p hm]
      simp only
      omega
  · exact copyFields_mask start h.fields b (fun g hg => by
      obtain ⟨n1, n2⟩ := h2 g hg
      refine ⟨?_, n2⟩
      unfold bitToByte; omega)

theorem copyHdrs_mask (hs : List Hdr) : ∀ (start : Nat) (b : Buf), (∀ h ∈ hs, Narrow h) →
    start + sumSizes hs ≤ b.length →
    ((∀ p ∈ comparedFields start hs, p.1 + p.2 ≤ 8 * b.length) →
      ∃ b', copyHdrs true hs start b = .ok b' ∧ b'.length = b.length ∧
        ∀ i, bit b' i = (bit b i || (comparedFields start hs).any (fun p => decide (p.1 ≤ i ∧ i < p.1 + p.2)))) ∧
    (¬ (∀ p ∈ comparedFields start hs, p.1 + p.2 ≤ 8 * b.length) → copyHdrs true hs start b = .abort) := by
  induction hs with
  | nil =>
    intro start b _ _
    exact ⟨fun _ => ⟨b, rfl, rfl, fun i => by simp [comparedFields]⟩, fun h => absurd (by simp [comparedFields]) h⟩
  | cons h hs ih =>
    intro start b hn hl
    simp only [sumSizes] at hl
    have e2 : comparedFields start (h :: hs) = comparedH start h.fields ++ comparedFields (start + h.size) hs := rfl
    rw [e2]
    unfold copyHdrs copyHdr
    obtain ⟨k1, k2⟩ := copyHdr_mask start h b (hn h (by simp)) (by omega)
    simp only [List.mem_append]
    by_cases hin : ∀ p ∈ comparedH start h.fields, p.1 + p.2 ≤ 8 * b.length
    · obtain ⟨b1, q1, q2, q3⟩ := k1 hin
      rw [q1, Out.ok_bind]
      obtain ⟨i1, i2⟩ := ih (start + h.size) b1 (fun x hx => hn x (by simp [hx])) (by omega)
      rw [q2] at i1 i2
      constructor
      · intro h2
        obtain ⟨b', r1, r2, r3⟩ := i1 fun p hp => h2 p (Or.inr hp)
        refine ⟨b', r1, r2, fun i => ?_⟩
        rw [r3 i, q3 i, List.any_append, Bool.or_assoc]
      · intro h2
        exact i2 fun h3 => h2 fun p hp => hp.elim (hin p) (h3 p)
    · rw [k2 hin]
      exact ⟨fun h2 => absurd (fun p hp => h2 p (Or.inl hp)) hin, fun _ => rfl⟩

/-! ## Frames of the command line -/

theorem Spec.HdrFitsMask.narrow {h : Hdr} (hf : HdrFitsMask h) : Narrow h := by
  rcases hf with h | ⟨h1, h2⟩
  · exact Or.inl h
  · exact Or.inr ⟨h1, fun g hg => ⟨(h2 g hg).1, (h2 g hg).2.2⟩⟩

theorem Inst.narrow {t h : Hdr} (hi : Inst t h) (ht : 0 < t.size ∧ ∀ f ∈ t.fields, f.width ≤ 8 * t.size ∧ f.width < 2 ^ 20) : Narrow h := by
  refine Or.inr ⟨by rw [hi.size]; exact ht.1, fun g hg => ?_⟩
  obtain ⟨ft, hm, hr⟩ := allRel_right hi.fields g hg
  rw [hr.width, hi.size]
  have := ht.2 ft hm
  omega

theorem igmp_narrow : ∀ q r : Bool, 0 < (igmpShape q r).size ∧ ∀ f ∈ (igmpShape q r).fields, f.width ≤ 8 * (igmpShape q r).size ∧ f.width < 2 ^ 20 := by
  decide +kernel

theorem mld_narrow : ∀ q r : Bool, 0 < (mldShape q r).size ∧ ∀ f ∈ (mldShape q r).fields, f.width ≤ 8 * (mldShape q r).size ∧ f.width < 2 ^ 20 := by
  decide +kernel

theorem sv_narrow : 0 < svShort.size ∧ ∀ f ∈ svShort.fields, f.width ≤ 8 * svShort.size ∧ f.width < 2 ^ 20 := by decide +kernel

theorem fillHdr_narrow {below above : List Hdr} {x y : Hdr} (hb : ∀ y ∈ below, IsInst y) (ha : Goods above) (hx : IsInst x)
    (h : fillHdr below x above = .ok y) : Narrow y := by
  have hg := inst_good hx
  by_cases h1 : x.fill = .udpTcp ∨ x.fill = .icmp ∨ x.fill = .igmp ∨ x.fill = .mld ∨ x.fill = .sv
  · unfold fillHdr at h
    rcases h1 with hf | hf | hf | hf | hf
    · rw [hf] at h
      simp only at h
      unfold fillUdpTcp at h
      rw [Out.bind_eq_ok] at h
      obtain ⟨x1, h2, h3⟩ := h
      obtain ⟨t, g1, g2, g3, g4⟩ := inst_of_fill hx (by rw [hf]; decide)
      have g5 := (fill_names t g1).2.2.2.2.2.2 (by rw [g2, hf])
      have hw : ∀ ft, findField t c!"len" = some ft → ft.width = 16 := by
        have : ∀ t, t = HDR_UDP ∨ t = HDR_TCP → ∀ ft, findField t c!"len" = some ft → ft.width = 16 := by
          rintro t (rfl | rfl)
          · intro ft hft; exact width_of hft (by decide +kernel)
          · intro ft hft
            have : findField HDR_TCP c!"len" = none := by decide +kernel
            rw [this] at hft; cases hft
        exact this t g5
      obtain ⟨e, ei⟩ := fillUdpLen_eq g3 hw hg.small above ha
      rw [h2] at e
      cases e
      obtain ⟨fc, hfc⟩ := look t c!"chksum" (by rcases g5 with rfl | rfl <;> decide +kernel)
      have wfc : fc.width = 16 := width_of hfc (by rcases g5 with rfl | rfl <;> decide +kernel)
      rcases fillUdpChksum_rel h3 with rfl | ⟨hc, v, hv, rfl⟩
      · exact (ei.hdrFitsMask (tmpls_fit t g1)).narrow
      · exact ((ei.setChk hfc wfc hv).hdrFitsMask (tmpls_fit t g1)).narrow
    · rw [hf] at h
      simp only at h
      obtain ⟨h3, _⟩ := tmpl_of_fill hx .icmp HDR_ICMP hf (by decide) (by decide +kernel)
      obtain ⟨fc, hfc⟩ := look HDR_ICMP c!"chksum" (by decide +kernel)
      have wfc : fc.width = 16 := width_of hfc (by decide +kernel)
      have hfit : ∀ v : Option Buf, (∀ w, v = some w → w.length = 2) → Narrow (setVal x c!"chksum" v) :=
        fun v hv => ((h3.setChk hfc wfc hv).hdrFitsMask icmp_tfits).narrow
      rcases fillIcmp_rel h with ⟨rfl, _⟩ | ⟨hc, v, hv, ⟨_, rfl⟩ | ⟨_, rfl⟩⟩
      · exact (inst_fits hx).2.narrow
      · exact hfit v hv
      · exact hfit v hv
    · rw [hf] at h
      simp only at h
      obtain ⟨h3, h4⟩ := tmpl_of_fill hx .igmp HDR_IGMP hf (by decide) (by decide +kernel)
      obtain ⟨a1, a2, a3⟩ := igmpAdj_inst h3
      unfold fillIgmp at h
      have : (adjustQuery x >>= fun h => adjustReportIgmp h >>= fun h => fillIgmpChksum h above) =
          ((adjustQuery x >>= adjustReportIgmp) >>= fun h => fillIgmpChksum h above) := by rw [bind_assoc]
      rw [this, a1, Out.ok_bind] at h
      rcases fillIgmpChksum_rel h with rfl | ⟨hc, v, hv, rfl⟩
      · exact a2.narrow (igmp_narrow _ _)
      · obtain ⟨fc, hfc, wfc⟩ := Option.map_eq_some_iff.mp (chk_look (queryGiven x) (reportGiven x))
        exact (a2.setChk hfc wfc hv).narrow (igmp_narrow _ _)
    · rw [hf] at h
      simp only at h
      obtain ⟨h3, h4⟩ := tmpl_of_fill hx .mld HDR_MLD hf (by decide) (by decide +kernel)
      obtain ⟨a1, a2, a3⟩ := mldAdj_inst h3
      unfold fillMld at h
      have : (adjustQuery x >>= fun h => adjustReportMld h >>= fun h => fillMldChksum below h above) =
          ((adjustQuery x >>= adjustReportMld) >>= fun h => fillMldChksum below h above) := by rw [bind_assoc]
      rw [this, a1, Out.ok_bind] at h
      rcases fillMldChksum_rel h with rfl | ⟨hc, v, hv, rfl⟩
      · exact a2.narrow (mld_narrow _ _)
      · have hchk : ∀ q r : Bool, (findField (mldShape q r) c!"chksum").map (·.width) = some 16 := by decide +kernel
        obtain ⟨fc, hfc, wfc⟩ := Option.map_eq_some_iff.mp (hchk (queryGiven x) (reportGiven x))
        exact (a2.setChk hfc wfc hv).narrow (mld_narrow _ _)
    · rw [hf] at h
      simp only at h
      obtain ⟨h3, h4⟩ := tmpl_of_fill hx .sv HDR_SV hf (by decide) (by decide +kernel)
      rw [fillSv_eq h3] at h
      cases h
      unfold svFilled
      split
      · exact (inst_fits hx).2.narrow
      · have hi' : Inst svShort (zeroWidths { x with size := u32Sub x.size 8 } tlv2Fields) := by
          unfold svShort
          exact (h3.resize 8).zeroWidths (by decide +kernel) tlv2Fields
        exact hi'.narrow sv_narrow
  · simp only [not_or] at h1
    rcases fillHdr_good hb ha hx (fun hw => by
        rcases hw with hw | hw | hw | hw
        · exact absurd hw h1.1
        · exact absurd hw h1.2.1
        · exact absurd hw h1.2.2.1
        · exact absurd hw h1.2.2.2.1) (tame_of_fill hx h1.2.2.2.2 h1.2.2.2.1) with ⟨z, e1, e2⟩ | ⟨e1, _⟩
    · rw [h] at e1
      cases e1
      have key : ∀ t ∈ hdrTmpls, (t.name = c!"sv" → t.fill = .sv) ∧ (t.name = c!"mld" → t.fill = .mld) ∧
        (t.name = c!"igmp" → t.fill = .igmp) := by decide +kernel
      obtain ⟨t, ht, t', hv, hi, _⟩ := hx
      have hfi := hi.fill
      have hn := hi.name
      refine (e2.mask ?_ ?_ ?_).narrow
      all_goals
        intro e
        rw [hn] at e
        cases hv with
        | same => first
          | exact h1.2.2.1 (hfi.trans ((key t ht).2.2 e))
          | exact h1.2.2.2.1 (hfi.trans ((key t ht).2.1 e))
          | exact h1.2.2.2.2 (hfi.trans ((key t ht).1 e))
        | coap => simp [coapShape] at e
        | pnet => simp [pnetShape] at e
        | opt => simp [optShape] at e
        | parms => simp [parmsShape] at e
        | data => simp [dataShape] at e
    · rw [h] at e1; simp at e1

theorem fillStack_narrow {below hs hs' : List Hdr} (hb : ∀ y ∈ below, IsInst y) (hx : ∀ x ∈ hs, IsInst x) (hl : hs.length ≤ 1000)
    (h : fillStack below hs = .ok hs') : ∀ y ∈ hs', Narrow y := by
  induction hs generalizing below hs' with
  | nil =>
    simp only [fillStack, Out.ok.injEq] at h
    subst h
    simp
  | cons x hs ih =>
    have hx0 := hx x (by simp)
    have hb' : ∀ y ∈ below ++ [x], IsInst y := by
      intro y hy
      rcases List.mem_append.mp hy with h | h
      · exact hb y h
      · rw [List.mem_singleton] at h; subst h; exact hx0
    simp only [List.length_cons] at hl
    unfold fillStack at h
    rw [Out.bind_eq_ok] at h
    obtain ⟨hs1, h1, h⟩ := h
    rw [Out.bind_eq_ok] at h
    obtain ⟨y, h2, h⟩ := h
    cases h
    have hxs : ∀ y ∈ hs, IsInst y := fun y hy => hx y (by simp [hy])
    obtain ⟨e2, _, _⟩ := fillStack_any hb' hxs (by omega) h1
    intro z hz
    rcases List.mem_cons.mp hz with rfl | hz
    · exact fillHdr_narrow hb e2 hx0 h2
    · exact ih hb' hxs (by omega) h1 z hz

end Ef
