import Verif.Lemmas.MaskExact
import Verif.Spec.Written

/-! # The bytes of an arbitrary frame -/

namespace Ef

open Spec

/-- No field is wider than its header or its value. -/
def Roomy (h : Hdr) : Prop :=
  (h.size = 0 ∧ ∀ g ∈ h.fields, g.width = 0 ∧ g.offset = 0) ∨
    (0 < h.size ∧ ∀ g ∈ h.fields, g.width ≤ 8 * h.size ∧
      ∀ v, fieldValue g = some v → g.width ≤ 8 * v.length ∧ 8 * v.length < 2 ^ 64)

/-- The written fields of one header. -/
def writtenH (offset : Nat) (fs : List Field) : List (Nat × Nat × Buf) :=
  fs.filterMap (fun g => (fieldValue g).map (fun v => (8 * offset + g.offset, g.width, v)))

theorem copyValue_false (g : Field) : copyValue false g = fieldValue g := by
  unfold copyValue fieldValue
  cases g.val <;> rfl

theorem writtenBit_cons (z : Bool) (p : Nat × Nat × Buf) (ps : List (Nat × Nat × Buf)) (i : Nat) :
    writtenBit z (p :: ps) i =
      writtenBit (if p.1 ≤ i ∧ i < p.1 + p.2.1 then bit p.2.2 (8 * p.2.2.length - p.2.1 + (i - p.1)) else z) ps i := rfl

theorem writtenBit_append (z : Bool) (ps qs : List (Nat × Nat × Buf)) (i : Nat) :
    writtenBit z (ps ++ qs) i = writtenBit (writtenBit z ps i) qs i := by
  unfold writtenBit
  rw [List.foldl_append]

theorem copyFields_written (offset : Nat) (fs : List Field) : ∀ b : Buf,
    (∀ g ∈ fs, bitToByte g.width + offset ≤ b.length ∧
      ∀ v, fieldValue g = some v → g.width ≤ 8 * v.length ∧ 8 * v.length < 2 ^ 64) →
    ((∀ p ∈ writtenH offset fs, p.1 + p.2.1 ≤ 8 * b.length) →
      ∃ b', copyFields false offset fs b = .ok b' ∧ b'.length = b.length ∧
        ∀ i, bit b' i = writtenBit (bit b i) (writtenH offset fs) i) ∧
    (¬ (∀ p ∈ writtenH offset fs, p.1 + p.2.1 ≤ 8 * b.length) → copyFields false offset fs b = .abort) := by
  induction fs with
  | nil =>
    intro b _
    exact ⟨fun _ => ⟨b, rfl, rfl, fun i => rfl⟩, fun h => absurd (by simp [writtenH]) h⟩
  | cons g fs ih =>
    intro b hw
    obtain ⟨w1, w2⟩ := hw g (by simp)
    have hws : ∀ x ∈ fs, bitToByte x.width + offset ≤ b.length ∧
      ∀ v, fieldValue x = some v → x.width ≤ 8 * v.length ∧ 8 * v.length < 2 ^ 64 := fun x hx => hw x (by simp [hx])
    unfold copyFields
    rw [if_neg (by omega), copyValue_false]
    cases hv : fieldValue g with
    | none =>
      have e2 : writtenH offset (g :: fs) = writtenH offset fs := by simp [writtenH, hv]
      rw [e2]
      exact ih b hws
    | some v =>
      have e2 : writtenH offset (g :: fs) = (8 * offset + g.offset, g.width, v) :: writtenH offset fs := by
        simp [writtenH, hv]
      rw [e2]
      simp only [List.mem_cons, forall_eq_or_imp]
      obtain ⟨v1, v2⟩ := w2 v hv
      by_cases hin : g.offset + 8 * offset + g.width ≤ 8 * b.length
      · obtain ⟨b1, q1, q2, q3⟩ := writeField_ok b offset g v hin v1 v2
        rw [q1, Out.ok_bind]
        obtain ⟨i1, i2⟩ := ih b1 (by rw [q2]; exact hws)
        rw [q2] at i1 i2
        constructor
        · rintro ⟨_, h2⟩
          obtain ⟨b', r1, r2, r3⟩ := i1 h2
          refine ⟨b', r1, r2, fun i => ?_⟩
          rw [r3 i, q3 i, writtenBit_cons, Nat.add_comm (8 * offset)]
        · intro h
          exact i2 fun h2 => h ⟨by omega, h2⟩
      · rw [writeField_abort b offset g v (by omega)]
        exact ⟨fun h => absurd h.1 (by omega), fun _ => rfl⟩

theorem copyHdr_written (start : Nat) (h : Hdr) (b : Buf) (hn : Roomy h) (hl : start + h.size ≤ b.length) :
    ((∀ p ∈ writtenH start h.fields, p.1 + p.2.1 ≤ 8 * b.length) →
      ∃ b', copyFields false start h.fields b = .ok b' ∧ b'.length = b.length ∧
        ∀ i, bit b' i = writtenBit (bit b i) (writtenH start h.fields) i) ∧
    (¬ (∀ p ∈ writtenH start h.fields, p.1 + p.2.1 ≤ 8 * b.length) → copyFields false start h.fields b = .abort) := by
  rcases hn with ⟨h1, h2⟩ | ⟨h1, h2⟩
  · have hp : ∀ p ∈ writtenH start h.fields, p.1 = 8 * start ∧ p.2.1 = 0 := by
      intro p hp
      obtain ⟨g, hg, e⟩ := List.mem_filterMap.mp hp
      obtain ⟨v, _, rfl⟩ := Option.map_eq_some_iff.mp e
      obtain ⟨q1, q2⟩ := h2 g hg
      simp only
      omega
    constructor
    · intro _
      refine ⟨b, copyFields_empty false _ _ _ (by omega) h2, rfl, fun i => ?_⟩
      generalize writtenH start h.fields = ps at hp
      generalize bit b i = z
      induction ps with
      | nil => rfl
      | cons p ps ih =>
        obtain ⟨p1, p2⟩ := hp p (by simp)
        rw [writtenBit_cons, if_neg (by omega)]
        exact ih (fun q hq => hp q (by simp [hq]))
    · intro h3
      refine absurd (fun p hm => ?_) h3
      obtain ⟨p1, p2⟩ := hp p hm
      omega
  · exact copyFields_written start h.fields b (fun g hg => by
      obtain ⟨n1, n2⟩ := h2 g hg
      refine ⟨?_, n2⟩
      unfold bitToByte; omega)

theorem copyHdrs_written (hs : List Hdr) : ∀ (start : Nat) (b : Buf), (∀ h ∈ hs, Roomy h) →
    start + sumSizes hs ≤ b.length →
    ((∀ p ∈ writtenFields start hs, p.1 + p.2.1 ≤ 8 * b.length) →
      ∃ b', copyHdrs false hs start b = .ok b' ∧ b'.length = b.length ∧
        ∀ i, bit b' i = writtenBit (bit b i) (writtenFields start hs) i) ∧
    (¬ (∀ p ∈ writtenFields start hs, p.1 + p.2.1 ≤ 8 * b.length) → copyHdrs false hs start b = .abort) := by
  induction hs with
  | nil =>
    intro start b _ _
    exact ⟨fun _ => ⟨b, rfl, rfl, fun i => rfl⟩, fun h => absurd (by simp [writtenFields]) h⟩
  | cons h hs ih =>
    intro start b hn hl
    simp only [sumSizes] at hl
    have e2 : writtenFields start (h :: hs) = writtenH start h.fields ++ writtenFields (start + h.size) hs := rfl
    rw [e2]
    unfold copyHdrs copyHdr
    obtain ⟨k1, k2⟩ := copyHdr_written start h b (hn h (by simp)) (by omega)
    simp only [List.mem_append]
    by_cases hin : ∀ p ∈ writtenH start h.fields, p.1 + p.2.1 ≤ 8 * b.length
    · obtain ⟨b1, q1, q2, q3⟩ := k1 hin
      rw [q1, Out.ok_bind]
      obtain ⟨i1, i2⟩ := ih (start + h.size) b1 (fun x hx => hn x (by simp [hx])) (by omega)
      rw [q2] at i1 i2
      constructor
      · intro h2
        obtain ⟨b', r1, r2, r3⟩ := i1 fun p hp => h2 p (Or.inr hp)
        refine ⟨b', r1, r2, fun i => ?_⟩
        rw [r3 i, q3 i, writtenBit_append]
      · intro h2
        exact i2 fun h3 => h2 fun p hp => hp.elim (hin p) (h3 p)
    · rw [k2 hin]
      exact ⟨fun h2 => absurd (fun p hp => h2 p (Or.inl hp)) hin, fun _ => rfl⟩

/-! ## Frames of the command line -/

theorem Spec.HdrFits.roomy {h : Hdr} (hf : HdrFits h) : Roomy h := by
  rcases hf with h | ⟨h1, h2⟩
  · exact Or.inl h
  · exact Or.inr ⟨h1, fun g hg => ⟨(h2 g hg).1, fun v hv => ((h2 g hg).2 v hv).2⟩⟩

theorem Inst.roomy {t h : Hdr} (hi : Inst t h) (ht : 0 < t.size ∧ ∀ f ∈ t.fields, f.width ≤ 8 * t.size ∧ f.width < 2 ^ 20)
    (hd : ∀ f ∈ t.fields, f.dflt.all (fun d => decide (f.width ≤ 8 * d.length ∧ d.length ≤ 128)) = true) : Roomy h := by
  refine Or.inr ⟨by rw [hi.size]; exact ht.1, fun g hg => ?_⟩
  obtain ⟨ft, hm, hr⟩ := allRel_right hi.fields g hg
  rw [hr.width, hi.size]
  have hw := ht.2 ft hm
  refine ⟨hw.1, fun v hv => ?_⟩
  unfold fieldValue at hv
  cases hfv : g.val with
  | some w =>
    rw [hfv] at hv
    cases hv
    have := hr.len v hfv
    omega
  | none =>
    rw [hfv] at hv
    simp only at hv
    rw [hr.dflt] at hv
    have := hd ft hm
    rw [hv] at this
    simp only [Option.all_some, decide_eq_true_eq] at this
    omega

theorem igmp_room : ∀ q r : Bool, ∀ f ∈ (igmpShape q r).fields,
    f.dflt.all (fun d => decide (f.width ≤ 8 * d.length ∧ d.length ≤ 128)) = true := by
  decide +kernel

theorem mld_room : ∀ q r : Bool, ∀ f ∈ (mldShape q r).fields,
    f.dflt.all (fun d => decide (f.width ≤ 8 * d.length ∧ d.length ≤ 128)) = true := by
  decide +kernel

theorem sv_room : ∀ f ∈ svShort.fields,
    f.dflt.all (fun d => decide (f.width ≤ 8 * d.length ∧ d.length ≤ 128)) = true := by decide +kernel

theorem fillHdr_roomy {below above : List Hdr} {x y : Hdr} (hb : ∀ y ∈ below, IsInst y) (ha : Goods above) (hx : IsInst x)
    (h : fillHdr below x above = .ok y) : Roomy y := by
  have hg := inst_good hx
  by_cases h1 : x.fill = .udpTcp ∨ x.fill = .icmp ∨ x.fill = .igmp ∨ x.fill = .mld ∨ x.fill = .sv
  · unfold fillHdr at h
    rcases h1 with hf | hf | hf | hf | hf
    · rw [hf] at h
      simp only at h
      unfold fillUdpTcp at h
      rw [Out.bind_eq_ok] at h
      obtain ⟨x1, h2, h3⟩ := h
      obtain ⟨t, g1, g2, g3, g4⟩ := inst_of_fill hx (by rw [hf]; decide)
      have g5 := (fill_names t g1).2.2.2.2.2.2 (by rw [g2, hf])
      have hw : ∀ ft, findField t c!"len" = some ft → ft.width = 16 := by
        have : ∀ t, t = HDR_UDP ∨ t = HDR_TCP → ∀ ft, findField t c!"len" = some ft → ft.width = 16 := by
          rintro t (rfl | rfl)
          · intro ft hft; exact width_of hft (by decide +kernel)
          · intro ft hft
            have : findField HDR_TCP c!"len" = none := by decide +kernel
            rw [this] at hft; cases hft
        exact this t g5
      obtain ⟨e, ei⟩ := fillUdpLen_eq g3 hw hg.small above ha
      rw [h2] at e
      cases e
      obtain ⟨fc, hfc⟩ := look t c!"chksum" (by rcases g5 with rfl | rfl <;> decide +kernel)
      have wfc : fc.width = 16 := width_of hfc (by rcases g5 with rfl | rfl <;> decide +kernel)
      rcases fillUdpChksum_rel h3 with rfl | ⟨hc, v, hv, rfl⟩
      · exact (ei.hdrFits (tmpls_fit t g1)).roomy
      · exact ((ei.setChk hfc wfc hv).hdrFits (tmpls_fit t g1)).roomy
    · rw [hf] at h
      simp only at h
      obtain ⟨h3, _⟩ := tmpl_of_fill hx .icmp HDR_ICMP hf (by decide) (by decide +kernel)
      obtain ⟨fc, hfc⟩ := look HDR_ICMP c!"chksum" (by decide +kernel)
      have wfc : fc.width = 16 := width_of hfc (by decide +kernel)
      have hfit : ∀ v : Option Buf, (∀ w, v = some w → w.length = 2) → Roomy (setVal x c!"chksum" v) :=
        fun v hv => ((h3.setChk hfc wfc hv).hdrFits icmp_tfits).roomy
      rcases fillIcmp_rel h with ⟨rfl, _⟩ | ⟨hc, v, hv, ⟨_, rfl⟩ | ⟨_, rfl⟩⟩
      · exact (inst_fits hx).1.roomy
      · exact hfit v hv
      · exact hfit v hv
    · rw [hf] at h
      simp only at h
      obtain ⟨h3, h4⟩ := tmpl_of_fill hx .igmp HDR_IGMP hf (by decide) (by decide +kernel)
      obtain ⟨a1, a2, a3⟩ := igmpAdj_inst h3
      unfold fillIgmp at h
      have : (adjustQuery x >>= fun h => adjustReportIgmp h >>= fun h => fillIgmpChksum h above) =
          ((adjustQuery x >>= adjustReportIgmp) >>= fun h => fillIgmpChksum h above) := by rw [bind_assoc]
      rw [this, a1, Out.ok_bind] at h
      rcases fillIgmpChksum_rel h with rfl | ⟨hc, v, hv, rfl⟩
      · exact a2.roomy (igmp_narrow _ _) (igmp_room _ _)
      · obtain ⟨fc, hfc, wfc⟩ := Option.map_eq_some_iff.mp (chk_look (queryGiven x) (reportGiven x))
        exact (a2.setChk hfc wfc hv).roomy (igmp_narrow _ _) (igmp_room _ _)
    · rw [hf] at h
      simp only at h
      obtain ⟨h3, h4⟩ := tmpl_of_fill hx .mld HDR_MLD hf (by decide) (by decide +kernel)
      obtain ⟨a1, a2, a3⟩ := mldAdj_inst h3
      unfold fillMld at h
      have : (adjustQuery x >>= fun h => adjustReportMld h >>= fun h => fillMldChksum below h above) =
          ((adjustQuery x >>= adjustReportMld) >>= fun h => fillMldChksum below h above) := by rw [bind_assoc]
      rw [this, a1, Out.ok_bind] at h
      rcases fillMldChksum_rel h with rfl | ⟨hc, v, hv, rfl⟩
      · exact a2.roomy (mld_narrow _ _) (mld_room _ _)
      · have hchk : ∀ q r : Bool, (findField (mldShape q r) c!"chksum").map (·.width) = some 16 := by decide +kernel
        obtain ⟨fc, hfc, wfc⟩ := Option.map_eq_some_iff.mp (hchk (queryGiven x) (reportGiven x))
        exact (a2.setChk hfc wfc hv).roomy (mld_narrow _ _) (mld_room _ _)
    · rw [hf] at h
      simp only at h
      obtain ⟨h3, h4⟩ := tmpl_of_fill hx .sv HDR_SV hf (by decide) (by decide +kernel)
      rw [fillSv_eq h3] at h
      cases h
      unfold svFilled
      split
      · exact (inst_fits hx).1.roomy
      · have hi' : Inst svShort (zeroWidths { x with size := u32Sub x.size 8 } tlv2Fields) := by
          unfold svShort
          exact (h3.resize 8).zeroWidths (by decide +kernel) tlv2Fields
        exact hi'.roomy sv_narrow sv_room
  · simp only [not_or] at h1
    rcases fillHdr_good hb ha hx (fun hw => by
        rcases hw with hw | hw | hw | hw
        · exact absurd hw h1.1
        · exact absurd hw h1.2.1
        · exact absurd hw h1.2.2.1
        · exact absurd hw h1.2.2.2.1) (tame_of_fill hx h1.2.2.2.2 h1.2.2.2.1) with ⟨z, e1, e2⟩ | ⟨e1, _⟩
    · rw [h] at e1
      cases e1
      exact e2.fits.roomy
    · rw [h] at e1; simp at e1

theorem fillStack_roomy {below hs hs' : List Hdr} (hb : ∀ y ∈ below, IsInst y) (hx : ∀ x ∈ hs, IsInst x) (hl : hs.length ≤ 1000)
    (h : fillStack below hs = .ok hs') : ∀ y ∈ hs', Roomy y := by
  induction hs generalizing below hs' with
  | nil =>
    simp only [fillStack, Out.ok.injEq] at h
    subst h
    simp
  | cons x hs ih =>
    have hx0 := hx x (by simp)
    have hb' : ∀ y ∈ below ++ [x], IsInst y := by
      intro y hy
      rcases List.mem_append.mp hy with h | h
      · exact hb y h
      · rw [List.mem_singleton] at h; subst h; exact hx0
    simp only [List.length_cons] at hl
    unfold fillStack at h
    rw [Out.bind_eq_ok] at h
    obtain ⟨hs1, h1, h⟩ := h
    rw [Out.bind_eq_ok] at h
    obtain ⟨y, h2, h⟩ := h
    cases h
    have hxs : ∀ y ∈ hs, IsInst y := fun y hy => hx y (by simp [hy])
    obtain ⟨e2, _, _⟩ := fillStack_any hb' hxs (by omega) h1
    intro z hz
    rcases List.mem_cons.mp hz with rfl | hz
    · exact fillHdr_roomy hb e2 hx0 h2
    · exact ih hb' hxs (by omega) h1 z hz

end Ef
