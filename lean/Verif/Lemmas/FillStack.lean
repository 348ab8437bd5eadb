import Verif.Lemmas.FillRest
import Verif.Spec.Tame

/-! # The default computation on a whole stack -/

namespace Ef

open Spec

/-- What the default computation does not touch: names, explicit values (but the option number of `coap-opt`, which
is replaced by its encoding). -/
structure Keeps (x y : Hdr) : Prop where
  name : y.name = x.name
  given : ∀ n v, Spec.given x n = some v → ¬ (x.name = c!"coap-opt" ∧ n = c!"num") → Spec.given y n = some v

theorem Keeps.refl (x : Hdr) : Keeps x x := ⟨rfl, fun _ _ h _ => h⟩

theorem Keeps.trans {x y z : Hdr} (h1 : Keeps x y) (h2 : Keeps y z) : Keeps x z :=
  ⟨h2.name.trans h1.name, fun n v h hn => h2.given n v (h1.given n v h hn) (by rw [h1.name]; exact hn)⟩

theorem Keeps.setVal {x : Hdr} {n : CStr} (v : Option Buf) (h : Spec.given x n = none) : Keeps x (setVal x n v) := by
  refine ⟨rfl, fun m w hm _ => ?_⟩
  rw [given_setVal_other _ _ (by rintro rfl; rw [h] at hm; simp at hm)]
  exact hm

theorem Keeps.setDefault (x : Hdr) (n : CStr) (v : Option Buf) : Keeps x (setDefault x n v) := by
  unfold Ef.setDefault
  split
  · exact Keeps.refl x
  · rename_i h; exact Keeps.setVal v (by simpa using h)

theorem Keeps.setType (x : Hdr) (k : Nat) : Keeps x { x with type := k } := ⟨rfl, fun _ _ h _ => h⟩

theorem queryGiven_iff {x : Hdr} : queryGiven x = true ↔ Uses x queryNames := by
  unfold queryGiven Uses queryNames queryFields
  simp [Option.isSome_iff_ne_none]

theorem reportGiven_iff {x : Hdr} : reportGiven x = true ↔ Uses x reportNames := by
  unfold reportGiven Uses reportNames reportFields
  simp [Option.isSome_iff_ne_none]

/-! ## Names survive the moves -/

theorem zeroWidths_name (h : Hdr) (ns : List CStr) : (zeroWidths h ns).name = h.name ∧ (zeroWidths h ns).type = h.type := by
  induction ns generalizing h with
  | nil => exact ⟨rfl, rfl⟩
  | cons n ns ih => unfold zeroWidths; exact ih _

theorem igmpAdj_type (x : Hdr) : (igmpAdj x).type = x.type := by
  unfold igmpAdj shapeRI shapeQ
  split <;> split <;> simp [zeroWidths_name, updField]

theorem mldAdj_type (x : Hdr) : (mldAdj x).type = x.type := by
  unfold mldAdj shapeRM shapeQ
  split <;> split <;> simp [zeroWidths_name, updField]

theorem ptp_tmpls : ∀ t ∈ hdrTmpls, t.fill = .ptp → (findField t c!"hdr-messageLength").map (·.width) = some 16 := by
  decide +kernel

theorem tlv_tmpls : ∀ t ∈ hdrTmpls, t.fill = .ptpTlv →
    (findField t c!"tlv-length").map (·.width) = some 16 ∧ 4 ≤ t.size := by
  decide +kernel

theorem et_tmpls : ∀ t ∈ hdrTmpls, t.fill = .etherType → (findField t c!"et").map (·.width) = some 16 := by
  decide +kernel

theorem tmpl_of_fill {x : Hdr} (hx : IsInst x) (k : Fill) (T : Hdr) (hf : x.fill = k)
    (hk : k ≠ .coap ∧ k ≠ .coapOpt ∧ k ≠ .none) (hT : ∀ t ∈ hdrTmpls, t.fill = k → t = T) :
    Inst T x ∧ x.type = T.type := by
  obtain ⟨t, ht, h1, h2, h3⟩ := inst_of_fill hx (by rw [hf]; exact hk)
  rw [hf] at h1
  have := hT t ht h1
  subst this
  exact ⟨h2, h3⟩

/-! ## sv -/

theorem sv_table : 0 < (zeroWidths { HDR_SV with size := u32Sub HDR_SV.size 8 } tlv2Fields).size ∧
    (zeroWidths { HDR_SV with size := u32Sub HDR_SV.size 8 } tlv2Fields).size = 14 := by decide +kernel

/-- The `sv` header of 14 bytes. -/
def svShort : Hdr := zeroWidths { HDR_SV with size := u32Sub HDR_SV.size 8 } tlv2Fields

theorem svShort_table : 0 < svShort.size ∧ svShort.size = 14 ∧ (svShort.fields.map (·.name)).Nodup ∧
    ∀ ft ∈ svShort.fields, ft.width ≤ 8 * svShort.size ∧ ft.width ≤ 128 ∧
    (ft.offset + ft.width ≤ 8 * svShort.size ∨ (ft.dflt = none ∧ ft.name ∈ [c!"tlv0_type", c!"tlv0_len"])) ∧
      ft.dflt.all (fun d => decide (ft.width ≤ 8 * d.length ∧ d.length ≤ 128)) = true := by decide +kernel

/-- `sv` after the default computation. -/
def svFilled (x : Hdr) : Hdr :=
  if tlv2Fields.any (fun n => (given x n).isSome) then x
  else zeroWidths { x with size := u32Sub x.size 8 } tlv2Fields

theorem fillSv_eq {x : Hdr} (hi : Inst HDR_SV x) : fillSv x = .ok (svFilled x) := by
  unfold fillSv svFilled
  rw [anyVal_eq hi tlv2Fields (by decide +kernel), Out.ok_bind]
  by_cases h : tlv2Fields.any (fun n => (given x n).isSome) = true
  · rw [if_pos h, if_pos h]
  · rw [if_neg h, if_neg h]

theorem sv_fits {x : Hdr} (hi : Inst HDR_SV x) (hn : x.name = c!"sv") (ht : Tame x) :
    HdrFits (svFilled x) ∧ (svFilled x).size ≤ 22 := by
  unfold svFilled
  split
  · exact ⟨hi.hdrFits (tmpls_fit _ (by decide +kernel)), by rw [hi.size]; decide +kernel⟩
  · rename_i hnu
    have hno : ¬ Uses x [c!"tlv0_type", c!"tlv0_len"] := by
      intro hu
      obtain ⟨n, h1, h2⟩ := ht.1 hn hu
      apply hnu
      rw [List.any_eq_true]
      exact ⟨n, h1, by simpa [Option.isSome_iff_ne_none] using h2⟩
    have hi' : Inst svShort (zeroWidths { x with size := u32Sub x.size 8 } tlv2Fields) := by
      unfold svShort
      exact (hi.resize 8).zeroWidths (by decide +kernel) tlv2Fields
    obtain ⟨t1, t2, t3, t4⟩ := svShort_table
    refine ⟨Or.inr ⟨by rw [hi'.size]; exact t1, fun f hf => ?_⟩, by rw [hi'.size, t2]; omega⟩
    obtain ⟨ft, hm, hr⟩ := allRel_right hi'.fields f hf
    obtain ⟨q1, q2, q3, q4⟩ := t4 ft hm
    rw [hi'.size, hr.width]
    refine ⟨q1, fun v hv => ?_⟩
    have hlen : f.width ≤ 8 * v.length ∧ v.length ≤ 128 := by
      unfold fieldValue at hv
      rw [hr.width]
      cases hfv : f.val with
      | some w =>
        rw [hfv] at hv
        cases hv
        have := hr.len v hfv
        omega
      | none =>
        rw [hfv] at hv
        simp only at hv
        rw [hr.dflt] at hv
        rw [hv] at q4
        simpa using q4
    refine ⟨?_, hlen.1, by omega⟩
    rw [hr.offset, hr.width]
    rcases q3 with q3 | ⟨q3, q5⟩
    · exact q3
    · exfalso
      have hfn := find_of_nodup t3 hm
      obtain ⟨fh, e1, e2⟩ := hi'.find' (n := ft.name) hfn
      have hnames : (((zeroWidths { x with size := u32Sub x.size 8 } tlv2Fields).fields).map (·.name)).Nodup := by
        rw [allRel_names hi'.fields]; exact t3
      have hff := find_of_nodup hnames hf
      have hgv : given (zeroWidths { x with size := u32Sub x.size 8 } tlv2Fields) f.name = f.val := by
        unfold given; rw [hff]; rfl
      rw [given_zeroWidths, given_resize, hr.name] at hgv
      have : f.val = none := by
        cases hfv : f.val with
        | none => rfl
        | some w => exact absurd ⟨ft.name, q5, by rw [hgv, hfv]; simp⟩ hno
      unfold fieldValue at hv
      rw [this] at hv
      simp only at hv
      rw [hr.dflt, q3] at hv
      simp at hv

theorem svFilled_keeps (x : Hdr) : Keeps x (svFilled x) ∧ (svFilled x).type = x.type := by
  unfold svFilled
  split
  · exact ⟨Keeps.refl x, rfl⟩
  · refine ⟨⟨(zeroWidths_name _ _).1, fun n v h _ => ?_⟩, (zeroWidths_name _ _).2⟩
    rw [given_zeroWidths, given_resize]; exact h

/-! ## One header -/

theorem optFilled_tfits (j k : Nat) (hj : 1 ≤ j) (hj5 : j ≤ 5) (hk : k < maxVar) : TFits (optFilledShape j k) := by
  unfold maxVar at hk
  refine ⟨Or.inl (by simp [optFilledShape]; omega), ?_, ?_⟩
  · simp [optFilledShape]; omega
  · simp [optFilledShape]

/-- Result of the default computation of one header, whatever is given in it. -/
structure FillRes0 (x y : Hdr) : Prop where
  good : Good y
  keeps : Keeps x y
  type : y.type = x.type ∨ (x.name = c!"icmp" ∧ y.type = 58)

/-- Result of the default computation of one header that keeps inside of itself. -/
structure FillRes (x y : Hdr) : Prop extends FillRes0 x y where
  fits : HdrFits y
  mask : x.name ≠ c!"igmp" → x.name ≠ c!"mld" → x.name ≠ c!"sv" → HdrFitsMask y

theorem FillRes.of_inst {t t' x y : Hdr} (hi : Inst t y) (ht : TFits t) (hx : IsInst x) (hk : Keeps x y)
    (hty : y.type = x.type ∨ (x.name = c!"icmp" ∧ y.type = 58)) (hxi : Inst t' x) (hsz : t.size = t'.size) : FillRes x y :=
  have hg := inst_good hx
  ⟨⟨⟨by rw [hi.size, hsz, ← hxi.size]; exact hg.small, by
      rcases hty with h | ⟨_, h⟩
      · rw [h]; exact hg.type
      · rw [h]; decide⟩, hk, hty⟩, hi.hdrFits ht, fun _ _ _ => hi.hdrFitsMask ht⟩

theorem fill_names : ∀ t ∈ hdrTmpls, (t.fill = .igmp → t.name = c!"igmp") ∧ (t.fill = .mld → t.name = c!"mld") ∧
    (t.fill = .sv → t.name = c!"sv") ∧ (t.fill = .icmp → t.name = c!"icmp") ∧ (t.fill = .ipv4 → t.name = c!"ipv4") ∧
    (t.fill = .ipv6 → t.name = c!"ipv6") ∧ (t.fill = .udpTcp → t = HDR_UDP ∨ t = HDR_TCP) := by decide +kernel

/-- The default computation of one header: it produces a header that can be rendered, or, for MLD only, the program
ends with status -1. -/
theorem fillHdr_good {below above : List Hdr} {x : Hdr} (hb : ∀ y ∈ below, IsInst y) (ha : Goods above) (hx : IsInst x)
    (hfa : (x.fill = .udpTcp ∨ x.fill = .icmp ∨ x.fill = .igmp ∨ x.fill = .mld) → ∀ y ∈ above, HdrFits y) (ht : Tame x) :
    (∃ y, fillHdr below x above = .ok y ∧ FillRes x y) ∨
      (fillHdr below x above = .exit (-1) ∧ x.name = c!"mld") := by
  have hg := inst_good hx
  unfold fillHdr
  cases hf : x.fill with
  | none => exact Or.inl ⟨x, rfl, ⟨⟨hg, Keeps.refl x, Or.inl rfl⟩, (inst_fits hx).1, fun _ _ _ => (inst_fits hx).2⟩⟩
  | etherType =>
    obtain ⟨t, h1, h2, h3, h4⟩ := inst_of_fill hx (by rw [hf]; decide)
    have h5 := et_tmpls t h1 (by rw [h2, hf])
    obtain ⟨ft, hft⟩ : ∃ ft, findField t c!"et" = some ft := by
      cases e : findField t c!"et" with
      | none => rw [e] at h5; simp at h5
      | some f => exact ⟨f, rfl⟩
    have w : ft.width = 16 := width_of hft h5
    simp only
    rw [fillEtherType_eq h3 hft above ha]
    refine Or.inl ⟨_, rfl, ?_⟩
    cases above with
    | nil => exact ⟨⟨hg, Keeps.refl x, Or.inl rfl⟩, (inst_fits hx).1, fun _ _ _ => (inst_fits hx).2⟩
    | cons n above =>
    exact FillRes.of_inst (h3.setDefault hft (beBytes_len_ok (by rw [w]; omega))) (tmpls_fit t h1) hx
      (Keeps.setDefault _ _ _) (Or.inl (setDefault_type _ _ _)) h3 rfl
  | ipv4 =>
    obtain ⟨h3, h4⟩ := tmpl_of_fill hx .ipv4 HDR_IPV4 hf (by decide) (by decide +kernel)
    have e1 := fillIpv4_eq h3 above ha
    obtain ⟨fc, hfc⟩ := look HDR_IPV4 c!"chksum" (by decide +kernel)
    have wfc : fc.width = 16 := width_of hfc (by decide +kernel)
    have e2 := (ipv4Filled0_inst h3 above).setDefault (v := some (beBytes 2 (inetChksum 0 (hdrBytes (ipv4Filled0 x above)))))
      hfc (beBytes_len_ok (by rw [wfc]; omega))
    simp only
    refine Or.inl ⟨_, e1, ?_⟩
    refine FillRes.of_inst e2 ipv4_tfits hx ?_ (Or.inl ?_) h3 rfl
    · refine Keeps.trans ?_ (Keeps.setDefault _ _ _)
      unfold ipv4Filled0
      exact (Keeps.setDefault _ _ _).trans (Keeps.setDefault _ _ _)
    · rw [setDefault_type]; unfold ipv4Filled0; rw [setDefault_type, setDefault_type]
  | ipv6 =>
    obtain ⟨h3, h4⟩ := tmpl_of_fill hx .ipv6 HDR_IPV6 hf (by decide) (by decide +kernel)
    obtain ⟨e1, e2⟩ := fillIpv6_eq h3 above ha
    simp only
    refine Or.inl ⟨_, e1, ?_⟩
    refine FillRes.of_inst e2 ipv6_tfits hx ?_ (Or.inl ?_) h3 rfl
    · unfold ipv6Filled
      exact (Keeps.setDefault _ _ _).trans (Keeps.setDefault _ _ _)
    · unfold ipv6Filled; rw [setDefault_type, setDefault_type]
  | udpTcp =>
    obtain ⟨t, h1, h2, h3, h4⟩ := inst_of_fill hx (by rw [hf]; decide)
    have h5 := (fill_names t h1).2.2.2.2.2.2 (by rw [h2, hf])
    obtain ⟨e1, e2⟩ := fillUdpTcp_eq h5 h3 h4 below above hb ha (hfa (by simp [hf]))
    simp only
    refine Or.inl ⟨_, e1, ?_⟩
    have hk : Keeps x (lenFilled x above) := by
      unfold lenFilled; split
      · exact Keeps.refl x
      · exact Keeps.setDefault _ _ _
    refine FillRes.of_inst e2 (tmpls_fit t h1) hx ?_ (Or.inl ?_) h3 rfl
    · unfold udpFilled; split
      · exact hk
      · exact hk.trans (Keeps.setDefault _ _ _)
    · unfold udpFilled; split
      · exact lenFilled_type _ _
      · rw [setDefault_type]; exact lenFilled_type _ _
  | icmp =>
    obtain ⟨h3, h4⟩ := tmpl_of_fill hx .icmp HDR_ICMP hf (by decide) (by decide +kernel)
    obtain ⟨e1, e2⟩ := fillIcmp_eq h3 below above hb ha (hfa (by simp [hf]))
    simp only
    refine Or.inl ⟨_, e1, ?_⟩
    have hn : x.name = c!"icmp" := by rw [h3.name]; decide +kernel
    refine FillRes.of_inst e2 icmp_tfits hx ?_ ?_ h3 rfl
    · unfold icmpFilled
      split
      · exact Keeps.refl x
      · rename_i hc
        have hc : given x c!"chksum" = none := by simpa using hc
        split
        · exact (Keeps.setType x 58).trans (Keeps.setVal _ hc)
        · exact Keeps.setVal _ hc
    · unfold icmpFilled
      split
      · exact Or.inl rfl
      · split
        · exact Or.inr ⟨hn, rfl⟩
        · exact Or.inl rfl
  | igmp =>
    obtain ⟨h3, h4⟩ := tmpl_of_fill hx .igmp HDR_IGMP hf (by decide) (by decide +kernel)
    obtain ⟨e1, e2, e3, _⟩ := fillIgmp_eq h3 above (hfa (by simp [hf]))
    have hn : x.name = c!"igmp" := by rw [h3.name]; decide +kernel
    simp only
    have hty : (igmpFilled x above).type = x.type := by
      unfold igmpFilled; rw [setDefault_type]; exact igmpAdj_type x
    refine Or.inl ⟨_, e1, ⟨⟨⟨?_, by rw [hty]; exact hg.type⟩, ?_, Or.inl hty⟩, e3, fun h _ _ => absurd hn h⟩⟩
    · rw [e2.size]
      have := (igmp_table (queryGiven x) (reportGiven x)).2.1
      omega
    · unfold igmpFilled
      refine Keeps.trans ⟨?_, fun n v h _ => ?_⟩ (Keeps.setDefault _ _ _)
      · have h6 := (igmpAdj_inst h3).2.1.name
        rw [h6, hn]
        generalize queryGiven x = q; generalize reportGiven x = r
        revert q r; decide +kernel
      · rw [(igmpAdj_inst h3).2.2]; exact h
  | mld =>
    obtain ⟨h3, h4⟩ := tmpl_of_fill hx .mld HDR_MLD hf (by decide) (by decide +kernel)
    have hn : x.name = c!"mld" := by rw [h3.name]; decide +kernel
    have hnb : ¬ (queryGiven x = true ∧ reportGiven x = true) := by
      rw [queryGiven_iff, reportGiven_iff]; exact ht.2 hn
    obtain ⟨e1, e2⟩ := fillMld_eq h3 hnb below above hb (hfa (by simp [hf]))
    simp only
    rw [e1]
    have hka : Keeps x (mldAdj x) := by
      refine ⟨?_, fun n v h _ => ?_⟩
      · have h6 := (mldAdj_inst h3).2.1.name
        rw [h6, hn]
        generalize queryGiven x = q; generalize reportGiven x = r
        revert q r; decide +kernel
      · rw [(mldAdj_inst h3).2.2]; exact h
    have hcase : (∃ y, mldFilled below x above = .ok y ∧ Keeps x y ∧ y.type = x.type) ∨
        mldFilled below x above = .exit (-1) := by
      unfold mldFilled
      split
      · exact Or.inl ⟨_, rfl, hka, mldAdj_type x⟩
      · rename_i hc
        split
        · exact Or.inr rfl
        · split
          · refine Or.inl ⟨_, rfl, hka.trans (Keeps.setVal _ ?_), mldAdj_type x⟩
            rw [(mldAdj_inst h3).2.2]; simpa using hc
          · exact Or.inr rfl
    rcases hcase with ⟨y, h5, h6, h7⟩ | h5
    · obtain ⟨g1, g2⟩ := e2 y h5
      refine Or.inl ⟨y, h5, ⟨⟨⟨?_, by rw [h7]; exact hg.type⟩, h6, Or.inl h7⟩, g2, fun _ h _ => absurd hn h⟩⟩
      rw [g1.size]
      have := (mld_table _ _ hnb).2.1
      omega
    · exact Or.inr ⟨h5, hn⟩
  | sv =>
    obtain ⟨h3, h4⟩ := tmpl_of_fill hx .sv HDR_SV hf (by decide) (by decide +kernel)
    have hn : x.name = c!"sv" := by rw [h3.name]; decide +kernel
    simp only
    obtain ⟨f1, f2⟩ := sv_fits h3 hn ht
    obtain ⟨k1, k2⟩ := svFilled_keeps x
    exact Or.inl ⟨_, fillSv_eq h3, ⟨⟨⟨by omega, by rw [k2]; exact hg.type⟩, k1, Or.inl k2⟩, f1, fun _ _ h => absurd hn h⟩⟩
  | coap =>
    simp only
    obtain ⟨t, ht', t', hv, hi, hty⟩ := hx
    have hx : IsInst x := ⟨t, ht', t', hv, hi, hty⟩
    have key : ∃ k, k ≤ 8 ∧ Inst (coapShape k) x := by
      cases hv with
      | same =>
        have h1 := hi.fill
        have : ∀ t ∈ hdrTmpls, t.fill = .coap → t = HDR_COAP := by decide +kernel
        have h2 := this t ht' (by rw [← h1, hf])
        subst h2
        refine ⟨0, by omega, ?_⟩
        have : coapShape 0 = HDR_COAP := by decide +kernel
        rw [this]; exact hi
      | coap k hk => exact ⟨k, hk, hi⟩
      | pnet => have := hi.fill; rw [hf] at this; simp [pnetShape] at this
      | opt => have := hi.fill; rw [hf] at this; simp [optShape] at this
      | parms => have := hi.fill; rw [hf] at this; simp [parmsShape] at this
      | data => have := hi.fill; rw [hf] at this; simp [dataShape] at this
    obtain ⟨k, hk, hi'⟩ := key
    obtain ⟨e1, e2⟩ := fillCoap_eq hk hi'
    refine Or.inl ⟨_, e1, ?_⟩
    refine FillRes.of_inst e2 (Variant.fits (t := HDR_COAP) (by decide +kernel) (Variant.coap (B := 100) k hk)) hx ?_ (Or.inl ?_) hi' rfl
    · unfold coapFilled
      split
      · exact Keeps.refl x
      · rename_i hc
        refine Keeps.setVal _ ?_
        simp only [Bool.or_eq_true, not_or] at hc
        simpa using hc.1
    · unfold coapFilled; split <;> rfl
  | coapOpt =>
    simp only
    obtain ⟨t, ht', t', hv, hi, hty⟩ := hx
    have hx : IsInst x := ⟨t, ht', t', hv, hi, hty⟩
    have key : ∃ k m, k < maxVar ∧ Inst (optShape k m) x := by
      cases hv with
      | same =>
        have h1 := hi.fill
        have : ∀ t ∈ hdrTmpls, t.fill = .coapOpt → t = HDR_COAP_OPTIONS := by decide +kernel
        have h2 := this t ht' (by rw [← h1, hf])
        subst h2
        refine ⟨0, 0, by decide, ?_⟩
        have : optShape 0 0 = HDR_COAP_OPTIONS := by decide +kernel
        rw [this]; exact hi
      | coap => have := hi.fill; rw [hf] at this; simp [coapShape] at this
      | pnet => have := hi.fill; rw [hf] at this; simp [pnetShape] at this
      | opt k m h1 h2 h3 => exact ⟨k, m, h2, hi⟩
      | parms => have := hi.fill; rw [hf] at this; simp [parmsShape] at this
      | data => have := hi.fill; rw [hf] at this; simp [dataShape] at this
    obtain ⟨k, m, hk, hi'⟩ := key
    rcases fillCoapOpt_eq hi' with ⟨e, _⟩ | ⟨n, v, y, g1, g2, _, _, e, ety, ei, g3, g4⟩
    · exact Or.inl ⟨x, e, ⟨⟨hg, Keeps.refl x, Or.inl rfl⟩, (inst_fits hx).1, fun _ _ _ => (inst_fits hx).2⟩⟩
    · have hl := coapOptHdr_len (beNat n) (k % 2 ^ 16)
      have tf := optFilled_tfits _ k hl.1 hl.2 hk
      refine Or.inl ⟨y, e, ⟨⟨⟨?_, by rw [ety]; exact hg.type⟩, ?_, Or.inl ety⟩, ei.hdrFits tf, fun _ _ _ => ei.hdrFitsMask tf⟩⟩
      · rw [ei.size]; unfold maxVar at hk; simp only [optFilledShape]; omega
      · have hn : x.name = c!"coap-opt" := by rw [hi'.name]; rfl
        refine ⟨by rw [ei.name, hn]; rfl, fun w u hw hnn => ?_⟩
        have hwn : w ≠ c!"num" := fun h => hnn ⟨hn, h⟩
        by_cases hwv : w = c!"val"
        · subst hwv
          rw [g2] at hw; rw [g4]; exact hw
        · exfalso
          have : findField x w = none := by
            apply hi'.find_none
            unfold findField optShape
            simp only
            rw [find_neg _ (by simpa using fun h => hwn h.symm), find_neg _ (by simpa using fun h => hwv h.symm)]
            rfl
          rw [given_eq, this] at hw
          simp at hw
  | ptp =>
    obtain ⟨t, h1, h2, h3, h4⟩ := inst_of_fill hx (by rw [hf]; decide)
    have h5 := ptp_tmpls t h1 (by rw [h2, hf])
    obtain ⟨e1, e2⟩ := fillPtp_eq h3 (fun ft hft => width_of hft h5) hg.small above ha
    simp only
    refine Or.inl ⟨_, e1, ?_⟩
    refine FillRes.of_inst e2 (tmpls_fit t h1) hx ?_ (Or.inl ?_) h3 rfl
    · unfold ptpFilled; split
      · exact Keeps.refl x
      · exact Keeps.setDefault _ _ _
    · unfold ptpFilled; split
      · rfl
      · exact setDefault_type _ _ _
  | ptpTlv =>
    obtain ⟨t, h1, h2, h3, h4⟩ := inst_of_fill hx (by rw [hf]; decide)
    have h5 := tlv_tmpls t h1 (by rw [h2, hf])
    obtain ⟨e1, e2⟩ := fillPtpTlv_eq h3 (fun ft hft => width_of hft h5.1) hg.small h5.2 above ha
    simp only
    refine Or.inl ⟨_, e1, ?_⟩
    refine FillRes.of_inst e2 (tmpls_fit t h1) hx ?_ (Or.inl ?_) h3 rfl
    · unfold tlvFilled; split
      · exact Keeps.refl x
      · exact Keeps.setDefault _ _ _
    · unfold tlvFilled; split
      · rfl
      · exact setDefault_type _ _ _

/-! ## One header, whatever is given in it -/

theorem tame_of_fill {x : Hdr} (hx : IsInst x) (h1 : x.fill ≠ .sv) (h2 : x.fill ≠ .mld) : Tame x := by
  have key : ∀ t ∈ hdrTmpls, (t.name = c!"sv" → t.fill = .sv) ∧ (t.name = c!"mld" → t.fill = .mld) := by decide +kernel
  obtain ⟨t, ht, t', hv, hi, _⟩ := hx
  have hf := hi.fill
  have hn := hi.name
  cases hv with
  | same => exact ⟨fun h => absurd (hf.trans ((key t ht).1 (hn ▸ h))) h1, fun h => absurd (hf.trans ((key t ht).2 (hn ▸ h))) h2⟩
  | coap => exact ⟨fun h => by rw [hn] at h; simp [coapShape] at h, fun h => by rw [hn] at h; simp [coapShape] at h⟩
  | pnet => exact ⟨fun h => by rw [hn] at h; simp [pnetShape] at h, fun h => by rw [hn] at h; simp [pnetShape] at h⟩
  | opt => exact ⟨fun h => by rw [hn] at h; simp [optShape] at h, fun h => by rw [hn] at h; simp [optShape] at h⟩
  | parms => exact ⟨fun h => by rw [hn] at h; simp [parmsShape] at h, fun h => by rw [hn] at h; simp [parmsShape] at h⟩
  | data => exact ⟨fun h => by rw [hn] at h; simp [dataShape] at h, fun h => by rw [hn] at h; simp [dataShape] at h⟩

theorem getField_given {h : Hdr} {n : CStr} {f : Field} (e : getField h n = .ok f) : given h n = f.val := by
  unfold getField at e
  rw [given_eq]
  split at e
  · rename_i g hg
    cases e
    rw [hg]; rfl
  · simp at e

/-- The UDP/TCP checksum is the only thing set. -/
theorem fillUdpChksum_rel {below above : List Hdr} {x y : Hdr} (h : fillUdpChksum below x above = .ok y) :
    y = x ∨ (given x c!"chksum" = none ∧ ∃ v, (∀ w, v = some w → w.length = 2) ∧ y = setVal x c!"chksum" v) := by
  unfold fillUdpChksum at h
  rw [Out.bind_eq_ok] at h
  obtain ⟨f, h1, h⟩ := h
  split at h
  · cases h; exact Or.inl rfl
  · rename_i hc
    split at h
    · cases h; exact Or.inl rfl
    · split at h
      · cases h; exact Or.inl rfl
      · simp only [Out.bind_eq_ok] at h
        obtain ⟨_, _, _, _, _, _, v, hv, h⟩ := h
        cases h
        exact Or.inr ⟨by rw [getField_given h1]; simpa using hc, v, fun w hw => by subst hw; exact parseBytes_length hv, rfl⟩

theorem fillIgmpChksum_rel {above : List Hdr} {x y : Hdr} (h : fillIgmpChksum x above = .ok y) :
    y = x ∨ (given x c!"chksum" = none ∧ ∃ v, (∀ w, v = some w → w.length = 2) ∧ y = setVal x c!"chksum" v) := by
  unfold fillIgmpChksum at h
  rw [Out.bind_eq_ok] at h
  obtain ⟨f, h1, h⟩ := h
  split at h
  · cases h; exact Or.inl rfl
  · rename_i hc
    simp only [Out.bind_eq_ok] at h
    obtain ⟨_, _, v, hv, h⟩ := h
    cases h
    exact Or.inr ⟨by rw [getField_given h1]; simpa using hc, v, fun w hw => by subst hw; exact parseBytes_length hv, rfl⟩

theorem fillMldChksum_rel {below above : List Hdr} {x y : Hdr} (h : fillMldChksum below x above = .ok y) :
    y = x ∨ (given x c!"chksum" = none ∧ ∃ v, (∀ w, v = some w → w.length = 2) ∧ y = setVal x c!"chksum" v) := by
  unfold fillMldChksum at h
  rw [Out.bind_eq_ok] at h
  obtain ⟨f, h1, h⟩ := h
  split at h
  · cases h; exact Or.inl rfl
  · rename_i hc
    split at h
    · simp at h
    · simp only [Out.bind_eq_ok] at h
      obtain ⟨_, _, _, _, _, _, v, hv, h⟩ := h
      cases h
      exact Or.inr ⟨by rw [getField_given h1]; simpa using hc, v, fun w hw => by subst hw; exact parseBytes_length hv, rfl⟩

theorem fillIcmp_rel {below above : List Hdr} {x y : Hdr} (h : fillIcmp below x above = .ok y) :
    (y = x ∧ (given x c!"chksum").isSome) ∨ (given x c!"chksum" = none ∧ ∃ v, (∀ w, v = some w → w.length = 2) ∧ ((ipv6Below below = none ∧ y = setVal x c!"chksum" v) ∨
        ((ipv6Below below).isSome ∧ y = setVal { x with type := 58 } c!"chksum" v))) := by
  unfold fillIcmp at h
  rw [Out.bind_eq_ok] at h
  obtain ⟨f, h1, h⟩ := h
  split at h
  · rename_i hc
    cases h; exact Or.inl ⟨rfl, by rw [getField_given h1]; exact hc⟩
  · rename_i hc
    have hc : given x c!"chksum" = none := by rw [getField_given h1]; simpa using hc
    simp only at h
    split at h
    · rename_i hll
      simp only [Out.bind_eq_ok] at h
      obtain ⟨_, _, _, _, _, _, v, hv, h⟩ := h
      cases h
      exact Or.inr ⟨hc, v, fun w hw => by subst hw; exact parseBytes_length hv, Or.inr ⟨by rw [hll]; rfl, rfl⟩⟩
    · rename_i hll
      simp only [Out.bind_eq_ok] at h
      obtain ⟨_, _, v, hv, h⟩ := h
      cases h
      exact Or.inr ⟨hc, v, fun w hw => by subst hw; exact parseBytes_length hv, Or.inl ⟨hll, rfl⟩⟩

theorem u32Sub_small (a b : Nat) : u32Sub a b < 2 ^ 51 := by
  unfold u32Sub
  have := Nat.mod_lt (a + 2 ^ 32 - b) (show 0 < 2 ^ 32 by omega)
  omega

theorem Inst.setChk {t h : Hdr} {n : CStr} {ft : Field} (hi : Inst t h) (hf : findField t n = some ft) (hw : ft.width = 16)
    {v : Option Buf} (hv : ∀ w, v = some w → w.length = 2) : Inst t (Ef.setVal h n v) :=
  hi.setVal hf (fun w h => by rw [hv w h, hw]; omega)

theorem zeroWidths_size (h : Hdr) (ns : List CStr) : (zeroWidths h ns).size = h.size := by
  induction ns generalizing h with
  | nil => rfl
  | cons n ns ih => unfold zeroWidths; exact ih _

/-- The default computation of one header: what holds of its result whatever is given in it and in the other headers. -/
theorem fillHdr_any {below above : List Hdr} {x y : Hdr} (hb : ∀ y ∈ below, IsInst y) (ha : Goods above) (hx : IsInst x)
    (h : fillHdr below x above = .ok y) : FillRes0 x y ∧ (Tame x → HdrFits y) := by
  have hg := inst_good hx
  by_cases h1 : x.fill = .udpTcp ∨ x.fill = .icmp ∨ x.fill = .igmp ∨ x.fill = .mld ∨ x.fill = .sv
  · unfold fillHdr at h
    rcases h1 with hf | hf | hf | hf | hf
    · rw [hf] at h
      simp only at h
      unfold fillUdpTcp at h
      rw [Out.bind_eq_ok] at h
      obtain ⟨x1, h2, h3⟩ := h
      obtain ⟨t, g1, g2, g3, g4⟩ := inst_of_fill hx (by rw [hf]; decide)
      have g5 := (fill_names t g1).2.2.2.2.2.2 (by rw [g2, hf])
      have hw : ∀ ft, findField t c!"len" = some ft → ft.width = 16 := by
        have : ∀ t, t = HDR_UDP ∨ t = HDR_TCP → ∀ ft, findField t c!"len" = some ft → ft.width = 16 := by
          rintro t (rfl | rfl)
          · intro ft hft; exact width_of hft (by decide +kernel)
          · intro ft hft
            have : findField HDR_TCP c!"len" = none := by decide +kernel
            rw [this] at hft; cases hft
        exact this t g5
      obtain ⟨e, ei⟩ := fillUdpLen_eq g3 hw hg.small above ha
      rw [h2] at e
      cases e
      obtain ⟨fc, hfc⟩ := look t c!"chksum" (by rcases g5 with rfl | rfl <;> decide +kernel)
      have wfc : fc.width = 16 := width_of hfc (by rcases g5 with rfl | rfl <;> decide +kernel)
      have hk : Keeps x (lenFilled x above) := by
        unfold lenFilled; split
        · exact Keeps.refl x
        · exact Keeps.setDefault _ _ _
      rcases fillUdpChksum_rel h3 with rfl | ⟨hc, v, hv, rfl⟩
      · exact ⟨⟨⟨by rw [lenFilled_size]; exact hg.small, by rw [lenFilled_type]; exact hg.type⟩, hk, Or.inl (lenFilled_type _ _)⟩,
          fun _ => ei.hdrFits (tmpls_fit t g1)⟩
      · refine ⟨⟨⟨?_, ?_⟩, hk.trans (Keeps.setVal _ hc), Or.inl ?_⟩, fun _ => (ei.setChk hfc wfc hv).hdrFits (tmpls_fit t g1)⟩
        · show (lenFilled x above).size < _; rw [lenFilled_size]; exact hg.small
        · show (lenFilled x above).type < _; rw [lenFilled_type]; exact hg.type
        · exact lenFilled_type _ _
    · rw [hf] at h
      simp only at h
      obtain ⟨h3, _⟩ := tmpl_of_fill hx .icmp HDR_ICMP hf (by decide) (by decide +kernel)
      have hn : x.name = c!"icmp" := by rw [h3.name]; decide +kernel
      obtain ⟨fc, hfc⟩ := look HDR_ICMP c!"chksum" (by decide +kernel)
      have wfc : fc.width = 16 := width_of hfc (by decide +kernel)
      have hfit : ∀ v : Option Buf, (∀ w, v = some w → w.length = 2) → HdrFits (setVal x c!"chksum" v) :=
        fun v hv => (h3.setChk hfc wfc hv).hdrFits icmp_tfits
      rcases fillIcmp_rel h with ⟨rfl, _⟩ | ⟨hc, v, hv, ⟨_, rfl⟩ | ⟨_, rfl⟩⟩
      · exact ⟨⟨hg, Keeps.refl _, Or.inl rfl⟩, fun _ => (inst_fits hx).1⟩
      · exact ⟨⟨⟨hg.small, hg.type⟩, Keeps.setVal _ hc, Or.inl rfl⟩, fun _ => hfit v hv⟩
      · exact ⟨⟨⟨hg.small, (by decide : 58 < 2 ^ 32)⟩, (Keeps.setType x 58).trans (Keeps.setVal _ hc), Or.inr ⟨hn, rfl⟩⟩,
          fun _ => hfit v hv⟩
    · rw [hf] at h
      simp only at h
      obtain ⟨h3, h4⟩ := tmpl_of_fill hx .igmp HDR_IGMP hf (by decide) (by decide +kernel)
      have hn : x.name = c!"igmp" := by rw [h3.name]; decide +kernel
      obtain ⟨a1, a2, a3⟩ := igmpAdj_inst h3
      unfold fillIgmp at h
      have : (adjustQuery x >>= fun h => adjustReportIgmp h >>= fun h => fillIgmpChksum h above) =
          ((adjustQuery x >>= adjustReportIgmp) >>= fun h => fillIgmpChksum h above) := by rw [bind_assoc]
      rw [this, a1, Out.ok_bind] at h
      have hk : Keeps x (igmpAdj x) := by
        refine ⟨?_, fun n v h _ => ?_⟩
        · rw [a2.name, hn]
          generalize queryGiven x = q; generalize reportGiven x = r
          revert q r; decide +kernel
        · rw [a3]; exact h
      have hs : (igmpAdj x).size < 2 ^ 51 := by
        rw [a2.size]
        have := (igmp_table (queryGiven x) (reportGiven x)).2.1
        omega
      have hty : (igmpAdj x).type < 2 ^ 32 := by rw [igmpAdj_type]; exact hg.type
      rcases fillIgmpChksum_rel h with rfl | ⟨hc, v, hv, rfl⟩
      · exact ⟨⟨⟨hs, hty⟩, hk, Or.inl (igmpAdj_type x)⟩, fun _ => igmp_fits a2 (fun m _ => a3 m)⟩
      · refine ⟨⟨⟨hs, hty⟩, hk.trans (Keeps.setVal _ hc), Or.inl (igmpAdj_type x)⟩, fun _ => ?_⟩
        have hchk := chk_look (queryGiven x) (reportGiven x)
        obtain ⟨fc, hfc, wfc⟩ := Option.map_eq_some_iff.mp hchk
        refine igmp_fits (a2.setChk hfc wfc hv) (fun m hm => ?_)
        rw [given_setVal_other _ _ (by revert hm; revert m; decide +kernel)]
        exact a3 m
    · rw [hf] at h
      simp only at h
      obtain ⟨h3, h4⟩ := tmpl_of_fill hx .mld HDR_MLD hf (by decide) (by decide +kernel)
      have hn : x.name = c!"mld" := by rw [h3.name]; decide +kernel
      obtain ⟨a1, a2, a3⟩ := mldAdj_inst h3
      unfold fillMld at h
      have : (adjustQuery x >>= fun h => adjustReportMld h >>= fun h => fillMldChksum below h above) =
          ((adjustQuery x >>= adjustReportMld) >>= fun h => fillMldChksum below h above) := by rw [bind_assoc]
      rw [this, a1, Out.ok_bind] at h
      have hk : Keeps x (mldAdj x) := by
        refine ⟨?_, fun n v h _ => ?_⟩
        · rw [a2.name, hn]
          generalize queryGiven x = q; generalize reportGiven x = r
          revert q r; decide +kernel
        · rw [a3]; exact h
      have hs : (mldAdj x).size < 2 ^ 51 := by
        rw [a2.size]
        generalize queryGiven x = q; generalize reportGiven x = r
        revert q r; decide +kernel
      have hty : (mldAdj x).type < 2 ^ 32 := by rw [mldAdj_type]; exact hg.type
      have hnb : Tame x → ¬ (queryGiven x = true ∧ reportGiven x = true) := by
        intro ht
        rw [queryGiven_iff, reportGiven_iff]; exact ht.2 hn
      rcases fillMldChksum_rel h with rfl | ⟨hc, v, hv, rfl⟩
      · exact ⟨⟨⟨hs, hty⟩, hk, Or.inl (mldAdj_type x)⟩, fun ht => mld_fits (hnb ht) a2 (fun m _ => a3 m)⟩
      · refine ⟨⟨⟨hs, hty⟩, hk.trans (Keeps.setVal _ hc), Or.inl (mldAdj_type x)⟩, fun ht => ?_⟩
        have hchk : ∀ q r : Bool, (findField (mldShape q r) c!"chksum").map (·.width) = some 16 := by decide +kernel
        obtain ⟨fc, hfc, wfc⟩ := Option.map_eq_some_iff.mp (hchk (queryGiven x) (reportGiven x))
        refine mld_fits (hnb ht) (a2.setChk hfc wfc hv) (fun m hm => ?_)
        rw [given_setVal_other _ _ (by revert hm; revert m; decide +kernel)]
        exact a3 m
    · rw [hf] at h
      simp only at h
      obtain ⟨h3, h4⟩ := tmpl_of_fill hx .sv HDR_SV hf (by decide) (by decide +kernel)
      have hn : x.name = c!"sv" := by rw [h3.name]; decide +kernel
      rw [fillSv_eq h3] at h
      cases h
      obtain ⟨k1, k2⟩ := svFilled_keeps x
      refine ⟨⟨⟨?_, by rw [k2]; exact hg.type⟩, k1, Or.inl k2⟩, fun ht => (sv_fits h3 hn ht).1⟩
      unfold svFilled
      split
      · exact hg.small
      · rw [zeroWidths_size]
        exact u32Sub_small _ _
  · simp only [not_or] at h1
    rcases fillHdr_good hb ha hx (fun hw => by
        rcases hw with hw | hw | hw | hw
        · exact absurd hw h1.1
        · exact absurd hw h1.2.1
        · exact absurd hw h1.2.2.1
        · exact absurd hw h1.2.2.2.1) (tame_of_fill hx h1.2.2.2.2 h1.2.2.2.1) with ⟨z, e1, e2⟩ | ⟨e1, _⟩
    · rw [h] at e1
      cases e1
      exact ⟨e2.toFillRes0, fun _ => e2.fits⟩
    · rw [h] at e1; simp at e1

/-! ## The whole stack -/

/-- The default computation of a stack, whatever is given in it. -/
theorem fillStack_any {below hs hs' : List Hdr} (hb : ∀ y ∈ below, IsInst y) (hx : ∀ x ∈ hs, IsInst x) (hl : hs.length ≤ 1000)
    (h : fillStack below hs = .ok hs') :
    Goods hs' ∧ hs'.length = hs.length ∧ ∀ (i : Nat) x y, hs[i]? = some x → hs'[i]? = some y → FillRes0 x y ∧ (Tame x → HdrFits y) := by
  induction hs generalizing below hs' with
  | nil =>
    simp only [fillStack, Out.ok.injEq] at h
    subst h
    exact ⟨⟨by simp, by simp⟩, rfl, by simp⟩
  | cons x hs ih =>
    have hx0 := hx x (by simp)
    have hb' : ∀ y ∈ below ++ [x], IsInst y := by
      intro y hy
      rcases List.mem_append.mp hy with h | h
      · exact hb y h
      · rw [List.mem_singleton] at h; subst h; exact hx0
    simp only [List.length_cons] at hl
    unfold fillStack at h
    rw [Out.bind_eq_ok] at h
    obtain ⟨hs1, h1, h⟩ := h
    rw [Out.bind_eq_ok] at h
    obtain ⟨y, h2, h⟩ := h
    cases h
    obtain ⟨e2, e3, e4⟩ := ih hb' (fun y hy => hx y (by simp [hy])) (by omega) h1
    have e6 := fillHdr_any hb e2 hx0 h2
    refine ⟨⟨fun z hz => ?_, by simp only [List.length_cons]; omega⟩, by simp [e3], ?_⟩
    · rcases List.mem_cons.mp hz with rfl | hz
      · exact e6.1.good
      · exact e2.good z hz
    · intro i u v hu hv
      cases i with
      | zero => simp only [List.getElem?_cons_zero, Option.some.injEq] at hu hv; subst hu hv; exact e6
      | succ i => exact e4 i u v (by simpa using hu) (by simpa using hv)

/-- The default computation of a stack: all headers can be rendered, or the program ended in an MLD header. -/
theorem fillStack_good {below hs : List Hdr} (hb : ∀ y ∈ below, IsInst y) (hx : ∀ x ∈ hs, IsInst x ∧ Tame x)
    (hl : hs.length ≤ 1000) :
    (∃ hs', fillStack below hs = .ok hs' ∧ (Goods hs' ∧ ∀ y ∈ hs', HdrFits y) ∧ hs'.length = hs.length ∧
        ∀ (i : Nat) x y, hs[i]? = some x → hs'[i]? = some y → FillRes x y) ∨
      (fillStack below hs = .exit (-1) ∧ ∃ x ∈ hs, x.name = c!"mld") := by
  induction hs generalizing below with
  | nil => exact Or.inl ⟨[], rfl, ⟨⟨by simp, by simp⟩, by simp⟩, rfl, by simp⟩
  | cons x hs ih =>
    have hx0 := hx x (by simp)
    have hb' : ∀ y ∈ below ++ [x], IsInst y := by
      intro y hy
      rcases List.mem_append.mp hy with h | h
      · exact hb y h
      · rw [List.mem_singleton] at h; subst h; exact hx0.1
    simp only [List.length_cons] at hl
    unfold fillStack
    rcases ih hb' (fun y hy => hx y (by simp [hy])) (by omega) with ⟨hs', e1, e2, e3, e4⟩ | ⟨e1, y, e2, e3⟩
    · rw [e1, Out.ok_bind]
      rcases fillHdr_good hb e2.1 hx0.1 (fun _ => e2.2) hx0.2 with ⟨y, e5, e6⟩ | ⟨e5, e6⟩
      · rw [e5, Out.ok_bind]
        refine Or.inl ⟨y :: hs', rfl, ⟨⟨fun z hz => ?_, by simp only [List.length_cons]; omega⟩, fun z hz => ?_⟩, by simp [e3], ?_⟩
        · rcases List.mem_cons.mp hz with rfl | hz
          · exact e6.good
          · exact e2.1.good z hz
        · rcases List.mem_cons.mp hz with rfl | hz
          · exact e6.fits
          · exact e2.2 z hz
        · intro i u v hu hv
          cases i with
          | zero => simp only [List.getElem?_cons_zero, Option.some.injEq] at hu hv; subst hu hv; exact e6
          | succ i => exact e4 i u v (by simpa using hu) (by simpa using hv)
      · rw [e5, Out.exit_bind]
        exact Or.inr ⟨rfl, x, by simp, e6⟩
    · rw [e1, Out.exit_bind]
      exact Or.inr ⟨rfl, y, by simp [e2], e3⟩

end Ef
