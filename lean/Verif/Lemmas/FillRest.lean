import Verif.Lemmas.FillMc

/-! # IGMP, MLD, CoAP and PTP headers after the default computation -/

namespace Ef

open Spec

/-! ## IGMP -/

/-- Shape of an IGMP header with (`q`, `r`) and without query and report fields. -/
def igmpShape (q r : Bool) : Hdr := shapeRI r (shapeQ q HDR_IGMP)

/-- The header with its final size and field positions, before the checksum. -/
def igmpAdj (x : Hdr) : Hdr := shapeRI (reportGiven x) (shapeQ (queryGiven x) x)

theorem igmp_table : ∀ q r : Bool, 0 < (igmpShape q r).size ∧ (igmpShape q r).size ≤ 12 ∧
    ((igmpShape q r).fields.map (·.name)).Nodup ∧
    ∀ ft ∈ (igmpShape q r).fields, ft.width ≤ 8 * (igmpShape q r).size ∧ ft.width ≤ 128 ∧ ft.dflt = none ∧
      (ft.offset + ft.width ≤ 8 * (igmpShape q r).size ∨ (q = false ∧ ft.name ∈ queryFields) ∨
        (r = false ∧ ft.name ∈ reportFields)) := by decide +kernel

theorem igmpAdj_inst {x : Hdr} (hi : Inst HDR_IGMP x) :
    (adjustQuery x >>= adjustReportIgmp) = .ok (igmpAdj x) ∧ Inst (igmpShape (queryGiven x) (reportGiven x)) (igmpAdj x) ∧
      ∀ m, given (igmpAdj x) m = given x m := by
  obtain ⟨a1, a2, a3⟩ := adjustQuery_eq hi (by decide +kernel) (by decide +kernel)
  have hw : ∀ q : Bool, ∀ f ∈ (shapeQ q HDR_IGMP).fields, f.width ≤ 128 ∧ varLen f = 0 := by decide +kernel
  have hns : ∀ q : Bool, ∀ n ∈ reportFields, (findField (shapeQ q HDR_IGMP) n).map (·.dflt) = some none := by decide +kernel
  obtain ⟨b1, b2, b3⟩ := adjustReportIgmp_eq a2 (hw _) (hns _)
  have hr := shapeQ_given a3
  rw [hr] at b1 b2 b3
  refine ⟨?_, b2, fun m => ?_⟩
  · rw [a1, Out.ok_bind]; exact b1
  · rw [← a3 m]; exact b3 m

theorem unused_query {x : Hdr} (h : queryGiven x = false) {n : CStr} (hn : n ∈ queryFields) : given x n = none := by
  unfold queryGiven at h
  rw [List.any_eq_false] at h
  simpa using h n hn

theorem unused_report {x : Hdr} (h : reportGiven x = false) {n : CStr} (hn : n ∈ reportFields) : given x n = none := by
  unfold reportGiven at h
  rw [List.any_eq_false] at h
  simpa using h n hn

theorem igmp_fits {x y : Hdr} (hy : Inst (igmpShape (queryGiven x) (reportGiven x)) y)
    (hg : ∀ m ∈ queryFields ++ reportFields, given y m = given x m) : HdrFits y := by
  obtain ⟨t1, _, t2, t3⟩ := igmp_table (queryGiven x) (reportGiven x)
  refine hy.hdrFits' t1 t2 (fun ft hft => ?_)
  obtain ⟨h1, h2, h3, h4⟩ := t3 ft hft
  refine ⟨h1, h2, h3, ?_⟩
  rcases h4 with h4 | ⟨h4, h5⟩ | ⟨h4, h5⟩
  · exact Or.inl h4
  · exact Or.inr (by rw [hg _ (by simp [h5])]; exact unused_query h4 h5)
  · exact Or.inr (by rw [hg _ (by simp [h5])]; exact unused_report h4 h5)

/-- IGMP after the default computation. -/
def igmpFilled (x : Hdr) (above : List Hdr) : Hdr :=
  setDefault (igmpAdj x) c!"chksum" (some (beBytes 2 (inetChksum 0 ((igmpAdj x :: above).map hdrBytes).flatten)))

theorem chk_look : ∀ q r : Bool, (findField (igmpShape q r) c!"chksum").map (·.width) = some 16 := by decide +kernel

theorem fillIgmp_eq {x : Hdr} (hi : Inst HDR_IGMP x) (above : List Hdr) (hfa : ∀ y ∈ above, HdrFits y) :
    fillIgmp x above = .ok (igmpFilled x above) ∧
      Inst (igmpShape (queryGiven x) (reportGiven x)) (igmpFilled x above) ∧ HdrFits (igmpFilled x above) ∧
      HdrFits (igmpAdj x) := by
  obtain ⟨a1, a2, a3⟩ := igmpAdj_inst hi
  have hchk := chk_look (queryGiven x) (reportGiven x)
  obtain ⟨fc, hfc⟩ := look (igmpShape (queryGiven x) (reportGiven x)) c!"chksum" (by
    cases e : findField (igmpShape (queryGiven x) (reportGiven x)) c!"chksum" with
    | none => rw [e] at hchk; simp at hchk
    | some f => rfl)
  have wfc : fc.width = 16 := width_of hfc hchk
  have hf0 : HdrFits (igmpAdj x) := igmp_fits a2 (fun m _ => a3 m)
  have hi1 : Inst (igmpShape (queryGiven x) (reportGiven x)) (igmpFilled x above) :=
    a2.setDefault hfc (beBytes_len_ok (by rw [wfc]; omega))
  refine ⟨?_, hi1, igmp_fits hi1 (fun m hm => ?_), hf0⟩
  · unfold fillIgmp
    have : (adjustQuery x >>= fun h => adjustReportIgmp h >>= fun h => fillIgmpChksum h above) =
        ((adjustQuery x >>= adjustReportIgmp) >>= fun h => fillIgmpChksum h above) := by rw [bind_assoc]
    rw [this, a1, Out.ok_bind]
    unfold fillIgmpChksum igmpFilled
    have hfits : ∀ y ∈ igmpAdj x :: above, HdrFits y := by
      intro y hy
      rcases List.mem_cons.mp hy with rfl | hy
      · exact hf0
      · exact hfa y hy
    rw [copyHdrs_bytes hfits]
    refine fill_one (P := Out.ok ((igmpAdj x :: above).map hdrBytes).flatten >>= fun b => parseBytes (hexStr (inetChksum 0 b)) 2)
      a2 hfc (fun _ => ?_)
    rw [Out.ok_bind]
    exact parseBytes_hexStr _ 2 (by omega) (by have := inetChksum_lt 0 ((igmpAdj x :: above).map hdrBytes).flatten; omega)
  · unfold igmpFilled
    rw [given_setDefault_other _ _ (by
      revert hm; revert m; decide +kernel)]
    exact a3 m

/-! ## MLD -/

/-- Shape of an MLD header with (`q`, `r`) and without query and report fields. -/
def mldShape (q r : Bool) : Hdr := shapeRM r (shapeQ q HDR_MLD)

/-- The header with its final size and field positions, before the checksum. -/
def mldAdj (x : Hdr) : Hdr := shapeRM (reportGiven x) (shapeQ (queryGiven x) x)

theorem mld_table : ∀ q r : Bool, ¬ (q = true ∧ r = true) → 0 < (mldShape q r).size ∧ (mldShape q r).size ≤ 28 ∧
    ((mldShape q r).fields.map (·.name)).Nodup ∧
    ∀ ft ∈ (mldShape q r).fields, ft.width ≤ 8 * (mldShape q r).size ∧ ft.width ≤ 128 ∧ ft.dflt = none ∧
      (ft.offset + ft.width ≤ 8 * (mldShape q r).size ∨ (q = false ∧ ft.name ∈ queryFields) ∨
        (r = false ∧ ft.name ∈ reportFields)) := by decide +kernel

theorem mldAdj_inst {x : Hdr} (hi : Inst HDR_MLD x) :
    (adjustQuery x >>= adjustReportMld) = .ok (mldAdj x) ∧ Inst (mldShape (queryGiven x) (reportGiven x)) (mldAdj x) ∧
      ∀ m, given (mldAdj x) m = given x m := by
  obtain ⟨a1, a2, a3⟩ := adjustQuery_eq hi (by decide +kernel) (by decide +kernel)
  have hw : ∀ q : Bool, ∀ f ∈ (shapeQ q HDR_MLD).fields, f.width ≤ 128 ∧ varLen f = 0 := by decide +kernel
  have hns : ∀ q : Bool, ∀ n ∈ reportFields, (findField (shapeQ q HDR_MLD) n).map (·.dflt) = some none := by decide +kernel
  obtain ⟨b1, b2, b3⟩ := adjustReportMld_eq a2 (hw _) (hns _)
  have hr := shapeQ_given a3
  rw [hr] at b1 b2 b3
  refine ⟨?_, b2, fun m => ?_⟩
  · rw [a1, Out.ok_bind]; exact b1
  · rw [← a3 m]; exact b3 m

theorem mld_fits {x y : Hdr} (hnb : ¬ (queryGiven x = true ∧ reportGiven x = true))
    (hy : Inst (mldShape (queryGiven x) (reportGiven x)) y)
    (hg : ∀ m ∈ queryFields ++ reportFields, given y m = given x m) : HdrFits y := by
  obtain ⟨t1, _, t2, t3⟩ := mld_table (queryGiven x) (reportGiven x) hnb
  refine hy.hdrFits' t1 t2 (fun ft hft => ?_)
  obtain ⟨h1, h2, h3, h4⟩ := t3 ft hft
  refine ⟨h1, h2, h3, ?_⟩
  rcases h4 with h4 | ⟨h4, h5⟩ | ⟨h4, h5⟩
  · exact Or.inl h4
  · exact Or.inr (by rw [hg _ (by simp [h5])]; exact unused_query h4 h5)
  · exact Or.inr (by rw [hg _ (by simp [h5])]; exact unused_report h4 h5)

theorem chk_look_mld : ∀ q r : Bool, (findField (mldShape q r) c!"chksum").map (·.width) = some 16 := by decide +kernel

theorem be32Bytes_eq (n : Nat) : be32Bytes n = beBytes 4 n := by
  unfold be32Bytes
  simp [beBytes, Nat.shiftRight_eq_div_pow]

theorem mldPseudo_eq (s d : Buf) (len : Nat) : mldPseudo s d len = pseudo6 s d 58 len := by
  unfold mldPseudo pseudo6
  rw [be32Bytes_eq]

/-- Both addresses of the IPv6 header were given. -/
theorem mldAddr_eq {ip : Hdr} (hi : Inst HDR_IPV6 ip) (n : CStr)
    (hn : (n = c!"sip" ∧ (o = 8)) ∨ (n = c!"dip" ∧ (o = 24))) :
    mldAddr ip n = (if (given ip n).isSome then .ok (slice (hdrBytes ip) o 16) else .exit (-1)) := by
  have hl : (findField HDR_IPV6 n).isSome = true ∧ (findField HDR_IPV6 n).map (·.width) = some 128 ∧
      (findField HDR_IPV6 n).map (·.offset) = some (8 * o) := by
    rcases hn with ⟨rfl, rfl⟩ | ⟨rfl, rfl⟩ <;> decide +kernel
  obtain ⟨ft, hft⟩ := look HDR_IPV6 n hl.1
  have w := width_of hft hl.2.1
  have of := offset_of hft hl.2.2
  obtain ⟨g, _, h2, h3, h4⟩ := hi.getField hft
  unfold mldAddr
  rw [h2]
  simp only
  rw [h4]
  cases hv : given ip n with
  | none => rfl
  | some a =>
    have hlen := h3.len a (by rw [h4, hv])
    rw [w] at hlen
    have hl16 : a.length = 16 := by omega
    simp only [hl16, ne_eq, not_true_eq_false, if_false, Option.isSome_some, if_true]
    congr 1
    rw [hi.bytes ipv6_tfits ipv6_disj hft o 16 of w, hv]
    unfold numOf
    simp only [Option.or]
    have hb := beNat_lt a
    rw [hl16] at hb
    rw [w, Nat.mod_eq_of_lt (by have : (256 : Nat) ^ 16 = 2 ^ 128 := by decide
                                omega)]
    have := beBytes_beNat a
    rw [hl16] at this
    exact this.symm

/-- The checksum of an MLD message is computed over these bytes. -/
def mldData (ip x : Hdr) (above : List Hdr) : Buf :=
  pseudo6 (slice (hdrBytes ip) 8 16) (slice (hdrBytes ip) 24 16) 58 (sumSizes (x :: above)) ++
    ((x :: above).map hdrBytes).flatten

/-- MLD: result of the default computation. -/
def mldFilled (below : List Hdr) (x : Hdr) (above : List Hdr) : Out Hdr :=
  if (given x c!"chksum").isSome then .ok (mldAdj x)
  else
    match below.find? (fun y => y.name == c!"ipv6") with
    | none => .exit (-1)
    | some ip =>
      if (given ip c!"sip").isSome && (given ip c!"dip").isSome then
        .ok (setVal (mldAdj x) c!"chksum" (some (beBytes 2 (inetChksum 0 (mldData ip (mldAdj x) above)))))
      else .exit (-1)

theorem pseudo6_len {s d : Buf} (hs : s.length = 16) (hd : d.length = 16) (p l : Nat) : (pseudo6 s d p l).length = 40 := by
  unfold pseudo6
  simp [hs, hd, beBytes_length]

theorem pseudo4_len {s d : Buf} (hs : s.length = 4) (hd : d.length = 4) (p l : Nat) : (pseudo4 s d p l).length = 12 := by
  unfold pseudo4
  simp [hs, hd, beBytes_length]

theorem fillMld_eq {x : Hdr} (hi : Inst HDR_MLD x) (hnb : ¬ (queryGiven x = true ∧ reportGiven x = true))
    (below above : List Hdr) (hb : ∀ y ∈ below, IsInst y) (hfa : ∀ y ∈ above, HdrFits y) :
    fillMld below x above = mldFilled below x above ∧
      ∀ y, mldFilled below x above = .ok y → Inst (mldShape (queryGiven x) (reportGiven x)) y ∧ HdrFits y := by
  obtain ⟨a1, a2, a3⟩ := mldAdj_inst hi
  have hchk := chk_look_mld (queryGiven x) (reportGiven x)
  obtain ⟨fc, hfc⟩ := look (mldShape (queryGiven x) (reportGiven x)) c!"chksum" (by
    cases e : findField (mldShape (queryGiven x) (reportGiven x)) c!"chksum" with
    | none => rw [e] at hchk; simp at hchk
    | some f => rfl)
  have wfc : fc.width = 16 := width_of hfc hchk
  have hf0 : HdrFits (mldAdj x) := mld_fits hnb a2 (fun m _ => a3 m)
  have hfits : ∀ y ∈ mldAdj x :: above, HdrFits y := by
    intro y hy
    rcases List.mem_cons.mp hy with rfl | hy
    · exact hf0
    · exact hfa y hy
  constructor
  · unfold fillMld
    have : (adjustQuery x >>= fun h => adjustReportMld h >>= fun h => fillMldChksum below h above) =
        ((adjustQuery x >>= adjustReportMld) >>= fun h => fillMldChksum below h above) := by rw [bind_assoc]
    rw [this, a1, Out.ok_bind]
    obtain ⟨g, e1, _, _, v1⟩ := a2.getField hfc
    unfold fillMldChksum mldFilled
    rw [e1, Out.ok_bind, v1, a3]
    split
    · rfl
    · cases hl : below.find? (fun y => y.name == c!"ipv6") with
      | none => rfl
      | some ip =>
        have hm := List.mem_of_find?_eq_some hl
        have hn : ip.name = c!"ipv6" := by simpa using List.find?_some hl
        have hip := (inst_ipv6 (hb ip hm) hn).1
        simp only
        rw [mldAddr_eq (o := 8) hip c!"sip" (Or.inl ⟨rfl, rfl⟩), mldAddr_eq (o := 24) hip c!"dip" (Or.inr ⟨rfl, rfl⟩)]
        have hipl : (hdrBytes ip).length = 40 := by rw [Props.hdrBytes_length, hip.size]; decide +kernel
        by_cases hs : (given ip c!"sip").isSome = true
        · by_cases hd : (given ip c!"dip").isSome = true
          · rw [if_pos hs, Out.ok_bind, if_pos hd, Out.ok_bind, copyHdrs_bytes hfits, Out.ok_bind, mldPseudo_eq,
              inetChksum_append (by rw [pseudo6_len (slice_length _ _ _ (by omega)) (slice_length _ _ _ (by omega))])]
            rw [if_pos (by rw [hs, hd]; rfl)]
            rw [parseBytes_hexStr _ 2 (by omega) (by
              have := inetChksum_lt 0 (mldData ip (mldAdj x) above); unfold mldData at this; omega), Out.ok_bind]
            rfl
          · rw [if_pos hs, Out.ok_bind, if_neg hd, Out.exit_bind, if_neg (by rw [hs]; simpa using hd)]
        · rw [if_neg hs, Out.exit_bind, if_neg (by simp [hs])]
  · intro y hy
    unfold mldFilled at hy
    split at hy
    · simp only [Out.ok.injEq] at hy; rw [← hy]; exact ⟨a2, hf0⟩
    · split at hy
      · simp at hy
      · split at hy
        · simp only [Out.ok.injEq] at hy
          rw [← hy]
          rename_i ip _ _
          have := a2.setVal (v := some (beBytes 2 (inetChksum 0 (mldData ip (mldAdj x) above)))) hfc
            (beBytes_len_ok (by rw [wfc]; omega))
          refine ⟨this, mld_fits hnb this (fun m hm => ?_)⟩
          rw [given_setVal_other _ _ (by revert hm; revert m; decide +kernel)]
          exact a3 m
        · simp at hy

/-! ## PTP -/

/-- A PTP header after the default computation. -/
def ptpFilled (x : Hdr) (above : List Hdr) : Hdr :=
  match findField x c!"hdr-messageLength" with
  | none => x
  | some _ => setDefault x c!"hdr-messageLength" (some (beBytes 2 (sumSizes (x :: above))))

theorem fillPtp_eq {t x : Hdr} (hi : Inst t x) (hw : ∀ ft, findField t c!"hdr-messageLength" = some ft → ft.width = 16)
    (hsz : x.size < 2 ^ 51) (above : List Hdr) (ha : Goods above) :
    fillPtp x above = .ok (ptpFilled x above) ∧ Inst t (ptpFilled x above) := by
  unfold fillPtp ptpFilled
  cases h1 : findField x c!"hdr-messageLength" with
  | none => exact ⟨rfl, hi⟩
  | some f =>
    obtain ⟨ft, hft, hfi⟩ := hi.find h1
    constructor
    · simp only
      unfold setDefault
      rw [given_eq, h1]
      simp only [Option.bind_some]
      split
      · rfl
      · rw [parseBytes_decStr _ 2 (by omega) (by have := ha.sum' hsz; omega), Out.ok_bind]
    · exact hi.setDefault hft (beBytes_len_ok (by rw [hw ft hft]; omega))

/-- A PTP TLV after the default computation. -/
def tlvFilled (x : Hdr) (above : List Hdr) : Hdr :=
  match findField x c!"tlv-length" with
  | none => x
  | some _ => setDefault x c!"tlv-length" (some (beBytes 2 (sumSizes (x :: above) - 4)))

theorem fillPtpTlv_eq {t x : Hdr} (hi : Inst t x) (hw : ∀ ft, findField t c!"tlv-length" = some ft → ft.width = 16)
    (hsz : x.size < 2 ^ 51) (h4 : 4 ≤ t.size) (above : List Hdr) (ha : Goods above) :
    fillPtpTlv x above = .ok (tlvFilled x above) ∧ Inst t (tlvFilled x above) := by
  unfold fillPtpTlv tlvFilled
  cases h1 : findField x c!"tlv-length" with
  | none => exact ⟨rfl, hi⟩
  | some f =>
    obtain ⟨ft, hft, hfi⟩ := hi.find h1
    constructor
    · simp only
      unfold setDefault
      rw [given_eq, h1]
      simp only [Option.bind_some]
      split
      · rfl
      · have hge : 4 ≤ sumSizes (x :: above) := by simp only [sumSizes]; rw [hi.size]; omega
        have e : ((sumSizes (x :: above) : Int) - 4) = ((sumSizes (x :: above) - 4 : Nat) : Int) := by omega
        have e2 : decStrInt ((sumSizes (x :: above) - 4 : Nat) : Int) = decStr (sumSizes (x :: above) - 4) := by
          unfold decStrInt; simp
        rw [e, e2, parseBytes_decStr _ 2 (by omega) (by have := ha.sum' hsz; omega), Out.ok_bind]
    · exact hi.setDefault hft (beBytes_len_ok (by rw [hw ft hft]; omega))

/-! ## CoAP -/

/-- A CoAP header with a token of `k` bytes after the default computation. -/
def coapFilled (k : Nat) (x : Hdr) : Hdr :=
  if (given x c!"tkl").isSome || (given x c!"token").isNone then x
  else setVal x c!"tkl" (some (beBytes 1 (bitToByte (k * 8))))

theorem fillCoap_eq {k : Nat} (hk : k ≤ 8) {x : Hdr} (hi : Inst (coapShape k) x) :
    fillCoap x = .ok (coapFilled k x) ∧ Inst (coapShape k) (coapFilled k x) := by
  have h1 : findField (coapShape k) c!"tkl" =
    some { name := c!"tkl", width := 4, offset := 4, dflt := some [0#8] } := rfl
  have h2 : findField (coapShape k) c!"token" =
    some { name := c!"token", width := k * 8, offset := 32, parser := .coapToken } := rfl
  obtain ⟨f1, e1, _, _, v1⟩ := hi.getField h1
  obtain ⟨f2, e2, _, _, v2⟩ := hi.getField h2
  have hfs := hi.fields
  constructor
  · unfold fillCoap coapFilled
    rw [e1, Out.ok_bind, e2, Out.ok_bind, v1, v2]
    by_cases ha : (given x c!"tkl").isSome = true
    · rw [if_pos ha, if_pos (by rw [ha]; rfl)]
    · rw [if_neg ha]
      by_cases hb : (given x c!"token").isNone = true
      · rw [if_pos hb, if_pos (by rw [hb]; simp)]
      · rw [if_neg hb, if_neg (by simp only [Bool.or_eq_true]; exact fun h => h.elim ha hb)]
        obtain ⟨g0, l, e0, r0, hfs⟩ := allRel_cons_inv hfs
        obtain ⟨g1, l, rfl, r1, hfs⟩ := allRel_cons_inv hfs
        obtain ⟨g2, l, rfl, r2, hfs⟩ := allRel_cons_inv hfs
        obtain ⟨g3, l, rfl, r3, hfs⟩ := allRel_cons_inv hfs
        obtain ⟨g4, l, rfl, r4, hfs⟩ := allRel_cons_inv hfs
        obtain ⟨g5, l, rfl, r5, hfs⟩ := allRel_cons_inv hfs
        have : x.fields[5]? = some g5 := by rw [e0]; rfl
        rw [this]
        simp only
        have w5 := r5.width
        simp only at w5
        rw [w5, parseBytes_decStr _ 1 (by omega) (by unfold bitToByte; omega), Out.ok_bind]
  · unfold coapFilled
    split
    · exact hi
    · exact hi.setVal h1 (beBytes_len_ok (by simp only; omega))

/-! ## CoAP options -/

/-- `coap-opt` after the default computation: `j` bytes of encoded option header, `k` bytes of value. -/
def optFilledShape (j k : Nat) : Hdr :=
  { name := c!"coap-opt", type := 0, size := j + k, fill := .coapOpt, parser := .fields, fields := [
    { name := c!"num", width := j * 8, offset := 0 },
    { name := c!"val", width := k * 8, offset := j * 8, multi := .coapOptVal }] }

theorem coapOptHdr_len (d l : Nat) : 1 ≤ (coapOptHdr d l).length ∧ (coapOptHdr d l).length ≤ 5 := by
  unfold coapOptHdr coapNibble
  simp only [List.length_cons, List.length_append]
  split <;> split <;> (try split) <;> (try split) <;> simp

theorem fillCoapOpt_eq {k m : Nat} {x : Hdr} (hi : Inst (optShape k m) x) :
    (fillCoapOpt x = .ok x ∧ (given x c!"num" = none ∨ given x c!"val" = none)) ∨
    ∃ n v x', given x c!"num" = some n ∧ given x c!"val" = some v ∧ n.length = 2 ∧ v.length = k ∧
      fillCoapOpt x = .ok x' ∧ x'.type = x.type ∧
      Inst (optFilledShape (coapOptHdr (beNat n) (k % 2 ^ 16)).length k) x' ∧
      given x' c!"num" = some (coapOptHdr (beNat n) (k % 2 ^ 16)) ∧ given x' c!"val" = some v := by
  have h1 : findField (optShape k m) c!"num" = some { name := c!"num", width := 16, offset := 0 } := rfl
  have h2 : findField (optShape k m) c!"val" = some { name := c!"val", width := k * 8, offset := 16, multi := .coapOptVal } := rfl
  obtain ⟨f1, e1, _, r1, v1⟩ := hi.getField h1
  obtain ⟨f2, e2, _, r2, v2⟩ := hi.getField h2
  cases hn : given x c!"num" with
  | none =>
    refine Or.inl ⟨?_, Or.inl rfl⟩
    unfold fillCoapOpt
    rw [e1, Out.ok_bind, e2, Out.ok_bind, v1, hn]
  | some n =>
    cases hv : given x c!"val" with
    | none =>
      refine Or.inl ⟨?_, Or.inr rfl⟩
      unfold fillCoapOpt
      rw [e1, Out.ok_bind, e2, Out.ok_bind, v1, v2, hv, hn]
    | some v =>
      have l1 := r1.len n (by rw [v1, hn])
      have l2 := r2.len v (by rw [v2, hv])
      have vl2 : varLen { name := c!"val", width := k * 8, offset := 16, multi := .coapOptVal } = 1 := rfl
      rw [vl2] at l2
      simp only at l1 l2
      have hn2 : n.length = 2 := by omega
      have hvk : v.length = k := by omega
      have hfs := hi.fields
      obtain ⟨g0, l, e0, q0, hfs⟩ := allRel_cons_inv hfs
      obtain ⟨g1, l, rfl, q1, hfs⟩ := allRel_cons_inv hfs
      obtain rfl := allRel_nil_inv hfs
      have n0 := q0.name; have n1 := q1.name
      simp only at n0 n1
      match n, hn2 with
      | [d0, d1], _ =>
        have hd : (d0.toNat * 256 + d1.toNat) % 2 ^ 16 = beNat [d0, d1] := by
          have := d0.isLt; have := d1.isLt
          simp only [beNat, List.foldl_cons, List.foldl_nil]; omega
        have hq1 : g1.val = some v := by
          have : given x c!"val" = g1.val := by
            unfold given
            rw [e0, find_neg _ (by rw [n0]; decide), find_pos _ (by rw [n1]; decide)]
            rfl
          rw [← this, hv]
        have hset : (setVal x c!"num" (some (coapOptHdr (beNat [d0, d1]) (k % 2 ^ 16)))).fields =
            [{ g0 with val := some (coapOptHdr (beNat [d0, d1]) (k % 2 ^ 16)) }, g1] := by
          unfold setVal updField
          simp only
          rw [e0]
          unfold updFirst
          rw [if_pos (by rw [n0]; decide)]
        have q1w := q1.width
        simp only at q1w
        let bb := coapOptHdr (beNat [d0, d1]) (k % 2 ^ 16)
        let x' : Hdr := { x with
          fields := [{ g0 with val := some bb, width := bb.length * 8, offset := 0 }, { g1 with offset := bb.length * 8 }],
          size := (bb.length * 8 + k * 8) / 8 }
        refine Or.inr ⟨[d0, d1], v, x', rfl, rfl, rfl, hvk, ?_, rfl, ?_, ?_, ?_⟩
        · unfold fillCoapOpt
          rw [e1, Out.ok_bind, e2, Out.ok_bind, v1, v2, hv, hn]
          simp only
          rw [hd, hvk]
          congr 1
          simp only [relayoutHdr, hset, List.modify_zero_cons, relayout, q1w, Nat.zero_add, x', bb]
          rfl
        · refine ⟨hi.name, ?_, hi.fill, hi.parser, ?_⟩
          · simp only [x', optFilledShape, bb]
            omega
          · refine AllRel.cons ?_ (AllRel.cons ?_ AllRel.nil)
            · refine ⟨?_, fun w hw => ?_⟩
              · have := q0.eq
                conv => lhs; rw [this]
              · simp only [Option.some.injEq] at hw
                subst hw
                simp only [bb]
                omega
            · refine ⟨?_, fun w hw => ?_⟩
              · have := q1.eq
                conv => lhs; rw [this]
              · simp only at hw
                rw [hq1] at hw
                cases hw
                simp only
                omega
        · unfold given
          simp only [x']
          rw [find_pos _ (by simp only; rw [n0]; decide)]
          rfl
        · unfold given
          simp only [x']
          rw [find_neg _ (by simp only; rw [n0]; decide), find_pos _ (by simp only; rw [n1]; decide)]
          exact hq1

end Ef
