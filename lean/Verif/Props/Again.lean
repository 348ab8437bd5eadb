import Verif.Props.Fill

/-!
# Supervision frames (C43) and serialising a frame twice (C44)
-/

namespace Ef.Props

open Ef Ef.Spec

/-! ## C43 -/

/-- The second TLV of a supervision header. -/
def tlv2Names : List CStr := [c!"tlv2_type", c!"tlv2_len", c!"tlv2_mac"]

/-- **C43, full statement.** -/
def C43_statement : Prop :=
  ∀ (argv : List CStr) (f f' : Frame) (b : Buf), Built argv f f' b → ∀ (pre post pre' post' : List Hdr) (x x' : Hdr),
    At f f' pre x post pre' x' post' → x.name = c!"sv" →
    x'.size = (if Uses x tlv2Names then 22 else 14) ∧ ∀ g ∈ x'.fields, g.offset + g.width ≤ 8 * x'.size

/-- **C43 does not hold**: without a second TLV the terminating TLV is outside the header. -/
theorem C43_false : ¬ C43_statement := by
  intro h
  obtain ⟨f, f', b, pre, x, post, pre', x', post', h1, h2, h3⟩ := holdsAt_elim (argv := [c!"eth", c!"sv"]) (i := 1)
    (P := fun _ _ _ _ x _ x' => decide (x.name = c!"sv") && x'.fields.any (fun g => decide (8 * x'.size < g.offset + g.width)))
    (by decide +kernel)
  simp only [Bool.and_eq_true, decide_eq_true_eq, List.any_eq_true] at h3
  obtain ⟨h3, g, h4, h5⟩ := h3
  have := (h _ _ _ _ h1 _ _ _ _ _ _ h2 h3).2 g h4
  omega

/-- The completed supervision header. -/
theorem sv_done {argv : List CStr} {f f' : Frame} {b : Buf} (h : Built argv f f' b) {pre post pre' post' : List Hdr}
    {x x' : Hdr} (ha : At f f' pre x post pre' x' post') (hx : x.name = c!"sv") :
    Inst HDR_SV x ∧ x' = svFilled x := by
  have hp := h.place ha
  have hn : ∀ t ∈ hdrTmpls, t.name = c!"sv" → t.fill = .sv ∧ t = HDR_SV := by decide +kernel
  obtain ⟨t, ht, hi, hm⟩ := inst_by_name hp.inst (ns := [c!"sv"]) (k := .sv) (by rw [hx]; simp)
    (fun t ht hm => (hn t ht (by simpa using hm)).1) (by decide)
  obtain ⟨hf, rfl⟩ := hn t ht (by simpa using hm)
  have hfi := hp.filled
  unfold fillHdr at hfi
  rw [hi.fill, hf] at hfi
  simp only at hfi
  rw [fillSv_eq hi] at hfi
  simp only [Out.ok.injEq] at hfi
  exact ⟨hi, hfi.symm⟩

theorem sv_table44 : HDR_SV.size = 22 ∧ ∀ g ∈ HDR_SV.fields, g.offset + g.width ≤ 8 * 22 ∧
    (g.name = c!"tlv0_type" → g.offset = 160 ∧ g.width = 8) ∧ (g.name = c!"tlv0_len" → g.offset = 168 ∧ g.width = 8) := by
  decide +kernel

theorem svShort_table44 : svShort.size = 14 ∧ ∀ g ∈ svShort.fields,
    (g.name ≠ c!"tlv0_type" → g.name ≠ c!"tlv0_len" → g.offset + g.width ≤ 8 * 14 ∨ g.width = 0) ∧
    (g.name = c!"tlv0_type" → g.offset = 160 ∧ g.width = 8) ∧ (g.name = c!"tlv0_len" → g.offset = 168 ∧ g.width = 8) ∧
    (g.name ∈ tlv2Names → g.width = 0) := by decide +kernel

/-- **C43, the part that holds.** A supervision header has 22 bytes if a field of its second TLV is given and 14 bytes
otherwise. All its fields except the terminating TLV are inside it; in the short form the fields of the second TLV have no
bits. The terminating TLV is always at bytes 20 and 21, which are inside the long form only. -/
theorem C43_size_partial (argv : List CStr) (f f' : Frame) (b : Buf) (h : Built argv f f' b)
    (pre post pre' post' : List Hdr) (x x' : Hdr) (ha : At f f' pre x post pre' x' post') (hx : x.name = c!"sv") :
    x'.size = (if Uses x tlv2Names then 22 else 14) ∧ (slice b (totalSize pre') x'.size).length = x'.size ∧
    ∀ g ∈ x'.fields,
      (g.name ≠ c!"tlv0_type" → g.name ≠ c!"tlv0_len" → g.width = 0 ∨ g.offset + g.width ≤ 8 * x'.size) ∧
      (g.name = c!"tlv0_type" → g.offset = 160 ∧ g.width = 8) ∧ (g.name = c!"tlv0_len" → g.offset = 168 ∧ g.width = 8) ∧
      (¬ Uses x tlv2Names → g.name ∈ tlv2Names → g.width = 0) := by
  obtain ⟨hi, e⟩ := sv_done h ha hx
  have hu : tlv2Fields.any (fun n => (given x n).isSome) = true ↔ Uses x tlv2Names := by
    rw [List.any_eq_true]
    constructor
    · rintro ⟨n, h1, h2⟩; exact ⟨n, h1, by simpa [Option.isSome_iff_ne_none] using h2⟩
    · rintro ⟨n, h1, h2⟩; exact ⟨n, h1, by simpa [Option.isSome_iff_ne_none] using h2⟩
  have hl : (slice b (totalSize pre') x'.size).length = x'.size := by rw [(h.slices ha).1, hdrBytes_length]
  by_cases hc : Uses x tlv2Names
  · have : x' = x := by rw [e]; unfold svFilled; rw [if_pos (hu.mpr hc)]
    rw [if_pos hc]
    obtain ⟨t1, t2⟩ := sv_table44
    have hs : x'.size = 22 := by rw [this, hi.size, t1]
    refine ⟨hs, hl, fun g hg => ?_⟩
    rw [this] at hg
    obtain ⟨ft, hm, hr⟩ := allRel_right hi.fields g hg
    obtain ⟨q1, q2, q3⟩ := t2 ft hm
    rw [hs, hr.name, hr.offset, hr.width]
    exact ⟨fun _ _ => Or.inr q1, q2, q3, fun hn => absurd hc hn⟩
  · have he : x' = zeroWidths { x with size := u32Sub x.size 8 } tlv2Fields := by
      rw [e]; unfold svFilled; rw [if_neg (fun h => hc (hu.mp h))]
    have hi' : Inst svShort x' := by
      rw [he]
      unfold svShort
      exact (hi.resize 8).zeroWidths (by decide +kernel) tlv2Fields
    rw [if_neg hc]
    obtain ⟨t1, t2⟩ := svShort_table44
    have hs : x'.size = 14 := by rw [hi'.size, t1]
    refine ⟨hs, hl, fun g hg => ?_⟩
    obtain ⟨ft, hm, hr⟩ := allRel_right hi'.fields g hg
    obtain ⟨q1, q2, q3, q4⟩ := t2 ft hm
    rw [hs, hr.name, hr.offset, hr.width]
    exact ⟨fun a b => (q1 a b).symm, q2, q3, fun _ => q4⟩

/-- A short and a long supervision header, in frames. -/
example : (∃ f f' b pre x post pre' x' post', Built [c!"eth", c!"sv", c!"seqn", c!"5"] f f' b ∧
      At f f' pre x post pre' x' post' ∧ x.name = c!"sv" ∧ x'.size = 14) ∧
    ∃ f f' b pre x post pre' x' post', Built [c!"eth", c!"sv", c!"tlv2_mac", c!"::5"] f f' b ∧
      At f f' pre x post pre' x' post' ∧ x.name = c!"sv" ∧ x'.size = 22 := by
  constructor
  · obtain ⟨f, f', b, pre, x, post, pre', x', post', h1, h2, h3⟩ := holdsAt_elim (argv := [c!"eth", c!"sv", c!"seqn", c!"5"]) (i := 1)
      (P := fun _ _ _ _ x _ x' => decide (x.name = c!"sv" ∧ x'.size = 14)) (by decide +kernel)
    exact ⟨f, f', b, pre, x, post, pre', x', post', h1, h2, by simpa using h3⟩
  · obtain ⟨f, f', b, pre, x, post, pre', x', post', h1, h2, h3⟩ := holdsAt_elim (argv := [c!"eth", c!"sv", c!"tlv2_mac", c!"::5"]) (i := 1)
      (P := fun _ _ _ _ x _ x' => decide (x.name = c!"sv" ∧ x'.size = 22)) (by decide +kernel)
    exact ⟨f, f', b, pre, x, post, pre', x', post', h1, h2, by simpa using h3⟩

/-! ## C44 -/

/-- **C44, full statement.** -/
def C44_statement : Prop :=
  ∀ (argv : List CStr) (f f' : Frame) (b : Buf), Sent argv f f' b → ∃ f'', frameToBuf f' = .ok (f'', b)

/-- **C44 does not hold**: the second time, an IGMP header is shortened again. -/
theorem C44_false : ¬ C44_statement := by
  intro h
  obtain ⟨f, f', b, pre, x, post, pre', x', post', h1, h2, h3⟩ := holdsAt_elim (argv := [c!"eth", c!"igmp", c!"data", c!"hex", c!"01"]) (i := 1)
    (P := fun _ f' b _ _ _ _ => match frameToBuf f' with | .ok (_, b') => decide (b' ≠ b) | _ => true)
    (by decide +kernel)
  obtain ⟨f'', hf⟩ := h _ _ _ _ h1.toSent
  rw [hf] at h3
  simp at h3

/-- Headers whose size is not changed while the frame is completed. -/
def Settled (x : Hdr) : Prop :=
  x.name ≠ c!"igmp" ∧ x.name ≠ c!"mld" ∧ (x.name = c!"sv" → Uses x tlv2Names) ∧
  (x.name = c!"coap-opt" → given x c!"num" = none ∨ given x c!"val" = none)

theorem setDefault_given {x : Hdr} {n : CStr} (v : Option Buf) (h : given x n ≠ none) : setDefault x n v = x := by
  unfold setDefault
  rw [if_pos (Option.isSome_iff_ne_none.mpr h)]

theorem given_default {x : Hdr} {n : CStr} {f : Field} (hf : findField x n = some f) (v : Buf) :
    given (setDefault x n (some v)) n ≠ none := by
  rw [given_setDefault hf]
  cases given x n <;> simp

theorem given_default_mono {x : Hdr} {m : CStr} (n : CStr) (v : Option Buf) (h : given x m ≠ none) : given (setDefault x n v) m ≠ none := by
  unfold setDefault
  split
  · exact h
  · rename_i hc
    by_cases e : m = n
    · subst e; rw [Option.isSome_iff_ne_none] at hc; exact absurd h hc
    · rw [given_setVal_other x v e]; exact h

/-- Completing a completed header changes nothing. -/
theorem fillHdr_again {pre post' : List Hdr} {x x' : Hdr} (hp : Place pre x post' x') (hs : Settled x) (below : List Hdr)
    (hfa : ∀ y ∈ post', HdrFits y) (hb : below.getLast?.map (·.name) = pre.getLast?.map (·.name)) : fillHdr below x' post' = .ok x' := by
  have hg := inst_good hp.inst
  have hfi := hp.filled
  unfold fillHdr at hfi
  cases hf : x.fill with
  | none =>
    rw [hf] at hfi
    simp only [Out.ok.injEq] at hfi
    subst hfi
    unfold fillHdr
    rw [hf]
  | etherType =>
    rw [hf] at hfi
    simp only at hfi
    obtain ⟨t, h1, h2, h3, h4⟩ := inst_of_fill hp.inst (by rw [hf]; decide)
    have h5 := et_tmpls t h1 (by rw [h2, hf])
    obtain ⟨ft, hft⟩ : ∃ ft, findField t c!"et" = some ft := by
      cases e : findField t c!"et" with
      | none => rw [e] at h5; simp at h5
      | some f => exact ⟨f, rfl⟩
    have w : ft.width = 16 := width_of hft h5
    have e := fillEtherType_eq h3 hft post' hp.goods
    rw [hfi] at e
    simp only [Out.ok.injEq] at e
    cases post' with
    | nil =>
      simp only at e
      subst e
      unfold fillHdr; rw [hf]; exact hfi
    | cons n post' =>
      simp only at e
      have hi' : Inst t x' := by rw [e]; exact h3.setDefault hft (beBytes_len_ok (by rw [w]; omega))
      obtain ⟨g, hg', _⟩ := h3.find' hft
      unfold fillHdr
      rw [hi'.fill, h2, hf]
      simp only
      rw [fillEtherType_eq hi' hft _ hp.goods]
      simp only
      rw [setDefault_given _ (by rw [e]; exact given_default hg' _)]
  | ipv4 =>
    rw [hf] at hfi
    simp only at hfi
    obtain ⟨h3, h4⟩ := tmpl_of_fill hp.inst .ipv4 HDR_IPV4 hf (by decide) (by decide +kernel)
    have e1 := fillIpv4_eq h3 post' hp.goods
    rw [hfi] at e1
    simp only [Out.ok.injEq] at e1
    obtain ⟨fc, hfc⟩ := look HDR_IPV4 c!"chksum" (by decide +kernel)
    obtain ⟨fl, hfl⟩ := look HDR_IPV4 c!"len" (by decide +kernel)
    obtain ⟨fp, hfp⟩ := look HDR_IPV4 c!"proto" (by decide +kernel)
    have wfc : fc.width = 16 := width_of hfc (by decide +kernel)
    have wfp : fp.width = 8 := width_of hfp (by decide +kernel)
    have hi0 := ipv4Filled0_inst h3 post'
    have hi' : Inst HDR_IPV4 x' := by
      rw [e1]; exact hi0.setDefault hfc (beBytes_len_ok (by rw [wfc]; omega))
    obtain ⟨g1, hg1, _⟩ := hi0.find' hfc
    obtain ⟨g2, hg2, _⟩ := h3.find' hfp
    obtain ⟨g3, hg3, _⟩ := (h3.setDefault (v := some (beBytes 1 (protoNum post'))) hfp (beBytes_len_ok (by rw [wfp]; omega))).find' hfl
    have a1 : given x' c!"chksum" ≠ none := by rw [e1]; exact given_default hg1 _
    have a2 : given x' c!"len" ≠ none := by
      rw [e1]; refine given_default_mono _ _ ?_; unfold ipv4Filled0; exact given_default hg3 _
    have a3 : given x' c!"proto" ≠ none := by
      rw [e1]; refine given_default_mono _ _ ?_; unfold ipv4Filled0; exact given_default_mono _ _ (given_default hg2 _)
    unfold fillHdr
    rw [hi'.fill, ← h3.fill, hf]
    simp only
    rw [fillIpv4_eq hi' _ hp.goods]
    have : ipv4Filled0 x' post' = x' := by
      unfold ipv4Filled0; rw [setDefault_given (n := c!"proto") _ a3, setDefault_given _ a2]
    rw [this, setDefault_given _ a1]
  | ipv6 =>
    rw [hf] at hfi
    simp only at hfi
    obtain ⟨h3, h4⟩ := tmpl_of_fill hp.inst .ipv6 HDR_IPV6 hf (by decide) (by decide +kernel)
    obtain ⟨e1, hi'⟩ := fillIpv6_eq h3 post' hp.goods
    rw [hfi] at e1
    simp only [Out.ok.injEq] at e1
    rw [← e1] at hi'
    obtain ⟨fl, hfl⟩ := look HDR_IPV6 c!"len" (by decide +kernel)
    obtain ⟨fp, hfp⟩ := look HDR_IPV6 c!"next" (by decide +kernel)
    have wfp : fp.width = 8 := width_of hfp (by decide +kernel)
    obtain ⟨g2, hg2, _⟩ := h3.find' hfp
    obtain ⟨g3, hg3, _⟩ := (h3.setDefault (v := some (beBytes 1 (protoNum post'))) hfp (beBytes_len_ok (by rw [wfp]; omega))).find' hfl
    have a2 : given x' c!"len" ≠ none := by
      rw [e1]; unfold ipv6Filled; exact given_default hg3 _
    have a3 : given x' c!"next" ≠ none := by
      rw [e1]; unfold ipv6Filled; exact given_default_mono _ _ (given_default hg2 _)
    unfold fillHdr
    rw [hi'.fill, ← h3.fill, hf]
    simp only
    rw [(fillIpv6_eq hi' _ hp.goods).1]
    unfold ipv6Filled; rw [setDefault_given (n := c!"next") _ a3, setDefault_given _ a2]
  | udpTcp =>
    rw [hf] at hfi
    simp only at hfi
    obtain ⟨t, h1, h2, h3, h4⟩ := inst_of_fill hp.inst (by rw [hf]; decide)
    have h5 := (fill_names t h1).2.2.2.2.2.2 (by rw [h2, hf])
    obtain ⟨e1, hi'⟩ := fillUdpTcp_eq h5 h3 h4 pre post' hp.below hp.goods hfa
    rw [hfi] at e1
    simp only [Out.ok.injEq] at e1
    rw [← e1] at hi'
    obtain ⟨fc, hfc⟩ := look t c!"chksum" (by rcases h5 with rfl | rfl <;> decide +kernel)
    have hlen : ∀ g, findField x' c!"len" = some g → given x' c!"len" ≠ none := by
      intro g hg2
      obtain ⟨ft, hft, _⟩ := hi'.find hg2
      obtain ⟨g3, hg3, _⟩ := h3.find' hft
      have : given (lenFilled x post') c!"len" ≠ none := by
        unfold lenFilled
        rw [hg3]
        exact given_default hg3 _
      rw [e1]
      unfold udpFilled
      split
      · exact this
      · exact given_default_mono _ _ this
    have l1 : fillUdpLen x' post' = .ok x' := by
      unfold fillUdpLen
      split
      · rfl
      · rename_i g hg2
        have := hlen g hg2
        rw [given_eq, hg2] at this
        exact if_pos (Option.isSome_iff_ne_none.mpr this)
    unfold fillHdr
    rw [hi'.fill, h2, hf]
    simp only
    unfold fillUdpTcp
    rw [l1, Out.ok_bind]
    obtain ⟨gc, k1, k2, k3, k4⟩ := hi'.getField hfc
    unfold fillUdpChksum
    rw [k1, Out.ok_bind, k4]
    split
    · rfl
    · rename_i hc
      have hno : given x' c!"chksum" = none := by simpa using hc
      have hps : pseudoBytes pre x.type (sumSizes (x :: post')) = none := by
        cases hq : pseudoBytes pre x.type (sumSizes (x :: post')) with
        | none => rfl
        | some pb =>
          exfalso
          have hi1 : ∃ g, findField (lenFilled x post') c!"chksum" = some g := by
            obtain ⟨g, hg1, _⟩ := h3.find' hfc
            unfold lenFilled
            split
            · exact ⟨g, hg1⟩
            · unfold setDefault
              split
              · exact ⟨g, hg1⟩
              · rw [findField_setVal_other _ (by decide)]; exact ⟨g, hg1⟩
          obtain ⟨g, hg1⟩ := hi1
          have : given x' c!"chksum" ≠ none := by
            rw [e1]
            unfold udpFilled
            rw [hq]
            exact given_default hg1 _
          exact this hno
      unfold pseudoBytes at hps
      cases hbl : below.getLast? with
      | none => rfl
      | some ll =>
        rw [hbl] at hb
        cases hpl : pre.getLast? with
        | none => rw [hpl] at hb; simp at hb
        | some lp =>
          rw [hpl] at hb hps
          simp only [Option.map_some, Option.some.injEq] at hb
          simp only at hps ⊢
          unfold pseudoFor
          rw [hb]
          split at hps
          · simp at hps
          · rename_i q1
            split at hps
            · simp at hps
            · rename_i q2
              rw [if_neg q1, if_neg q2]
  | icmp =>
    rw [hf] at hfi
    simp only at hfi
    obtain ⟨h3, h4⟩ := tmpl_of_fill hp.inst .icmp HDR_ICMP hf (by decide) (by decide +kernel)
    obtain ⟨e1, hi'⟩ := fillIcmp_eq h3 pre post' hp.below hp.goods hfa
    rw [hfi] at e1
    simp only [Out.ok.injEq] at e1
    rw [← e1] at hi'
    obtain ⟨fc, hfc⟩ := look HDR_ICMP c!"chksum" (by decide +kernel)
    obtain ⟨gc, k1, k2, k3, k4⟩ := hi'.getField hfc
    obtain ⟨gx, m1, m2, m3, m4⟩ := h3.getField hfc
    have a1 : (given x' c!"chksum").isSome = true := by
      rw [e1]
      unfold icmpFilled
      split
      · assumption
      · split
        · rw [given_setVal (h := { x with type := 58 }) (f := gx) m2]; rfl
        · rw [given_setVal m2]; rfl
    unfold fillHdr
    rw [hi'.fill, ← h3.fill, hf]
    simp only
    unfold fillIcmp
    rw [k1, Out.ok_bind, k4, if_pos a1]
  | igmp =>
    obtain ⟨h3, h4⟩ := tmpl_of_fill hp.inst .igmp HDR_IGMP hf (by decide) (by decide +kernel)
    exact absurd (by rw [h3.name]; decide +kernel) hs.1
  | mld =>
    obtain ⟨h3, h4⟩ := tmpl_of_fill hp.inst .mld HDR_MLD hf (by decide) (by decide +kernel)
    exact absurd (by rw [h3.name]; decide +kernel) hs.2.1
  | sv =>
    rw [hf] at hfi
    simp only at hfi
    obtain ⟨h3, h4⟩ := tmpl_of_fill hp.inst .sv HDR_SV hf (by decide) (by decide +kernel)
    obtain ⟨n, hn, hu⟩ := hs.2.2.1 (by rw [h3.name]; decide +kernel)
    rw [fillSv_eq h3] at hfi
    have : svFilled x = x := by
      unfold svFilled
      exact if_pos (List.any_eq_true.mpr ⟨n, hn, Option.isSome_iff_ne_none.mpr hu⟩)
    rw [this] at hfi
    simp only [Out.ok.injEq] at hfi
    subst hfi
    unfold fillHdr
    rw [hf]
    simp only
    rw [fillSv_eq h3, this]
  | coap =>
    rw [hf] at hfi
    simp only at hfi
    have key : ∃ k, k ≤ 8 ∧ Inst (coapShape k) x := by
      obtain ⟨t, ht', t', hv, hi, hty⟩ := hp.inst
      cases hv with
      | same =>
        have h1 := hi.fill
        have : ∀ t ∈ hdrTmpls, t.fill = .coap → t = HDR_COAP := by decide +kernel
        have h2 := this t ht' (by rw [← h1, hf])
        subst h2
        refine ⟨0, by omega, ?_⟩
        have : coapShape 0 = HDR_COAP := by decide +kernel
        rw [this]; exact hi
      | coap k hk => exact ⟨k, hk, hi⟩
      | pnet => have := hi.fill; rw [hf] at this; simp [pnetShape] at this
      | opt => have := hi.fill; rw [hf] at this; simp [optShape] at this
      | parms => have := hi.fill; rw [hf] at this; simp [parmsShape] at this
      | data => have := hi.fill; rw [hf] at this; simp [dataShape] at this
    obtain ⟨k, hk, h3⟩ := key
    obtain ⟨e1, hi'⟩ := fillCoap_eq hk h3
    rw [hfi] at e1
    simp only [Out.ok.injEq] at e1
    rw [← e1] at hi'
    unfold fillHdr
    rw [hi'.fill, ← h3.fill, hf]
    simp only
    rw [(fillCoap_eq hk hi').1]
    have : coapFilled k x' = x' := by
      obtain ⟨g, hg1, _⟩ := h3.find' (n := c!"tkl") (ft := { name := c!"tkl", width := 4, offset := 4, dflt := some [0#8] }) rfl
      by_cases hc : ((given x c!"tkl").isSome || (given x c!"token").isNone) = true
      · have : x' = x := by rw [e1]; unfold coapFilled; rw [if_pos hc]
        unfold coapFilled
        rw [this, if_pos hc]
      · have : (given x' c!"tkl").isSome = true := by
          rw [e1]; unfold coapFilled; rw [if_neg hc, given_setVal hg1]; rfl
        unfold coapFilled
        rw [if_pos (by rw [this]; rfl)]
    rw [this]
  | coapOpt =>
    rw [hf] at hfi
    simp only at hfi
    have hn : x.name = c!"coap-opt" := by
      obtain ⟨t, ht', t', hv, hi, hty⟩ := hp.inst
      cases hv with
      | same =>
        have : ∀ t ∈ hdrTmpls, t.fill = .coapOpt → t.name = c!"coap-opt" := by decide +kernel
        rw [hi.name]; exact this t ht' (by rw [← hi.fill, hf])
      | coap => have := hi.fill; rw [hf] at this; simp [coapShape] at this
      | pnet => have := hi.fill; rw [hf] at this; simp [pnetShape] at this
      | opt => rw [hi.name]; rfl
      | parms => have := hi.fill; rw [hf] at this; simp [parmsShape] at this
      | data => have := hi.fill; rw [hf] at this; simp [dataShape] at this
    have hno := hs.2.2.2 hn
    have hfi0 := hfi
    have : x' = x := by
      unfold fillCoapOpt at hfi
      rw [Out.bind_eq_ok] at hfi
      obtain ⟨a, ha, hfi⟩ := hfi
      rw [Out.bind_eq_ok] at hfi
      obtain ⟨c, hc, hfi⟩ := hfi
      have va : ∀ n (y : Field), getField x n = .ok y → y.val = given x n := by
        intro n y hy
        unfold getField at hy
        rw [given_eq]
        cases e : findField x n with
        | none => rw [e] at hy; simp at hy
        | some z => rw [e] at hy; simp only [Out.ok.injEq] at hy; subst hy; rfl
      rw [va _ _ ha, va _ _ hc] at hfi
      rcases hno with h | h
      · rw [h] at hfi; simpa using hfi.symm
      · rw [h] at hfi
        cases hq : given x c!"num" with
        | none => rw [hq] at hfi; simpa using hfi.symm
        | some q => rw [hq] at hfi; simpa using hfi.symm
    subst this
    unfold fillHdr
    rw [hf]
    exact hfi0
  | ptp =>
    rw [hf] at hfi
    simp only at hfi
    obtain ⟨t, h1, h2, h3, h4⟩ := inst_of_fill hp.inst (by rw [hf]; decide)
    have h5 := ptp_tmpls t h1 (by rw [h2, hf])
    obtain ⟨e1, hi'⟩ := fillPtp_eq h3 (fun ft hft => width_of hft h5) hg.small post' hp.goods
    rw [hfi] at e1
    simp only [Out.ok.injEq] at e1
    rw [← e1] at hi'
    unfold fillHdr
    rw [hi'.fill, h2, hf]
    simp only
    unfold fillPtp
    split
    · rfl
    · rename_i g hg2
      obtain ⟨ft, hft, _⟩ := hi'.find hg2
      obtain ⟨g3, hg3, _⟩ := h3.find' hft
      have : given x' c!"hdr-messageLength" ≠ none := by
        rw [e1]; unfold ptpFilled; rw [hg3]; exact given_default hg3 _
      rw [given_eq, hg2] at this
      exact if_pos (Option.isSome_iff_ne_none.mpr this)
  | ptpTlv =>
    rw [hf] at hfi
    simp only at hfi
    obtain ⟨t, h1, h2, h3, h4⟩ := inst_of_fill hp.inst (by rw [hf]; decide)
    have h5 := tlv_tmpls t h1 (by rw [h2, hf])
    obtain ⟨e1, hi'⟩ := fillPtpTlv_eq h3 (fun ft hft => width_of hft h5.1) hg.small h5.2 post' hp.goods
    rw [hfi] at e1
    simp only [Out.ok.injEq] at e1
    rw [← e1] at hi'
    unfold fillHdr
    rw [hi'.fill, h2, hf]
    simp only
    unfold fillPtpTlv
    split
    · rfl
    · rename_i g hg2
      obtain ⟨ft, hft, _⟩ := hi'.find hg2
      obtain ⟨g3, hg3, _⟩ := h3.find' hft
      have : given x' c!"tlv-length" ≠ none := by
        rw [e1]; unfold tlvFilled; rw [hg3]; exact given_default hg3 _
      rw [given_eq, hg2] at this
      exact if_pos (Option.isSome_iff_ne_none.mpr this)

theorem Settled.tame {x : Hdr} (h : Settled x) : Tame x := ⟨fun e _ => h.2.2.1 e, fun e => absurd e h.2.1⟩

theorem fillStack_again {argv : List CStr} {f f' : Frame} {b : Buf} (h : Built argv f f' b) (hs : ∀ x ∈ f.stack, Settled x) :
    ∀ (done rest : List Hdr), f'.stack = done ++ rest → fillStack done rest = .ok rest := by
  intro done rest
  induction rest generalizing done with
  | nil => intro _; rfl
  | cons x' rest ih =>
    intro e
    have hlen := h.goods.2.1
    have hl : done.length < f.stack.length := by rw [← hlen, e]; simp
    have ha : At f f' (f.stack.take done.length) f.stack[done.length] (f.stack.drop (done.length + 1)) done x' rest :=
      ⟨by rw [← List.drop_eq_getElem_cons hl, List.take_append_drop], e, by simp only [List.length_take]; omega⟩
    have hp := h.place ha
    unfold fillStack
    rw [ih (done ++ [x']) (by rw [e]; simp), Out.ok_bind]
    rw [fillHdr_again hp (hs _ (List.getElem_mem hl)) done (h.fitsAfter ha) ?_, Out.ok_bind]
    rcases List.eq_nil_or_concat done with rfl | ⟨d, y, rfl⟩
    · simp
    · have hl2 : d.length < f.stack.length := by simp at hl; omega
      have ha2 : At f f' (f.stack.take d.length) f.stack[d.length] (f.stack.drop (d.length + 1)) d y (x' :: rest) :=
        ⟨by rw [← List.drop_eq_getElem_cons hl2, List.take_append_drop], by rw [e]; simp, by simp only [List.length_take]; omega⟩
      have hn := (h.place ha2).res.keeps.name
      have ht : f.stack.take (d.concat y).length = f.stack.take d.length ++ [f.stack[d.length]] := by
        rw [List.length_concat, List.take_succ_eq_append_getElem hl2]
      rw [ht, List.concat_eq_append, List.getLast?_concat, List.getLast?_concat, Option.map_some, Option.map_some, hn]

/-- **C44, the part that holds.** If the frame has no IGMP or MLD header, no supervision header without second TLV and no
complete CoAP option, then converting the completed frame to bytes again gives the same bytes, and the frame does not change. -/
theorem C44_twice_partial (argv : List CStr) (f f' : Frame) (b : Buf) (h : Sent argv f f' b) (hs : ∀ x ∈ f.stack, Settled x) :
    frameToBuf f' = .ok (f', b) := by
  have h : Built argv f f' b := ⟨h, fun x hx => (hs x hx).tame⟩
  have hb := h.bytes
  have e := fillStack_again h hs [] f'.stack rfl
  unfold frameToBuf at hb ⊢
  rw [Out.bind_eq_ok] at hb
  obtain ⟨st, h1, hb⟩ := hb
  rw [Out.bind_eq_ok] at hb
  obtain ⟨b1, h2, h3⟩ := hb
  simp only [Out.ok.injEq, Prod.mk.injEq] at h3
  obtain ⟨rfl, rfl⟩ := h3
  simp only at e ⊢
  rw [e, Out.ok_bind, h2, Out.ok_bind]

instance (x : Hdr) : Decidable (Settled x) := inferInstanceAs (Decidable (_ ∧ _ ∧ (_ → _) ∧ (_ → _)))

/-- Such a frame, with computed lengths, checksums and protocol numbers. -/
example : ∃ f f' b, Built udpWords f f' b ∧ (∀ x ∈ f.stack, Settled x) ∧ f' ≠ f := by
  obtain ⟨f, f', b, pre, x, post, pre', x', post', h1, h2, h3⟩ := holdsAt_elim (argv := udpWords) (i := 1)
    (P := fun f f' _ _ _ _ _ => decide ((∀ x ∈ f.stack, Settled x) ∧ f'.stack ≠ f.stack)) (by decide +kernel)
  simp only [decide_eq_true_eq] at h3
  exact ⟨f, f', b, h1, h3.1, fun e => h3.2 (by rw [e])⟩

end Ef.Props
