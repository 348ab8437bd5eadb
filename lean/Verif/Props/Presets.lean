import Verif.Lemmas.FillOther
import Verif.Props.Standard

/-!
# Property C78: fields that are not given
-/

namespace Ef.Props

open Ef Spec

/-- **C78, full statement**: a field that is neither given nor computed holds its preset, if it has one, and zero
otherwise. -/
def C78_statement : Prop :=
  ∀ (argv : List CStr) (f f' : Frame) (b : Buf), Sent argv f f' b →
  ∀ (pre post pre' post' : List Hdr) (x x' : Hdr), At f f' pre x post pre' x' post' →
  ∀ s ∈ standards, x.name = s.name → ∀ q ∈ s.fields, (s.name, q.name) ∉ computed → given x q.name = none →
    numAt b (8 * (totalSize pre' + stdByte s x'.size q) + q.bit) q.bits = presetOf s.name q.name

/-- Fields with another value than they should have. -/
def misset : List (CStr × CStr × Nat) := [(c!"mrp_topo", c!"t_length", 12), (c!"ptp-tlv-path", c!"tlv-type", 0), (c!"opc-ua", c!"flags1-flags2", 1)]

/-- What the program sends. -/
def sentPreset (h n : CStr) : Nat :=
  match misset.find? (fun p => p.1 == h && p.2.1 == n) with
  | some p => p.2.2
  | none => presetOf h n

/-- Comparison of a template with the presets. -/
def presetOk (s : StdHdr) (t : Hdr) : Bool :=
  decide (¬ Reshapes t.fill) &&
    s.fields.all (fun q =>
      match findField t q.name with
      | some ft => decide ((s.name, q.name) ∈ computed) || (decide (q.name ∉ fillNames t.fill) &&
          decide (numOf ft none = sentPreset s.name q.name))
      | none => false)

theorem preset_all : ∀ s ∈ standards, ∀ t ∈ hdrTmpls, t.name = s.name → presetOk s t = true := by decide +kernel

theorem preset_elim {s : StdHdr} (hs : s ∈ standards) {t : Hdr} (ht : t ∈ hdrTmpls) (hn : t.name = s.name) :
    ¬ Reshapes t.fill ∧ ∀ q ∈ s.fields, (s.name, q.name) ∉ computed → q.name ∉ fillNames t.fill ∧
      ∀ ft, findField t q.name = some ft → numOf ft none = sentPreset s.name q.name := by
  have h := preset_all s hs t ht hn
  unfold presetOk at h
  simp only [Bool.and_eq_true, decide_eq_true_eq, List.all_eq_true] at h
  refine ⟨h.1, fun q hq hc => ?_⟩
  have := h.2 q hq
  split at this
  · rename_i ft hft
    simp only [Bool.or_eq_true, decide_eq_true_eq, Bool.and_eq_true] at this
    rcases this with this | this
    · exact absurd this hc
    · refine ⟨this.1, fun ft' hft' => ?_⟩
      rw [hft] at hft'
      cases hft'
      exact this.2
  · simp at this

/-- The field `q` in the shape `t` of a header. -/
structure FieldAt (s : StdHdr) (q : StdField) (t : Hdr) : Prop where
  place : ∃ ft l1 l2, Sep t q.name ft l1 l2 ∧ ft.offset = 8 * stdByte s t.size q + q.bit ∧ ft.width = q.bits ∧
    ft.offset + ft.width ≤ 8 * t.size ∧ ((s.name, q.name) ∉ computed → numOf ft none = sentPreset s.name q.name)
  other : (s.name, q.name) ∉ computed → q.name ∉ fillNames t.fill

theorem fieldAt_tmpl {s : StdHdr} (hs : s ∈ standards) {t : Hdr} (ht : t ∈ hdrTmpls) (hn : t.name = s.name) {q : StdField}
    (hq : q ∈ s.fields) : FieldAt s q t := by
  obtain ⟨h1, h2, h3, h4⟩ := std_elim hs ht hn
  obtain ⟨ft, hft, q1, q2, _, _, q5⟩ := h4 q hq
  obtain ⟨l1, l2, hsep⟩ := sep_of_disj h3 hft
  obtain ⟨p1, p2⟩ := preset_elim hs ht hn
  refine ⟨⟨ft, l1, l2, hsep, ?_, q2, by omega, fun hc => (p2 q hq hc).2 ft hft⟩, fun hc => (p2 q hq hc).1⟩
  rw [q1]
  have hb : stdByte s t.size q = q.byte := by
    have tab : ∀ s ∈ standards, s.name = c!"profinet-rtc" → s.bytes = 46 ∧ ∀ q ∈ s.fields, q.byte ≤ 46 := by decide +kernel
    unfold stdByte
    split
    · rename_i h
      obtain ⟨e1, e2⟩ := tab s hs h.1
      have := e2 q hq
      omega
    · rfl
  rw [hb]

theorem std_coap : ∀ s ∈ standards, s.name = c!"coap" → s = stdCoap := by decide +kernel
theorem std_pnet : ∀ s ∈ standards, s.name = c!"profinet-rtc" → s = stdProfinet := by decide +kernel

theorem fieldAt_coap (k : Nat) {q : StdField} (hq : q ∈ stdCoap.fields) : FieldAt stdCoap q (coapShape k) := by
  have hd : disjB (coapShape k) = true := rfl
  simp only [stdCoap, List.mem_cons, List.not_mem_nil, or_false] at hq
  rcases hq with rfl | rfl | rfl | rfl
  · obtain ⟨l1, l2, hsep⟩ := sep_of_disj hd (n := c!"ver") rfl
    exact ⟨⟨_, l1, l2, hsep, rfl, rfl, by simp only [coapShape]; omega, fun _ => by decide⟩, fun _ => (by decide : _ ∉ fillNames HDR_COAP.fill)⟩
  · obtain ⟨l1, l2, hsep⟩ := sep_of_disj hd (n := c!"type") rfl
    exact ⟨⟨_, l1, l2, hsep, rfl, rfl, by simp only [coapShape]; omega, fun _ => by decide⟩, fun _ => (by decide : _ ∉ fillNames HDR_COAP.fill)⟩
  · obtain ⟨l1, l2, hsep⟩ := sep_of_disj hd (n := c!"tkl") rfl
    exact ⟨⟨_, l1, l2, hsep, rfl, rfl, by simp only [coapShape]; omega, fun h => absurd (by decide) h⟩, fun h => absurd (by decide) h⟩
  · obtain ⟨l1, l2, hsep⟩ := sep_of_disj hd (n := c!"msgid") rfl
    exact ⟨⟨_, l1, l2, hsep, rfl, rfl, by simp only [coapShape]; omega, fun _ => by decide⟩, fun _ => (by decide : _ ∉ fillNames HDR_COAP.fill)⟩

theorem pnet_disj (k : Nat) : disjB (pnetShape k) = true := by
  simp only [disjB, pnetShape, disjB.go, List.all_cons, List.all_nil, Bool.and_true, Bool.and_eq_true, decide_eq_true_eq]
  omega

theorem fieldAt_pnet (k : Nat) {q : StdField} (hq : q ∈ stdProfinet.fields) : FieldAt stdProfinet q (pnetShape k) := by
  have hd := pnet_disj k
  simp only [stdProfinet, List.mem_cons, List.not_mem_nil, or_false] at hq
  have hs : (pnetShape k).size = k + 6 := rfl
  rcases hq with rfl | rfl | rfl | rfl | rfl | rfl | rfl | rfl | rfl | rfl
  · obtain ⟨l1, l2, hsep⟩ := sep_of_disj hd (n := c!"frameid") rfl
    exact ⟨⟨_, l1, l2, hsep, rfl, rfl, by rw [hs]; simp only; omega, fun _ => by decide⟩, fun _ => List.not_mem_nil⟩
  · obtain ⟨l1, l2, hsep⟩ := sep_of_disj hd (n := c!"cycle") rfl
    refine ⟨⟨_, l1, l2, hsep, ?_, rfl, by rw [hs]; simp only; omega, fun _ => rfl⟩, fun _ => List.not_mem_nil⟩
    rw [hs, stdByte, if_pos ⟨rfl, by decide⟩]; simp only; omega
  · obtain ⟨l1, l2, hsep⟩ := sep_of_disj hd (n := c!"reserved2") rfl
    refine ⟨⟨_, l1, l2, hsep, ?_, rfl, by rw [hs]; simp only; omega, fun _ => rfl⟩, fun _ => List.not_mem_nil⟩
    rw [hs, stdByte, if_pos ⟨rfl, by decide⟩]; simp only; omega
  · obtain ⟨l1, l2, hsep⟩ := sep_of_disj hd (n := c!"station-ok") rfl
    refine ⟨⟨_, l1, l2, hsep, ?_, rfl, by rw [hs]; simp only; omega, fun _ => rfl⟩, fun _ => List.not_mem_nil⟩
    rw [hs, stdByte, if_pos ⟨rfl, by decide⟩]; simp only; omega
  · obtain ⟨l1, l2, hsep⟩ := sep_of_disj hd (n := c!"provider-state-run") rfl
    refine ⟨⟨_, l1, l2, hsep, ?_, rfl, by rw [hs]; simp only; omega, fun _ => rfl⟩, fun _ => List.not_mem_nil⟩
    rw [hs, stdByte, if_pos ⟨rfl, by decide⟩]; simp only; omega
  · obtain ⟨l1, l2, hsep⟩ := sep_of_disj hd (n := c!"reserved1") rfl
    refine ⟨⟨_, l1, l2, hsep, ?_, rfl, by rw [hs]; simp only; omega, fun _ => rfl⟩, fun _ => List.not_mem_nil⟩
    rw [hs, stdByte, if_pos ⟨rfl, by decide⟩]; simp only; omega
  · obtain ⟨l1, l2, hsep⟩ := sep_of_disj hd (n := c!"data-valid") rfl
    refine ⟨⟨_, l1, l2, hsep, ?_, rfl, by rw [hs]; simp only; omega, fun _ => rfl⟩, fun _ => List.not_mem_nil⟩
    rw [hs, stdByte, if_pos ⟨rfl, by decide⟩]; simp only; omega
  · obtain ⟨l1, l2, hsep⟩ := sep_of_disj hd (n := c!"redundancy") rfl
    refine ⟨⟨_, l1, l2, hsep, ?_, rfl, by rw [hs]; simp only; omega, fun _ => rfl⟩, fun _ => List.not_mem_nil⟩
    rw [hs, stdByte, if_pos ⟨rfl, by decide⟩]; simp only; omega
  · obtain ⟨l1, l2, hsep⟩ := sep_of_disj hd (n := c!"primary") rfl
    refine ⟨⟨_, l1, l2, hsep, ?_, rfl, by rw [hs]; simp only; omega, fun _ => rfl⟩, fun _ => List.not_mem_nil⟩
    rw [hs, stdByte, if_pos ⟨rfl, by decide⟩]; simp only; omega
  · obtain ⟨l1, l2, hsep⟩ := sep_of_disj hd (n := c!"transfer-status") rfl
    refine ⟨⟨_, l1, l2, hsep, ?_, rfl, by rw [hs]; simp only; omega, fun _ => rfl⟩, fun _ => List.not_mem_nil⟩
    rw [hs, stdByte, if_pos ⟨rfl, by decide⟩]; simp only; omega

theorem std_shape {s : StdHdr} (hs : s ∈ standards) {x : Hdr} (hx : IsInst x) (hn : x.name = s.name) :
    ∃ t, Inst t x ∧ ¬ Reshapes t.fill ∧ ∀ q ∈ s.fields, FieldAt s q t := by
  obtain ⟨t, ht, t', hv, hi, hty⟩ := hx
  have hnm : t.name = s.name := by rw [← variant_name hv, ← hi.name]; exact hn
  cases hv with
  | same => exact ⟨t, hi, (preset_elim hs ht hnm).1, fun q hq => fieldAt_tmpl hs ht hnm hq⟩
  | coap k =>
    have := std_coap s hs hnm.symm
    subst this
    exact ⟨_, hi, (by decide : ¬ Reshapes HDR_COAP.fill), fun q hq => fieldAt_coap k hq⟩
  | pnet k =>
    have := std_pnet s hs hnm.symm
    subst this
    exact ⟨_, hi, (by decide : ¬ Reshapes HDR_PNET_RTC.fill), fun q hq => fieldAt_pnet k hq⟩
  | opt =>
    have : ∀ s ∈ standards, s.name ≠ HDR_COAP_OPTIONS.name := by decide +kernel
    exact absurd hnm.symm (this s hs)
  | parms =>
    have : ∀ s ∈ standards, s.name ≠ HDR_COAP_PARMS.name := by decide +kernel
    exact absurd hnm.symm (this s hs)
  | data =>
    have : ∀ s ∈ standards, s.name ≠ HDR_PAYLOAD.name := by decide +kernel
    exact absurd hnm.symm (this s hs)

/-- **C79, every size**: a header of the list has the number of bytes of its document, whatever is assigned to it (the
CoAP token and the PROFINET data may have other lengths). -/
theorem C79_every_size {argv : List CStr} {f f' : Frame} {b : Buf} (h : Sent argv f f' b) {pre post pre' post' : List Hdr} {x x' : Hdr}
    (ha : At f f' pre x post pre' x' post') {s : StdHdr} (hs : s ∈ standards) (hn : x.name = s.name)
    (h1 : s.name ≠ c!"coap") (h2 : s.name ≠ c!"profinet-rtc") : x'.size = s.bytes := by
  have hp := h.place ha
  obtain ⟨t, ht, t', hv, hi, hty⟩ := hp.inst
  have hnm : t.name = s.name := by rw [← variant_name hv, ← hi.name]; exact hn
  cases hv with
  | same =>
    have hr0 : ¬ Reshapes x.fill := by rw [hi.fill]; exact (preset_elim hs ht hnm).1
    have hlay : lay x' = lay x := fillHdr_lay hr0 x' hp.filled
    rw [← (std_elim hs ht hnm).2.1, ← hi.size]
    exact (congrArg (fun q => q.2.1) hlay)
  | coap k => exact absurd hnm.symm h1
  | pnet k => exact absurd hnm.symm h2
  | opt =>
    have : ∀ s ∈ standards, s.name ≠ HDR_COAP_OPTIONS.name := by decide +kernel
    exact absurd hnm.symm (this s hs)
  | parms =>
    have : ∀ s ∈ standards, s.name ≠ HDR_COAP_PARMS.name := by decide +kernel
    exact absurd hnm.symm (this s hs)
  | data =>
    have : ∀ s ∈ standards, s.name ≠ HDR_PAYLOAD.name := by decide +kernel
    exact absurd hnm.symm (this s hs)

/-- What is sent for a field that is neither given nor computed. -/
theorem sent {argv : List CStr} {f f' : Frame} {b : Buf} (h : Sent argv f f' b) {pre post pre' post' : List Hdr} {x x' : Hdr}
    (ha : At f f' pre x post pre' x' post') {s : StdHdr} (hs : s ∈ standards) (hn : x.name = s.name)
    {q : StdField} (hq : q ∈ s.fields) (hc : (s.name, q.name) ∉ computed) (hg : given x q.name = none)
    (hz : sentPreset s.name q.name = 0 → ∀ y ∈ pre, Tame y) :
    numAt b (8 * (totalSize pre' + stdByte s x'.size q) + q.bit) q.bits = sentPreset s.name q.name := by
  have hp := h.place ha
  obtain ⟨t, hi, hr, hf⟩ := std_shape hs hp.inst hn
  obtain ⟨⟨ft, l1, l2, hsep, q1, q2, q3, q4⟩, q5⟩ := hf q hq
  have hr0 : ¬ Reshapes x.fill := by rw [hi.fill]; exact hr
  have hlay : lay x' = lay x := fillHdr_lay hr0 x' hp.filled
  have hxs : x'.size = t.size := by rw [← hi.size]; exact (congrArg (fun q => q.2.1) hlay)
  have hw := field_on_wire h ha hi hr0 hsep q3 (fun _ hd => hz (by rw [← q4 hc]; unfold numOf; rw [hd]; rfl))
  have hg' : given x' q.name = none := by
    rw [← hg]
    exact fillHdr_other hr0 (by rw [hi.fill]; exact q5 hc) x' hp.filled
  rw [hg', q4 hc, q1, q2] at hw
  rw [← hw, hxs]
  congr 1
  omega

/-- **C78, the part that holds.** Missing: three fields with a wrong preset; and fields with the preset zero behind a
header that writes outside of its own bytes (see C16). -/
theorem C78_presets_partial {argv : List CStr} {f f' : Frame} {b : Buf} (h : Sent argv f f' b) {pre post pre' post' : List Hdr} {x x' : Hdr}
    (ha : At f f' pre x post pre' x' post') {s : StdHdr} (hs : s ∈ standards) (hn : x.name = s.name)
    {q : StdField} (hq : q ∈ s.fields) (hc : (s.name, q.name) ∉ computed) (hg : given x q.name = none)
    (hbad : (s.name, q.name) ∉ [(c!"mrp_topo", c!"t_length"), (c!"ptp-tlv-path", c!"tlv-type"), (c!"opc-ua", c!"flags1-flags2")])
    (hz : presetOf s.name q.name = 0 → ∀ y ∈ pre, Tame y) :
    numAt b (8 * (totalSize pre' + stdByte s x'.size q) + q.bit) q.bits = presetOf s.name q.name := by
  have : misset.find? (fun p => p.1 == s.name && p.2.1 == q.name) = none := by
    rw [List.find?_eq_none]
    intro p hp he
    simp only [Bool.and_eq_true, beq_iff_eq] at he
    refine hbad ?_
    rw [← he.1, ← he.2]
    have tab : ∀ p ∈ misset, (p.1, p.2.1) ∈
      [(c!"mrp_topo", c!"t_length"), (c!"ptp-tlv-path", c!"tlv-type"), (c!"opc-ua", c!"flags1-flags2")] := by decide
    exact tab p hp
  have he : sentPreset s.name q.name = presetOf s.name q.name := by unfold sentPreset; rw [this]
  rw [sent h ha hs hn hq hc hg (by rw [he]; exact hz), he]

/-- **C78, the three exceptions**: a topology change announces 12 bytes where 10 follow, a path trace TLV has type 0, and
an OPC-UA header announces a second byte of extended flags although it has none. -/
theorem C78_exceptions {argv : List CStr} {f f' : Frame} {b : Buf} (h : Sent argv f f' b) {pre post pre' post' : List Hdr} {x x' : Hdr}
    (ha : At f f' pre x post pre' x' post') :
    (x.name = c!"mrp_topo" → given x c!"t_length" = none → numAt b (8 * (totalSize pre' + 3)) 8 = 12) ∧
    (x.name = c!"ptp-tlv-path" → given x c!"tlv-type" = none → (∀ y ∈ pre, Tame y) → numAt b (8 * totalSize pre') 16 = 0) ∧
    (x.name = c!"opc-ua" → given x c!"flags1-flags2" = none → numAt b (8 * (totalSize pre' + 1)) 1 = 1) := by
  refine ⟨fun hn hg => ?_, fun hn hg hz => ?_, fun hn hg => ?_⟩
  · exact sent h ha (s := stdMrpTopo) (q := ⟨c!"t_length", 3, 0, 8⟩) (by decide) hn (by decide) (by decide) hg (fun h0 => absurd h0 (by decide))
  · exact sent h ha (s := stdTlvPath) (q := ⟨c!"tlv-type", 0, 0, 16⟩) (by decide) hn (by decide) (by decide) hg (fun _ => hz)
  · exact sent h ha (s := stdOpc) (q := ⟨c!"flags1-flags2", 1, 0, 1⟩) (by decide) hn (by decide) (by decide) hg (fun h0 => absurd h0 (by decide))

/-- **C78 does not hold**: `eth mrp_topo`. -/
theorem C78_false : ¬ C78_statement := by
  intro h
  obtain ⟨f, f', b, pre, x, post, pre', x', post', h1, h2, h3⟩ := holdsAt_elim (argv := [c!"eth", c!"mrp_topo"]) (i := 1)
    (P := fun _ _ _ _ x _ _ => decide (x.name = c!"mrp_topo" ∧ given x c!"t_length" = none)) (by decide +kernel)
  simp only [decide_eq_true_eq] at h3
  have e1 := h _ _ _ _ h1.toSent _ _ _ _ _ _ h2 stdMrpTopo (by decide) h3.1 ⟨c!"t_length", 3, 0, 8⟩ (by decide) (by decide) h3.2
  have e2 := (C78_exceptions h1.toSent h2).1 h3.1 h3.2
  have e3 : numAt b (8 * (totalSize pre' + 3)) 8 = 10 := e1
  omega

/-- The lengths preset in the headers are the number of bytes from behind the length field (`tlv_off` counts from behind
itself, too) to the next TLV; only the one of `mrp_topo` is not. -/
theorem C78_lengths : ∀ e ∈ [(stdMrpTst, c!"t_length", c!"c_type"), (stdMrpLnk, c!"t_length", c!"c_type"), (stdMrpNack, c!"t_length", c!"c_type"),
    (stdMrpTopo, c!"t_length", c!"c_type"), (stdMrpTst, c!"c_length", c!"e_type"), (stdMrpTopo, c!"c_length", c!"e_type"),
    (stdMrpLnk, c!"c_length", c!"e_type"), (stdMrpNack, c!"c_length", c!"e_type"), (stdMrpNack, c!"t_s_length", c!"c_type"),
    (stdCcm, c!"tlv_off", c!"end_tlv")],
    ∀ l ∈ e.1.fields, ∀ n ∈ e.1.fields, l.name = e.2.1 → n.name = e.2.2 →
      presetOf e.1.name l.name = n.byte - (l.byte + 1) := by decide +kernel

/-- Cases: all fields of an IPv4 header without assignments; a PROFINET header with 41 bytes of data. -/
example : ∃ f f' b pre x post pre' x' post', Built [c!"eth", c!"ipv4"] f f' b ∧ At f f' pre x post pre' x' post' ∧
    x.name = stdIpv4.name ∧ given x c!"ver" = none ∧ numAt b (8 * (totalSize pre' + 0) + 0) 4 = 4 ∧ given x c!"flags" = none ∧
    numAt b (8 * (totalSize pre' + 6)) 3 = 0 := by
  obtain ⟨f, f', b, pre, x, post, pre', x', post', h1, h2, h3⟩ := holdsAt_elim (argv := [c!"eth", c!"ipv4"]) (i := 1)
    (P := fun _ _ b _ x pre' _ => decide (x.name = stdIpv4.name ∧ given x c!"ver" = none ∧ numAt b (8 * (totalSize pre' + 0) + 0) 4 = 4 ∧
      given x c!"flags" = none ∧ numAt b (8 * (totalSize pre' + 6)) 3 = 0)) (by decide +kernel)
  simp only [decide_eq_true_eq] at h3
  exact ⟨f, f', b, pre, x, post, pre', x', post', h1, h2, h3⟩

example : ∃ f f' b pre x post pre' x' post', Built [c!"eth", c!"profinet-rtc", c!"data", c!"ababababababababababababababababababababababababababababababababababababababababab"] f f' b ∧
    At f f' pre x post pre' x' post' ∧ x.name = stdProfinet.name ∧ x'.size = 47 ∧ given x c!"primary" = none ∧
    numAt b (8 * (totalSize pre' + 45) + 7) 1 = 1 := by
  obtain ⟨f, f', b, pre, x, post, pre', x', post', h1, h2, h3⟩ := holdsAt_elim (argv := [c!"eth", c!"profinet-rtc", c!"data", c!"ababababababababababababababababababababababababababababababababababababababababab"]) (i := 1)
    (P := fun _ _ b _ x pre' x' => decide (x.name = stdProfinet.name ∧ x'.size = 47 ∧ given x c!"primary" = none ∧
      numAt b (8 * (totalSize pre' + 45) + 7) 1 = 1)) (by decide +kernel)
  simp only [decide_eq_true_eq] at h3
  exact ⟨f, f', b, pre, x, post, pre', x', post', h1, h2, h3⟩

end Ef.Props
