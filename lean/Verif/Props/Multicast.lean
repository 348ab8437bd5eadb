import Verif.Props.Checksum

/-! # Properties C36 and C37: IGMP and MLD messages -/

namespace Ef.Props

open Ef Spec

/-! ## C36: IGMP -/

/-- Fields of an IGMP message after type and checksum, with bit position and width: RFC 2236 section 2 and RFC 3376
sections 4.1 and 4.2. -/
def igmpPlain : List (CStr × Nat × Nat) := [(c!"type", 0, 8), (c!"max_resp", 8, 8), (c!"chksum", 16, 16), (c!"ga", 32, 32)]

/-- A version 3 query has in addition these. -/
def igmpQuery : List (CStr × Nat × Nat) := igmpPlain ++
  [(c!"qresv", 64, 4), (c!"s", 68, 1), (c!"qrv", 69, 3), (c!"qqic", 72, 8), (c!"ns", 80, 16)]

/-- A version 3 report. -/
def igmpReport : List (CStr × Nat × Nat) :=
  [(c!"type", 0, 8), (c!"max_resp", 8, 8), (c!"chksum", 16, 16), (c!"rresv", 32, 16), (c!"ng", 48, 16)]

theorem uses_query (x : Hdr) : Uses x queryNames ↔ queryGiven x = true := by
  unfold Uses queryGiven
  rw [List.any_eq_true]
  have : queryNames = queryFields := rfl
  rw [this]
  simp only [ne_eq, Option.isSome_iff_ne_none]

theorem uses_report (x : Hdr) : Uses x reportNames ↔ reportGiven x = true := by
  unfold Uses reportGiven
  rw [List.any_eq_true]
  have : reportNames = reportFields := rfl
  rw [this]
  simp only [ne_eq, Option.isSome_iff_ne_none]

/-- The completed IGMP header. -/
theorem igmp_done {argv : List CStr} {f f' : Frame} {b : Buf} (h : Built argv f f' b) {pre post pre' post' : List Hdr}
    {x x' : Hdr} (ha : At f f' pre x post pre' x' post') (hx : x.name = c!"igmp") :
    Inst HDR_IGMP x ∧ Inst (igmpShape (queryGiven x) (reportGiven x)) x' ∧ x' = igmpFilled x post' := by
  have hp := h.place ha
  obtain ⟨hi, _⟩ := inst_igmp hp.inst hx
  have hf := hp.filled
  unfold fillHdr at hf
  have : HDR_IGMP.fill = .igmp := rfl
  rw [hi.fill, this] at hf
  simp only at hf
  obtain ⟨e1, e2, _, _⟩ := fillIgmp_eq hi post' (h.fitsAfter ha)
  rw [e1] at hf
  simp only [Out.ok.injEq] at hf
  rw [hf] at e2
  exact ⟨hi, e2, hf.symm⟩

theorem igmp_layout_table : ∀ q r : Bool, (igmpShape q r).size = (if q then 12 else 8) ∧
    (r = false → ∀ e ∈ (if q then igmpQuery else igmpPlain), aloneB (igmpShape q r) e.1 e.2.1 e.2.2 = true) ∧
    (q = false → r = true → ∀ e ∈ igmpReport, aloneB (igmpShape q r) e.1 e.2.1 e.2.2 = true) ∧
    sepB (igmpShape q r) c!"chksum" 16 16 = true := by decide +kernel

/-- **C36, first part.** Without version 3 fields an IGMP header is 8 bytes long, a query with version 3 fields 12
bytes, a version 3 report 8 bytes; and every field is where the RFCs put it, with the value given by the user (zero
if not given, except for the checksum). -/
theorem C36_igmp_layout (argv : List CStr) (f f' : Frame) (b : Buf) (h : Built argv f f' b)
    (pre post pre' post' : List Hdr) (x x' : Hdr) (ha : At f f' pre x post pre' x' post') (hx : x.name = c!"igmp") :
    (¬ Uses x queryNames → ¬ Uses x reportNames → x'.size = 8 ∧
      ∀ e ∈ igmpPlain, e.1 ≠ c!"chksum" → numAt b (8 * totalSize pre' + e.2.1) e.2.2 = asNum e.2.2 (given x e.1)) ∧
    (Uses x queryNames → ¬ Uses x reportNames → x'.size = 12 ∧
      ∀ e ∈ igmpQuery, e.1 ≠ c!"chksum" → numAt b (8 * totalSize pre' + e.2.1) e.2.2 = asNum e.2.2 (given x e.1)) ∧
    (¬ Uses x queryNames → Uses x reportNames → x'.size = 8 ∧
      ∀ e ∈ igmpReport, e.1 ≠ c!"chksum" → numAt b (8 * totalSize pre' + e.2.1) e.2.2 = asNum e.2.2 (given x e.1)) := by
  obtain ⟨hi, hi', e⟩ := igmp_done h ha hx
  obtain ⟨_, _, a3⟩ := igmpAdj_inst hi
  have hnd := (igmp_table (queryGiven x) (reportGiven x)).2.2.1
  have hgv : ∀ n, n ≠ c!"chksum" → given x' n = given x n := by
    intro n hn
    rw [e]; unfold igmpFilled
    rw [given_setDefault_other _ _ hn, a3]
  rw [uses_query, uses_report]
  obtain ⟨t1, t2, t3, t4⟩ := igmp_layout_table (queryGiven x) (reportGiven x)
  rw [hi'.size]
  refine ⟨fun hq hr => ?_, fun hq hr => ?_, fun hq hr => ?_⟩
  · simp only [Bool.not_eq_true] at hq hr
    rw [hq] at t1 t2
    refine ⟨by rw [hq]; exact t1, fun e he hc => ?_⟩
    have hal := t2 hr e he
    rw [← hgv _ hc]
    rw [← hq] at hal
    exact h.alone ha hi' hnd hal
  · simp only [Bool.not_eq_true] at hr
    rw [hq] at t1 t2
    refine ⟨by rw [hq]; exact t1, fun e he hc => ?_⟩
    have hal := t2 hr e he
    rw [← hgv _ hc]
    rw [← hq] at hal
    exact h.alone ha hi' hnd (hal.trans hq)
  · simp only [Bool.not_eq_true] at hq
    rw [hq] at t1 t3
    refine ⟨by rw [hq]; exact t1, fun e he hc => ?_⟩
    have hal := t3 rfl hr e he
    rw [← hgv _ hc]
    rw [← hq] at hal
    exact h.alone ha hi' hnd hal

/-- **C36, full statement of the second part.** -/
def C36_statement : Prop :=
  ∀ argv f f' b, Built argv f f' b → ∀ pre post pre' post' x x', At f f' pre x post pre' x' post' →
    x.name = c!"igmp" → given x c!"chksum" = none → ChecksumValid (slice b (totalSize pre') (totalSize (x' :: post')))

/-- **C36 does not hold**: `eth igmp type 1 max_resp 255 ga 255.255.255.0` gives a wrong checksum. -/
theorem C36_false : ¬ C36_statement := by
  intro h
  obtain ⟨f, f', b, pre, x, post, pre', x', post', h1, h2, h3⟩ := holdsAt_elim
    (argv := [c!"eth", c!"igmp", c!"type", c!"1", c!"max_resp", c!"255", c!"ga", c!"255.255.255.0"]) (i := 1)
    (P := fun _ f' b pre x pre' _ => decide (x.name = c!"igmp" ∧ given x c!"chksum" = none ∧ pre.length = 1 ∧
      ¬ ChecksumValid (slice b (totalSize pre') (totalSize (f'.stack.drop 1))))) (by decide +kernel)
  simp only [decide_eq_true_eq] at h3
  obtain ⟨q1, q2, q3, q4⟩ := h3
  refine q4 ?_
  have hd : f'.stack.drop 1 = x' :: post' := by
    rw [h2.after, ← q3, ← h2.same]; simp
  rw [hd]
  exact h _ f f' b h1 pre post pre' post' x x' h2 q1 q2

/-- **C36, second part as far as it holds**: the checksum over the IGMP header and everything following (the group
records of a report) verifies if and only if the sum needs only one fold. -/
theorem C36_igmp_checksum_partial (argv : List CStr) (f f' : Frame) (b : Buf) (h : Built argv f f' b)
    (pre post pre' post' : List Hdr) (x x' : Hdr) (ha : At f f' pre x post pre' x' post') (hx : x.name = c!"igmp")
    (hg : given x c!"chksum" = none) :
    ValidIffOneFold (slice b (totalSize pre') (totalSize (x' :: post'))) 2 := by
  obtain ⟨hi, hi', e⟩ := igmp_done h ha hx
  obtain ⟨_, a2, a3⟩ := igmpAdj_inst hi
  obtain ⟨fc, l1, l2, hs, o, w, sz, d⟩ := sep_of_sepB (igmp_layout_table (queryGiven x) (reportGiven x)).2.2.2
  have hg' : given (igmpAdj x) c!"chksum" = none := by rw [a3]; exact hg
  have hset : x' = setVal (igmpAdj x) c!"chksum"
      (some (beBytes 2 (inetChksum 0 ((igmpAdj x :: post').map hdrBytes).flatten))) := by
    rw [e]; unfold igmpFilled setDefault; rw [hg']; rfl
  rw [(h.slices ha).2]
  have := placed hs a2 (k := 2) o w (by omega) d hg' (by omega) [] (post'.map hdrBytes).flatten rfl
    (((x' :: post').map hdrBytes).flatten) (by
      simp only [List.nil_append, List.map_cons, List.flatten_cons] at hset ⊢
      rw [← hset])
  simpa using this

/-- A report with one group record. -/
def igmpWords : List CStr := [c!"eth", c!"ipv4", c!"igmp", c!"type", c!"0x22", c!"ng", c!"1", c!"igmpv3_group", c!"rec_type",
  c!"4", c!"ga", c!"239.1.2.3"]

example : ∃ f f' b pre x post pre' x' post', Built igmpWords f f' b ∧ At f f' pre x post pre' x' post' ∧
    x.name = c!"igmp" ∧ given x c!"chksum" = none ∧ ¬ Uses x queryNames ∧ Uses x reportNames ∧ x'.size = 8 ∧
    ChecksumValid (slice b 34 16) := by
  obtain ⟨f, f', b, pre, x, post, pre', x', post', h1, h2, h3⟩ := holdsAt_elim (argv := igmpWords) (i := 2)
    (P := fun _ _ b pre x pre' x' => decide (x.name = c!"igmp" ∧ given x c!"chksum" = none ∧ ¬ Uses x queryNames ∧
      Uses x reportNames ∧ x'.size = 8 ∧ ChecksumValid (slice b 34 16))) (by decide +kernel)
  simp only [decide_eq_true_eq] at h3
  exact ⟨f, f', b, pre, x, post, pre', x', post', h1, h2, h3⟩

/-! ## C37: MLD -/

/-- Fields of an MLD message: RFC 2710 section 3, RFC 3810 sections 5.1 and 5.2. -/
def mldPlain : List (CStr × Nat × Nat) :=
  [(c!"type", 0, 8), (c!"code", 8, 8), (c!"chksum", 16, 16), (c!"max_resp", 32, 16), (c!"rsv", 48, 16), (c!"ga", 64, 128)]

/-- A version 2 query has in addition these. -/
def mldQuery : List (CStr × Nat × Nat) := mldPlain ++
  [(c!"qresv", 192, 4), (c!"s", 196, 1), (c!"qrv", 197, 3), (c!"qqic", 200, 8), (c!"ns", 208, 16)]

/-- A version 2 report. -/
def mldReport : List (CStr × Nat × Nat) :=
  [(c!"type", 0, 8), (c!"code", 8, 8), (c!"chksum", 16, 16), (c!"rresv", 32, 16), (c!"ng", 48, 16)]

/-- The completed MLD header. -/
theorem mld_done {argv : List CStr} {f f' : Frame} {b : Buf} (h : Built argv f f' b) {pre post pre' post' : List Hdr}
    {x x' : Hdr} (ha : At f f' pre x post pre' x' post') (hx : x.name = c!"mld") :
    Inst HDR_MLD x ∧ Inst (mldShape (queryGiven x) (reportGiven x)) x' ∧ mldFilled pre x post' = .ok x' ∧
      ¬ (queryGiven x = true ∧ reportGiven x = true) := by
  have hp := h.place ha
  obtain ⟨hi, _⟩ := inst_mld hp.inst hx
  have hnb : ¬ (queryGiven x = true ∧ reportGiven x = true) := by
    have := (h.tameAt ha).1.2 hx
    rwa [uses_query, uses_report] at this
  have hf := hp.filled
  unfold fillHdr at hf
  have : HDR_MLD.fill = .mld := rfl
  rw [hi.fill, this] at hf
  simp only at hf
  obtain ⟨e1, e2⟩ := fillMld_eq hi hnb pre post' hp.below (h.fitsAfter ha)
  rw [e1] at hf
  exact ⟨hi, (e2 x' hf).1, hf, hnb⟩

theorem mld_layout_table : ∀ q r : Bool, ¬ (q = true ∧ r = true) →
    (mldShape q r).size = (if q then 28 else if r then 8 else 24) ∧
    (r = false → ∀ e ∈ (if q then mldQuery else mldPlain), aloneB (mldShape q r) e.1 e.2.1 e.2.2 = true) ∧
    (r = true → ∀ e ∈ mldReport, aloneB (mldShape q r) e.1 e.2.1 e.2.2 = true) ∧
    sepB (mldShape q r) c!"chksum" 16 16 = true := by decide +kernel

/-- What the MLD default computation changes. -/
theorem mld_given {below : List Hdr} {x x' : Hdr} {above : List Hdr} (hi : Inst HDR_MLD x)
    (h : mldFilled below x above = .ok x') (n : CStr) (hn : n ≠ c!"chksum") : given x' n = given x n := by
  obtain ⟨_, _, a3⟩ := mldAdj_inst hi
  unfold mldFilled at h
  split at h
  · simp only [Out.ok.injEq] at h; rw [← h, a3]
  · split at h
    · simp at h
    · split at h
      · simp only [Out.ok.injEq] at h
        rw [← h, given_setVal_other _ _ hn, a3]
      · simp at h

/-- **C37, first part.** Without version 2 fields an MLD header is 24 bytes long, a version 2 query 28 bytes, a version
2 report 8 bytes; and every field is where the RFCs put it. (That no header has both kinds of fields is part of
`Built`; see `C37_both_abort` for the other case.) -/
theorem C37_mld_layout_partial (argv : List CStr) (f f' : Frame) (b : Buf) (h : Built argv f f' b)
    (pre post pre' post' : List Hdr) (x x' : Hdr) (ha : At f f' pre x post pre' x' post') (hx : x.name = c!"mld") :
    (¬ Uses x queryNames → ¬ Uses x reportNames → x'.size = 24 ∧
      ∀ e ∈ mldPlain, e.1 ≠ c!"chksum" → numAt b (8 * totalSize pre' + e.2.1) e.2.2 = asNum e.2.2 (given x e.1)) ∧
    (Uses x queryNames → x'.size = 28 ∧
      ∀ e ∈ mldQuery, e.1 ≠ c!"chksum" → numAt b (8 * totalSize pre' + e.2.1) e.2.2 = asNum e.2.2 (given x e.1)) ∧
    (Uses x reportNames → x'.size = 8 ∧
      ∀ e ∈ mldReport, e.1 ≠ c!"chksum" → numAt b (8 * totalSize pre' + e.2.1) e.2.2 = asNum e.2.2 (given x e.1)) := by
  obtain ⟨hi, hi', e, hnb⟩ := mld_done h ha hx
  have hnd := (mld_table (queryGiven x) (reportGiven x) hnb).2.2.1
  have hgv := mld_given hi e
  rw [uses_query, uses_report]
  obtain ⟨t1, t2, t3, t4⟩ := mld_layout_table (queryGiven x) (reportGiven x) hnb
  rw [hi'.size]
  refine ⟨fun hq hr => ?_, fun hq => ?_, fun hr => ?_⟩
  · simp only [Bool.not_eq_true] at hq hr
    rw [hq, hr] at t1
    rw [hq] at t2
    refine ⟨by rw [hq, hr]; exact t1, fun e he hc => ?_⟩
    have hal := t2 hr e he
    rw [← hgv _ hc]
    rw [← hq] at hal
    exact h.alone ha hi' hnd hal
  · have hr : reportGiven x = false := by
      cases hr : reportGiven x
      · rfl
      · exact absurd ⟨hq, hr⟩ hnb
    rw [hq] at t1 t2
    refine ⟨by rw [hq]; exact t1, fun e he hc => ?_⟩
    have hal := t2 hr e he
    rw [← hgv _ hc]
    rw [← hq] at hal
    exact h.alone ha hi' hnd (hal.trans hq)
  · have hq : queryGiven x = false := by
      cases hq : queryGiven x
      · rfl
      · exact absurd ⟨hq, hr⟩ hnb
    rw [hq, hr] at t1
    refine ⟨by rw [hq, hr]; exact t1, fun e he hc => ?_⟩
    have hal := t3 hr e he
    rw [← hgv _ hc]
    exact h.alone ha hi' hnd hal

/-- **C37, full statement**: an accepted frame with an MLD header can be serialised, and the checksum (over the pseudo
header of the first IPv6 header, at byte `ip`) verifies. -/
def C37_statement : Prop :=
  ∀ argv n f, ShortWords argv → argcFrame argv = .ok (some (n, f)) →
    (∃ f' b, frameToBuf f = .ok (f', b)) ∧
    ∀ f' b, frameToBuf f = .ok (f', b) → ∀ pre mid post pre' mid' post' ip ip' x x',
      At f f' (pre ++ ip :: mid) x post (pre' ++ ip' :: mid') x' post' → pre'.length = pre.length →
      (∀ y ∈ pre, y.name ≠ c!"ipv6") → ip.name = c!"ipv6" → x.name = c!"mld" → given x c!"chksum" = none →
      ChecksumValid (covered6 b (totalSize pre') (totalSize (pre' ++ ip' :: mid')) 58 (totalSize (x' :: post')))

/-- **C37 does not hold**: `eth mld` ends the program. -/
theorem C37_false : ¬ C37_statement := by
  intro h
  have key : (match argcFrame [c!"eth", c!"mld"] with
    | .ok (some (_, f)) => (match frameToBuf f with | .exit _ => true | _ => false)
    | _ => false) = true := by decide +kernel
  split at key
  · rename_i n f e
    obtain ⟨⟨f', b, hok⟩, _⟩ := h _ n f (by decide +kernel) e
    rw [hok] at key
    simp at key
  · simp at key

/-- With fields of both a query and a report a failed assertion ends the program: `eth ipv6 mld ng 1 ns 1`. -/
theorem C37_both_abort : ∃ argv n f, ShortWords argv ∧ argcFrame argv = .ok (some (n, f)) ∧
    frameToBuf f = .abort := by
  have key : (match argcFrame [c!"eth", c!"ipv6", c!"sip", c!"::1", c!"dip", c!"::2", c!"mld", c!"ng", c!"1", c!"ns", c!"1"] with
    | .ok (some (_, f)) => (match frameToBuf f with | .abort => true | _ => false)
    | _ => false) = true := by decide +kernel
  split at key
  · rename_i n f e
    refine ⟨_, n, f, ?_, e, ?_⟩
    · decide +kernel
    · split at key
      · rename_i h; exact h
      · simp at key
  · simp at key

/-- **C37, second part as far as it holds**: the checksum over the pseudo header of the first IPv6 header below and
all bytes from the MLD header on verifies if and only if the sum needs only one fold. -/
theorem C37_mld_checksum_partial (argv : List CStr) (f f' : Frame) (b : Buf) (h : Built argv f f' b)
    (pre mid post pre' mid' post' : List Hdr) (ip ip' x x' : Hdr)
    (ha : At f f' (pre ++ ip :: mid) x post (pre' ++ ip' :: mid') x' post') (hl : pre'.length = pre.length)
    (hpre : ∀ y ∈ pre, y.name ≠ c!"ipv6") (hip : ip.name = c!"ipv6") (hx : x.name = c!"mld")
    (hg : given x c!"chksum" = none) :
    ValidIffOneFold (covered6 b (totalSize pre') (totalSize (pre' ++ ip' :: mid')) 58 (totalSize (x' :: post')))
      (40 + 2) := by
  obtain ⟨hi, hi', e, hnb⟩ := mld_done h ha hx
  obtain ⟨_, a2, a3⟩ := mldAdj_inst hi
  obtain ⟨fc, l1, l2, hs, o, w, sz, d⟩ := sep_of_sepB (mld_layout_table (queryGiven x) (reportGiven x) hnb).2.2.2
  have hg' : given (mldAdj x) c!"chksum" = none := by rw [a3]; exact hg
  have haip : At f f' pre ip (mid ++ x :: post) pre' ip' (mid' ++ x' :: post') :=
    ⟨by rw [ha.before]; simp, by rw [ha.after]; simp, hl⟩
  obtain ⟨r1, r2⟩ := ipv6_addr h haip hip
  have hipi := (inst_ipv6 (h.place haip).inst hip).1
  have hl40 : (hdrBytes ip).length = 40 := by rw [hdrBytes_length, hipi.size]; decide +kernel
  have hfind : (pre ++ ip :: mid).find? (fun y => y.name == c!"ipv6") = some ip := by
    rw [List.find?_append]
    have : pre.find? (fun y => y.name == c!"ipv6") = none := by
      rw [List.find?_eq_none]; intro y hy; simpa using hpre y hy
    rw [this, Option.none_or, List.find?_cons]
    simp [hip]
  have hsz : totalSize (x' :: post') = sumSizes (mldAdj x :: post') := by
    rw [← totalSize_eq, totalSize_cons, totalSize_cons, hi'.size, a2.size]
  have hset : x' = setVal (mldAdj x) c!"chksum" (some (beBytes 2 (inetChksum 0 (mldData ip (mldAdj x) post')))) := by
    unfold mldFilled at e
    rw [hg, hfind] at e
    simp only [Option.isSome_none, Bool.false_eq_true, if_false] at e
    split at e
    · simp only [Out.ok.injEq] at e; exact e.symm
    · simp at e
  unfold covered6
  rw [r1, r2, (h.slices ha).2, hsz]
  have hlen := pseudo6_len (slice_length (hdrBytes ip) 8 16 (by omega)) (slice_length (hdrBytes ip) 24 16 (by omega))
    58 (sumSizes (mldAdj x :: post'))
  have key := placed hs a2 (k := 2) o w (by omega) d hg' (by omega) (pseudo6 (slice (hdrBytes ip) 8 16)
    (slice (hdrBytes ip) 24 16) 58 (sumSizes (mldAdj x :: post'))) (post'.map hdrBytes).flatten (by rw [hlen])
  rw [hlen] at key
  refine key _ ?_
  unfold mldData at hset
  simp only [List.map_cons, List.flatten_cons] at hset ⊢
  rw [List.append_assoc (pseudo6 _ _ _ _), List.append_assoc (pseudo6 _ _ _ _), ← hset]

/-- Also where the program does not end early, the checksum is wrong where the carries have to be added twice:
`eth ipv6 sip ::ffff dip ::1 mld max_resp 0x00ad`. -/
theorem C37_checksum_wrong : ∃ f f' b, Built [c!"eth", c!"ipv6", c!"sip", c!"::ffff", c!"dip", c!"::1", c!"mld",
    c!"max_resp", c!"0x00ad"] f f' b ∧ f'.stack.map (fun x => (x.name, x.size)) = [(c!"eth", 14), (c!"ipv6", 40), (c!"mld", 24)] ∧
    ¬ ChecksumValid (covered6 b 14 54 58 24) := by
  obtain ⟨f, f', b, pre, x, post, pre', x', post', h1, h2, h3⟩ := holdsAt_elim
    (argv := [c!"eth", c!"ipv6", c!"sip", c!"::ffff", c!"dip", c!"::1", c!"mld", c!"max_resp", c!"0x00ad"]) (i := 2)
    (P := fun _ f' b pre x pre' x' => decide (
      f'.stack.map (fun x => (x.name, x.size)) = [(c!"eth", 14), (c!"ipv6", 40), (c!"mld", 24)] ∧
      ¬ ChecksumValid (covered6 b 14 54 58 24))) (by decide +kernel)
  simp only [decide_eq_true_eq] at h3
  exact ⟨f, f', b, h1, h3⟩

example : ∃ f f' b pre x post pre' x' post', Built mldWords f f' b ∧ At f f' pre x post pre' x' post' ∧
    x.name = c!"mld" ∧ given x c!"chksum" = none ∧ pre.map (·.name) = [c!"eth", c!"ipv6"] := by
  obtain ⟨f, f', b, pre, x, post, pre', x', post', h1, h2, h3⟩ := holdsAt_elim (argv := mldWords) (i := 2)
    (P := fun _ _ b pre x pre' x' => decide (x.name = c!"mld" ∧ given x c!"chksum" = none ∧
      pre.map (·.name) = [c!"eth", c!"ipv6"])) (by decide +kernel)
  simp only [decide_eq_true_eq] at h3
  exact ⟨f, f', b, pre, x, post, pre', x', post', h1, h2, h3⟩

end Ef.Props
