import Verif.Lemmas.Placed
import Verif.Props.Fill

/-!
# Properties C31, C32, C34, C35, C36, C37: checksums

The checksum routine of the program adds the carries only once. All statements below say exactly when the result is
right; the unconditional statements are refuted.
-/

namespace Ef.Props

open Ef Spec

/-! ## C32: the checksum routine -/

/-- **C32, full statement.** -/
def C32_statement : Prop := ∀ b : Buf, inetChksum 0 b = rfc1071 b

/-- **C32 does not hold**: the words 0xffff, 0xff01 and 0x00ff (in host byte order) sum up to 0x1ffff, of which the
carry has to be added twice. -/
theorem C32_false : ¬ C32_statement :=
  fun h => absurd (h [0x01#8, 0xff#8, 0xff#8, 0xff#8, 0xff#8, 0x00#8]) (by decide +kernel)

/-- **C32, the part that holds**: the routine computes the RFC 1071 checksum exactly if adding the carries once is
enough (for data whose sum fits 32 bits, as is the case up to 128 KiB). A partial sum of preceding data of even length
can be passed in. Missing: data for which a second carry occurs; there the result is always wrong. -/
theorem C32_checksum_partial (a b : Buf) (ha : a.length % 2 = 0) :
    (OneFold (a ++ b) → inetChksum (chksumLoop 0 a) b = rfc1071 (a ++ b)) ∧
    (hostSum (a ++ b) < 2 ^ 32 → inetChksum (chksumLoop 0 a) b = rfc1071 (a ++ b) → OneFold (a ++ b)) := by
  rw [inetChksum_append ha]
  refine ⟨inetChksum_rfc, fun hb he => ?_⟩
  apply Decidable.byContradiction
  intro hn
  exact inetChksum_wrong hb hn he

/-- The example of RFC 1071, section 3. -/
example : OneFold [0x00#8, 0x01#8, 0xf2#8, 0x03#8, 0xf4#8, 0xf5#8, 0xf6#8, 0xf7#8] ∧
    inetChksum 0 [0x00#8, 0x01#8, 0xf2#8, 0x03#8, 0xf4#8, 0xf5#8, 0xf6#8, 0xf7#8] = 0xffff - 0xddf2 := by decide +kernel

/-! ## C31: IPv4 -/

/-- **C31, full statement.** -/
def C31_statement : Prop :=
  ∀ argv f f' b, Built argv f f' b → ∀ pre post pre' post' x x', At f f' pre x post pre' x' post' →
    x.name = c!"ipv4" → given x c!"chksum" = none → ChecksumValid (slice b (totalSize pre') 20)

/-- **C31 does not hold**: `eth ipv4 id 0x9dda sip 255.255.255.255` gives a wrong checksum. -/
theorem C31_false : ¬ C31_statement := by
  intro h
  obtain ⟨f, f', b, pre, x, post, pre', x', post', h1, h2, h3⟩ := holdsAt_elim
    (argv := [c!"eth", c!"ipv4", c!"id", c!"0x9dda", c!"sip", c!"255.255.255.255"]) (i := 1)
    (P := fun _ _ b _ x pre' _ => decide (x.name = c!"ipv4" ∧ given x c!"chksum" = none ∧
      ¬ ChecksumValid (slice b (totalSize pre') 20))) (by decide +kernel)
  simp only [decide_eq_true_eq] at h3
  exact h3.2.2 (h _ f f' b h1 pre post pre' post' x x' h2 h3.1 h3.2.1)

theorem hostSum_le (b : Buf) : hostSum b ≤ 65535 * ((b.length + 1) / 2) := by
  induction b using buf_induct with
  | h0 => simp [hostSum]
  | h1 x => have := x.isLt; simp [hostSum]; omega
  | h2 x y b ih =>
    have := x.isLt; have := y.isLt
    simp only [hostSum, List.length_cons]
    have : (b.length + 1 + 1 + 1) / 2 = (b.length + 1) / 2 + 1 := by omega
    rw [this]; omega

/-- **C31, the part that holds**: without a checksum given by the user, the IPv4 header in the frame (20 bytes from
where it starts) verifies if and only if the sum over the header needs only one fold. -/
theorem C31_ipv4_checksum_partial (argv : List CStr) (f f' : Frame) (b : Buf) (h : Built argv f f' b)
    (pre post pre' post' : List Hdr) (x x' : Hdr) (ha : At f f' pre x post pre' x' post')
    (hx : x.name = c!"ipv4") (hg : given x c!"chksum" = none) :
    (slice b (totalSize pre') 20).length = 20 ∧
    (ChecksumValid (slice b (totalSize pre') 20) ↔ OneFold (zeroAt (slice b (totalSize pre') 20) 10)) := by
  obtain ⟨hi, hi', e⟩ := ipv4_done h.toSent ha hx
  have hsz : x'.size = 20 := by rw [hi'.size]; decide +kernel
  have hsl := (h.slices ha).1
  rw [hsz] at hsl
  rw [hsl]
  have hi0 := ipv4Filled0_inst hi post'
  obtain ⟨fc, hfc⟩ := look HDR_IPV4 c!"chksum" (by decide +kernel)
  have wfc : fc.width = 16 := width_of hfc (by decide +kernel)
  have ofc : fc.offset = 80 := offset_of hfc (by decide +kernel)
  have dfc : fc.dflt = none := dflt_of hfc (by decide +kernel)
  obtain ⟨l1, l2, hs⟩ := sep_of_disj ipv4_disj hfc
  have hg0 : given (ipv4Filled0 x post') c!"chksum" = none := by
    unfold ipv4Filled0
    rw [given_setDefault_other _ _ (by decide), given_setDefault_other _ _ (by decide)]; exact hg
  have hset : x' = setVal (ipv4Filled0 x post') c!"chksum"
      (some (beBytes 2 (inetChksum 0 (hdrBytes (ipv4Filled0 x post'))))) := by
    rw [e]; unfold setDefault; rw [hg0]; rfl
  have key := placed hs hi0 (k := 10) (by rw [ofc]) wfc (by decide +kernel) dfc hg0 (by omega) [] [] rfl (hdrBytes x')
    (by simp only [List.nil_append, List.append_nil]; rw [← hset])
  simp only [List.length_nil, Nat.zero_add] at key
  have hl : (hdrBytes x').length = 20 := by rw [hdrBytes_length, hsz]
  refine ⟨hl, fun hv => key.2 ?_ hv, key.1⟩
  have h1 := hostSum_le (zeroAt (hdrBytes x') 10)
  have h2 : (zeroAt (hdrBytes x') 10).length = 20 := by
    unfold zeroAt
    simp only [List.length_append, List.length_take, List.length_drop, List.length_cons, List.length_nil, hl]
    omega
  rw [h2] at h1
  omega

/-- The usual case: the condition of the theorem is met and the header verifies. -/
example : ∃ f f' b pre x post pre' x' post', Built udpWords f f' b ∧ At f f' pre x post pre' x' post' ∧
    x.name = c!"ipv4" ∧ given x c!"chksum" = none ∧ OneFold (zeroAt (slice b (totalSize pre') 20) 10) := by
  obtain ⟨f, f', b, pre, x, post, pre', x', post', h1, h2, h3⟩ := holdsAt_elim (argv := udpWords) (i := 1)
    (P := fun _ _ b _ x pre' _ => decide (x.name = c!"ipv4" ∧ given x c!"chksum" = none ∧
      OneFold (zeroAt (slice b (totalSize pre') 20) 10))) (by decide +kernel)
  simp only [decide_eq_true_eq] at h3
  exact ⟨f, f', b, pre, x, post, pre', x', post', h1, h2, h3⟩

/-! ## C34: UDP and TCP -/

/-- Name, protocol number and byte position of the checksum. -/
def transports : List (CStr × Nat × Nat) := [(c!"udp", 17, 6), (c!"tcp", 6, 16)]

/-- The data covered by the checksum of a transport header at byte `o`, with `len` bytes to the end of the last
header, above an IPv4 header at byte `ip`: read from the frame itself. -/
def covered4 (b : Buf) (ip o proto len : Nat) : Buf :=
  pseudo4 (slice b (ip + 12) 4) (slice b (ip + 16) 4) proto len ++ slice b o len

/-- The same above an IPv6 header at byte `ip`. -/
def covered6 (b : Buf) (ip o proto len : Nat) : Buf :=
  pseudo6 (slice b (ip + 8) 16) (slice b (ip + 24) 16) proto len ++ slice b o len

/-- **C34, full statement** (for IPv4; the one for IPv6 fails in the same way). -/
def C34_statement : Prop :=
  ∀ argv f f' b, Built argv f f' b → ∀ pre post pre' post' ip ip' x x',
    At f f' (pre ++ [ip]) x post (pre' ++ [ip']) x' post' → ip.name = c!"ipv4" → ∀ p ∈ transports, x.name = p.1 →
    given x c!"chksum" = none →
    ChecksumValid (covered4 b (totalSize pre') (totalSize (pre' ++ [ip'])) p.2.1 (totalSize (x' :: post')))

/-- **C34 does not hold**: `eth ipv4 sip 255.255.255.255 udp sport 0x01df` gives a wrong checksum. -/
theorem C34_false : ¬ C34_statement := by
  intro h
  obtain ⟨f, f', b, pre, x, post, pre', x', post', h1, h2, h3⟩ := holdsAt_elim
    (argv := [c!"eth", c!"ipv4", c!"sip", c!"255.255.255.255", c!"udp", c!"sport", c!"0x01df"]) (i := 2)
    (P := fun _ f' b pre x pre' x' => decide (x.name = c!"udp" ∧ given x c!"chksum" = none ∧
      pre.length = 2 ∧ (pre.drop 1).map (·.name) = [c!"ipv4"] ∧
      ¬ ChecksumValid (covered4 b (totalSize (pre'.take 1)) (totalSize pre') 17 (totalSize (f'.stack.drop 2)))))
    (by decide +kernel)
  simp only [decide_eq_true_eq] at h3
  obtain ⟨q1, q2, q3, q4, q5⟩ := h3
  have hl := h2.same
  match pre, pre', q3, hl with
  | [e, ip], [e', ip'], _, _ =>
    refine q5 ?_
    have := h _ f f' b h1 [e] post [e'] post' ip ip' x x' h2 (by simpa using q4) (c!"udp", 17, 6) (by decide) q1 q2
    have hd : f'.stack.drop 2 = x' :: post' := by rw [h2.after]; simp
    rw [hd]
    exact this

/-- The addresses in the completed IPv4 header are those in the header used for the pseudo header. -/
theorem ipv4_addr {argv : List CStr} {f f' : Frame} {b : Buf} (h : Built argv f f' b) {pre post pre' post' : List Hdr}
    {x x' : Hdr} (ha : At f f' pre x post pre' x' post') (hx : x.name = c!"ipv4") :
    slice b (totalSize pre' + 12) 4 = slice (hdrBytes x) 12 4 ∧ slice b (totalSize pre' + 16) 4 = slice (hdrBytes x) 16 4 := by
  obtain ⟨hi, hi', e⟩ := ipv4_done h.toSent ha hx
  have hsz : x'.size = 20 := by rw [hi'.size]; decide +kernel
  have hsl := (h.slices ha).1
  rw [hsz] at hsl
  have aux : ∀ n : CStr, ∀ k, k + 4 ≤ 20 → n ≠ c!"chksum" → n ≠ c!"len" → n ≠ c!"proto" →
      (findField HDR_IPV4 n).map (fun g => (g.offset, g.width)) = some (8 * k, 32) →
      slice b (totalSize pre' + k) 4 = slice (hdrBytes x) k 4 := by
    intro n k hk n1 n2 n3 hn
    cases hf : findField HDR_IPV4 n with
    | none => rw [hf] at hn; simp at hn
    | some ft =>
      rw [hf] at hn
      simp only [Option.map_some, Option.some.injEq, Prod.mk.injEq] at hn
      rw [← slice_slice b (totalSize pre') 20 k 4 hk, hsl, hi'.bytes ipv4_tfits ipv4_disj hf k 4 hn.1 hn.2,
        hi.bytes ipv4_tfits ipv4_disj hf k 4 hn.1 hn.2]
      congr 2
      rw [e, given_setDefault_other _ _ n1]
      unfold ipv4Filled0
      rw [given_setDefault_other _ _ n2, given_setDefault_other _ _ n3]
  exact ⟨aux c!"sip" 12 (by omega) (by decide) (by decide) (by decide) (by decide +kernel),
    aux c!"dip" 16 (by omega) (by decide) (by decide) (by decide) (by decide +kernel)⟩

/-- The addresses in the completed IPv6 header are those in the header used for the pseudo header. -/
theorem ipv6_addr {argv : List CStr} {f f' : Frame} {b : Buf} (h : Built argv f f' b) {pre post pre' post' : List Hdr}
    {x x' : Hdr} (ha : At f f' pre x post pre' x' post') (hx : x.name = c!"ipv6") :
    slice b (totalSize pre' + 8) 16 = slice (hdrBytes x) 8 16 ∧ slice b (totalSize pre' + 24) 16 = slice (hdrBytes x) 24 16 := by
  obtain ⟨hi, hi', e⟩ := ipv6_done h.toSent ha hx
  have hsz : x'.size = 40 := by rw [hi'.size]; decide +kernel
  have hsl := (h.slices ha).1
  rw [hsz] at hsl
  have aux : ∀ n : CStr, ∀ k, k + 16 ≤ 40 → n ≠ c!"len" → n ≠ c!"next" →
      (findField HDR_IPV6 n).map (fun g => (g.offset, g.width)) = some (8 * k, 128) →
      slice b (totalSize pre' + k) 16 = slice (hdrBytes x) k 16 := by
    intro n k hk n2 n3 hn
    cases hf : findField HDR_IPV6 n with
    | none => rw [hf] at hn; simp at hn
    | some ft =>
      rw [hf] at hn
      simp only [Option.map_some, Option.some.injEq, Prod.mk.injEq] at hn
      rw [← slice_slice b (totalSize pre') 40 k 16 hk, hsl, hi'.bytes ipv6_tfits ipv6_disj hf k 16 hn.1 hn.2,
        hi.bytes ipv6_tfits ipv6_disj hf k 16 hn.1 hn.2]
      congr 2
      rw [e]
      unfold ipv6Filled
      rw [given_setDefault_other _ _ n2, given_setDefault_other _ _ n3]
  exact ⟨aux c!"sip" 8 (by omega) (by decide) (by decide) (by decide +kernel),
    aux c!"dip" 24 (by omega) (by decide) (by decide) (by decide +kernel)⟩

/-- The header directly below. -/
theorem below_at {f f' : Frame} {pre post pre' post' : List Hdr} {ip ip' x x' : Hdr}
    (ha : At f f' (pre ++ [ip]) x post (pre' ++ [ip']) x' post') : At f f' pre ip (x :: post) pre' ip' (x' :: post') := by
  refine ⟨by rw [ha.before]; simp, by rw [ha.after]; simp, ?_⟩
  have := ha.same
  simpa using this

/-- The completed transport header, its checksum placed over the given pseudo header. -/
theorem transport_placed {argv : List CStr} {f f' : Frame} {b : Buf} (h : Built argv f f' b)
    {pre post pre' post' : List Hdr} {x x' : Hdr} (ha : At f f' pre x post pre' x' post') {p : CStr × Nat × Nat}
    (hp : p ∈ transports) (hx : x.name = p.1) (hg : given x c!"chksum" = none) {pb : Buf}
    (hpb : pseudoBytes pre p.2.1 (totalSize (x' :: post')) = some pb) (hpl : pb.length % 2 = 0) :
    ValidIffOneFold (pb ++ slice b (totalSize pre') (totalSize (x' :: post'))) (pb.length + p.2.2) := by
  obtain ⟨t, ht, hi, hty, htp⟩ : ∃ t, (t = HDR_UDP ∨ t = HDR_TCP) ∧ Inst t x ∧ x.type = t.type ∧
      (t.type = p.2.1 ∧ disjB t = true ∧ (findField t c!"chksum").map (fun g => (g.offset, g.width, g.dflt)) =
        some (8 * p.2.2, 16, none) ∧ p.2.2 + 2 ≤ t.size ∧ p.2.2 % 2 = 0) := by
    simp only [transports, List.mem_cons, List.not_mem_nil, or_false] at hp
    rcases hp with rfl | rfl
    · obtain ⟨a, b⟩ := inst_udp (h.place ha).inst hx
      exact ⟨HDR_UDP, Or.inl rfl, a, b, by decide +kernel⟩
    · obtain ⟨a, b⟩ := inst_tcp (h.place ha).inst hx
      exact ⟨HDR_TCP, Or.inr rfl, a, b, by decide +kernel⟩
  obtain ⟨t1, t2, t3, t4, t5⟩ := htp
  obtain ⟨hi', e⟩ := udp_done h ha t ht hi hty
  cases hfc : findField t c!"chksum" with
  | none => rw [hfc] at t3; simp at t3
  | some fc =>
    rw [hfc] at t3
    simp only [Option.map_some, Option.some.injEq, Prod.mk.injEq] at t3
    obtain ⟨l1, l2, hs⟩ := sep_of_disj t2 hfc
    have hs' : x'.size = x.size := by rw [hi.size, hi'.size]
    have hw : ∀ ft, findField t c!"len" = some ft → ft.width = 16 := by
      intro ft hft
      rcases ht with rfl | rfl
      · exact width_of hft (by decide +kernel)
      · have : findField HDR_TCP c!"len" = none := by decide +kernel
        rw [this] at hft; simp at hft
    have hpl' := h.place ha
    obtain ⟨_, hil⟩ := fillUdpLen_eq hi hw (inst_good hpl'.inst).small post' hpl'.goods
    have hgl : given (lenFilled x post') c!"chksum" = none := by
      unfold lenFilled
      split
      · exact hg
      · rw [given_setDefault_other _ _ (by decide)]; exact hg
    have hset : x' = setVal (lenFilled x post') c!"chksum"
        (some (beBytes 2 (inetChksum 0 (pb ++ ((lenFilled x post' :: post').map hdrBytes).flatten)))) := by
      rw [e]
      unfold udpFilled
      rw [hty, t1, sum_total hs', hpb]
      simp only
      unfold setDefault
      rw [hgl]; rfl
    rw [(h.slices ha).2]
    refine placed hs hil t3.1 t3.2.1 t4 t3.2.2 hgl t5 pb (post'.map hdrBytes).flatten hpl _ ?_
    simp only [List.map_cons, List.flatten_cons] at hset ⊢
    rw [List.append_assoc pb, List.append_assoc pb, ← hset]

/-- **C34, the part that holds, over IPv4**: without a checksum given by the user, UDP and TCP directly above `ipv4`
verify, over the pseudo header and all bytes to the end of the last header as found in the frame, if and only if the
sum needs only one fold. -/
theorem C34_over_ipv4_partial (argv : List CStr) (f f' : Frame) (b : Buf) (h : Built argv f f' b)
    (pre post pre' post' : List Hdr) (ip ip' x x' : Hdr)
    (ha : At f f' (pre ++ [ip]) x post (pre' ++ [ip']) x' post') (hip : ip.name = c!"ipv4")
    (p : CStr × Nat × Nat) (hp : p ∈ transports) (hx : x.name = p.1) (hg : given x c!"chksum" = none) :
    ValidIffOneFold (covered4 b (totalSize pre') (totalSize (pre' ++ [ip'])) p.2.1 (totalSize (x' :: post')))
      (12 + p.2.2) := by
  obtain ⟨a1, a2⟩ := ipv4_addr h (below_at ha) hip
  have hipi := (inst_ipv4 (h.place (below_at ha)).inst hip).1
  have hl : (hdrBytes ip).length = 20 := by rw [hdrBytes_length, hipi.size]; decide +kernel
  unfold covered4
  rw [a1, a2]
  have hlen := pseudo4_len (slice_length (hdrBytes ip) 12 4 (by omega)) (slice_length (hdrBytes ip) 16 4 (by omega))
    p.2.1 (totalSize (x' :: post'))
  have key := fun hpb => transport_placed h ha hp hx hg hpb (by rw [hlen])
  rw [hlen] at key
  refine key ?_
  unfold pseudoBytes
  rw [List.getLast?_concat]
  simp only [hip, if_true]

/-- **C34, the part that holds, over IPv6.** -/
theorem C34_over_ipv6_partial (argv : List CStr) (f f' : Frame) (b : Buf) (h : Built argv f f' b)
    (pre post pre' post' : List Hdr) (ip ip' x x' : Hdr)
    (ha : At f f' (pre ++ [ip]) x post (pre' ++ [ip']) x' post') (hip : ip.name = c!"ipv6")
    (p : CStr × Nat × Nat) (hp : p ∈ transports) (hx : x.name = p.1) (hg : given x c!"chksum" = none) :
    ValidIffOneFold (covered6 b (totalSize pre') (totalSize (pre' ++ [ip'])) p.2.1 (totalSize (x' :: post')))
      (40 + p.2.2) := by
  obtain ⟨a1, a2⟩ := ipv6_addr h (below_at ha) hip
  have hipi := (inst_ipv6 (h.place (below_at ha)).inst hip).1
  have hl : (hdrBytes ip).length = 40 := by rw [hdrBytes_length, hipi.size]; decide +kernel
  unfold covered6
  rw [a1, a2]
  have hlen := pseudo6_len (slice_length (hdrBytes ip) 8 16 (by omega)) (slice_length (hdrBytes ip) 24 16 (by omega))
    p.2.1 (totalSize (x' :: post'))
  have key := fun hpb => transport_placed h ha hp hx hg hpb (by rw [hlen])
  rw [hlen] at key
  refine key ?_
  unfold pseudoBytes
  rw [List.getLast?_concat]
  simp only [hip]
  rw [if_neg (by decide), if_pos trivial]

/-- The usual case. -/
example : ∃ f f' b pre x post pre' x' post', Built udpWords f f' b ∧ At f f' pre x post pre' x' post' ∧
    x.name = c!"udp" ∧ given x c!"chksum" = none ∧ pre.map (·.name) = [c!"eth", c!"ipv4"] ∧
    OneFold (zeroAt (covered4 b 14 34 17 13) 18) ∧ ChecksumValid (covered4 b 14 34 17 13) := by
  obtain ⟨f, f', b, pre, x, post, pre', x', post', h1, h2, h3⟩ := holdsAt_elim (argv := udpWords) (i := 2)
    (P := fun _ _ b pre x pre' _ => decide (x.name = c!"udp" ∧ given x c!"chksum" = none ∧
      pre.map (·.name) = [c!"eth", c!"ipv4"] ∧ OneFold (zeroAt (covered4 b 14 34 17 13) 18) ∧
      ChecksumValid (covered4 b 14 34 17 13))) (by decide +kernel)
  simp only [decide_eq_true_eq] at h3
  exact ⟨f, f', b, pre, x, post, pre', x', post', h1, h2, h3⟩

/-! ## C35: ICMP -/

/-- **C35, full statement** (the announcement as 58 is part of C38). -/
def C35_statement : Prop :=
  ∀ argv f f' b, Built argv f f' b → ∀ pre post pre' post' ip ip' x x',
    At f f' (pre ++ [ip]) x post (pre' ++ [ip']) x' post' → x.name = c!"icmp" → given x c!"chksum" = none →
    (ip.name = c!"ipv6" →
      ChecksumValid (covered6 b (totalSize pre') (totalSize (pre' ++ [ip'])) 58 (totalSize (x' :: post')))) ∧
    (ip.name ≠ c!"ipv6" → ChecksumValid (slice b (totalSize (pre' ++ [ip'])) (totalSize (x' :: post'))))

/-- **C35 does not hold**: `eth ipv4 icmp type 1 code 255 hd 0xffffff00` gives a wrong checksum. -/
theorem C35_false : ¬ C35_statement := by
  intro h
  obtain ⟨f, f', b, pre, x, post, pre', x', post', h1, h2, h3⟩ := holdsAt_elim
    (argv := [c!"eth", c!"ipv4", c!"icmp", c!"type", c!"1", c!"code", c!"255", c!"hd", c!"0xffffff00"]) (i := 2)
    (P := fun _ f' b pre x pre' x' => decide (x.name = c!"icmp" ∧ given x c!"chksum" = none ∧
      pre.length = 2 ∧ (pre.drop 1).map (·.name) = [c!"ipv4"] ∧
      ¬ ChecksumValid (slice b (totalSize pre') (totalSize (f'.stack.drop 2))))) (by decide +kernel)
  simp only [decide_eq_true_eq] at h3
  obtain ⟨q1, q2, q3, q4, q5⟩ := h3
  have hl := h2.same
  match pre, pre', q3, hl with
  | [e, ip], [e', ip'], _, _ =>
    refine q5 ?_
    have hn : ip.name = c!"ipv4" := by simpa using q4
    have := (h _ f f' b h1 [e] post [e'] post' ip ip' x x' h2 q1 q2).2 (by rw [hn]; decide)
    have hd : f'.stack.drop 2 = x' :: post' := by rw [h2.after]; simp
    rw [hd]
    exact this

/-- The completed ICMP header. -/
theorem icmp_done {argv : List CStr} {f f' : Frame} {b : Buf} (h : Built argv f f' b) {pre post pre' post' : List Hdr}
    {x x' : Hdr} (ha : At f f' pre x post pre' x' post') (hx : x.name = c!"icmp") :
    Inst HDR_ICMP x ∧ Inst HDR_ICMP x' ∧ x' = icmpFilled pre x post' := by
  have hp := h.place ha
  obtain ⟨hi, _⟩ := inst_icmp hp.inst hx
  have hf := hp.filled
  unfold fillHdr at hf
  have : HDR_ICMP.fill = .icmp := rfl
  rw [hi.fill, this] at hf
  simp only at hf
  obtain ⟨e1, e2⟩ := fillIcmp_eq hi pre post' hp.below hp.goods (h.fitsAfter ha)
  rw [e1] at hf
  simp only [Out.ok.injEq] at hf
  rw [hf] at e2
  exact ⟨hi, e2, hf.symm⟩

theorem icmp_sep : ∃ fc l1 l2, Sep HDR_ICMP c!"chksum" fc l1 l2 ∧ fc.offset = 8 * 2 ∧ fc.width = 16 ∧ fc.dflt = none ∧
    2 + 2 ≤ HDR_ICMP.size := by
  obtain ⟨fc, hfc⟩ := look HDR_ICMP c!"chksum" (by decide +kernel)
  obtain ⟨l1, l2, hs⟩ := sep_of_disj icmp_disj hfc
  exact ⟨fc, l1, l2, hs, offset_of hfc (by decide +kernel), width_of hfc (by decide +kernel),
    dflt_of hfc (by decide +kernel), by decide +kernel⟩

/-- **C35, the part that holds**: without a checksum given by the user, ICMP directly above `ipv6` verifies including
the pseudo header with protocol 58, and elsewhere over its own bytes and what follows, if and only if the sum needs
only one fold. -/
theorem C35_icmp_checksum_partial (argv : List CStr) (f f' : Frame) (b : Buf) (h : Built argv f f' b)
    (pre post pre' post' : List Hdr) (ip ip' x x' : Hdr)
    (ha : At f f' (pre ++ [ip]) x post (pre' ++ [ip']) x' post') (hx : x.name = c!"icmp")
    (hg : given x c!"chksum" = none) :
    (ip.name = c!"ipv6" → ValidIffOneFold
      (covered6 b (totalSize pre') (totalSize (pre' ++ [ip'])) 58 (totalSize (x' :: post'))) (40 + 2)) ∧
    (ip.name ≠ c!"ipv6" → ValidIffOneFold (slice b (totalSize (pre' ++ [ip'])) (totalSize (x' :: post'))) 2) := by
  obtain ⟨hi, hi', e⟩ := icmp_done h ha hx
  obtain ⟨fc, l1, l2, hs, o, w, d, sz⟩ := icmp_sep
  have hs' : x'.size = x.size := by rw [hi.size, hi'.size]
  rw [(h.slices ha).2]
  constructor
  · intro hip
    obtain ⟨a1, a2⟩ := ipv6_addr h (below_at ha) hip
    have hipi := (inst_ipv6 (h.place (below_at ha)).inst hip).1
    have hl : (hdrBytes ip).length = 40 := by rw [hdrBytes_length, hipi.size]; decide +kernel
    unfold covered6
    rw [a1, a2, (h.slices ha).2]
    have hlen := pseudo6_len (slice_length (hdrBytes ip) 8 16 (by omega)) (slice_length (hdrBytes ip) 24 16 (by omega))
      58 (totalSize (x' :: post'))
    have hbel : ipv6Below (pre ++ [ip]) = some ip := by
      unfold ipv6Below
      rw [List.getLast?_concat]
      simp only [hip]
      rfl
    have hset : hdrBytes x' = hdrBytes (setVal x c!"chksum" (some (beBytes 2 (inetChksum 0
        (pseudo6 (slice (hdrBytes ip) 8 16) (slice (hdrBytes ip) 24 16) 58 (totalSize (x' :: post')) ++
          ((x :: post').map hdrBytes).flatten))))) := by
      rw [e]
      unfold icmpFilled
      rw [hg, hbel]
      simp only [Option.isSome_none, Bool.false_eq_true, if_false]
      have hst : totalSize (setVal { x with type := 58 } c!"chksum" (some (beBytes 2 (inetChksum 0
        (pseudo6 (slice (hdrBytes ip) 8 16) (slice (hdrBytes ip) 24 16) 58 (sumSizes (x :: post')) ++
          ((x :: post').map hdrBytes).flatten)))) :: post') = sumSizes (x :: post') := by
        rw [totalSize_eq]; rfl
      rw [hst]
      rfl
    have key := placed hs hi (k := 2) o w sz d hg (by omega) (pseudo6 (slice (hdrBytes ip) 8 16)
      (slice (hdrBytes ip) 24 16) 58 (totalSize (x' :: post'))) (post'.map hdrBytes).flatten (by rw [hlen])
    rw [hlen] at key
    refine key _ ?_
    simp only [List.map_cons, List.flatten_cons] at hset ⊢
    rw [hset]
    simp only [List.append_assoc]
  · intro hip
    have hbel : ipv6Below (pre ++ [ip]) = none := by
      unfold ipv6Below
      rw [List.getLast?_concat]
      simp only
      rw [if_neg hip]
    have hset : x' = setVal x c!"chksum" (some (beBytes 2 (inetChksum 0 ((x :: post').map hdrBytes).flatten))) := by
      rw [e]
      unfold icmpFilled
      rw [hg, hbel]
      rfl
    have := placed hs hi (k := 2) o w sz d hg (by omega) [] (post'.map hdrBytes).flatten rfl
      (((x' :: post').map hdrBytes).flatten) (by
        simp only [List.nil_append, List.map_cons, List.flatten_cons] at hset ⊢
        rw [← hset])
    simpa using this

example : ∃ f f' b pre x post pre' x' post',
    Built [c!"eth", c!"ipv6", c!"sip", c!"::1", c!"icmp", c!"type", c!"128"] f f' b ∧ At f f' pre x post pre' x' post' ∧
    x.name = c!"icmp" ∧ given x c!"chksum" = none ∧ pre.map (·.name) = [c!"eth", c!"ipv6"] ∧
    ChecksumValid (covered6 b 14 54 58 8) := by
  obtain ⟨f, f', b, pre, x, post, pre', x', post', h1, h2, h3⟩ := holdsAt_elim
    (argv := [c!"eth", c!"ipv6", c!"sip", c!"::1", c!"icmp", c!"type", c!"128"]) (i := 2)
    (P := fun _ _ b pre x pre' _ => decide (x.name = c!"icmp" ∧ given x c!"chksum" = none ∧
      pre.map (·.name) = [c!"eth", c!"ipv6"] ∧ ChecksumValid (covered6 b 14 54 58 8))) (by decide +kernel)
  simp only [decide_eq_true_eq] at h3
  exact ⟨f, f', b, pre, x, post, pre', x', post', h1, h2, h3⟩

end Ef.Props
