import Verif.Spec.Dissect
import Verif.Props.Presets
import Verif.Props.Payload
import Verif.Props.Fill

/-!
# What a receiver makes of the frame (C99)
-/

namespace Ef.Props

open Ef Ef.Spec

/-! ## Numbers in pieces of a frame -/

theorem bit_slice {b : Buf} {k m i : Nat} (h : i < 8 * m) : bit (slice b k m) i = bit b (8 * k + i) := by
  unfold bit slice
  have h1 : i / 8 < m := by omega
  have h2 : (8 * k + i) / 8 = k + i / 8 := by omega
  have h3 : (8 * k + i) % 8 = i % 8 := by omega
  rw [List.getElem?_take_of_lt h1, List.getElem?_drop, h2, h3]

theorem numAt_slice {b : Buf} {k m o w : Nat} (h : o + w ≤ 8 * m) : numAt (slice b k m) o w = numAt b (8 * k + o) w := by
  apply numAt_congr
  intro j hj
  rw [bit_slice (by omega), Nat.add_assoc]

theorem slice_len {b : Buf} {k m : Nat} (h : k + m ≤ b.length) : (slice b k m).length = m := by
  unfold slice
  rw [List.length_take, List.length_drop]
  omega

theorem slice_take {b : Buf} {k m n : Nat} (h : n ≤ m) : (slice b k m).take n = slice b k n := by
  unfold slice
  rw [List.take_take, Nat.min_eq_left h]

theorem slice_cut {b : Buf} {k m n s : Nat} (h : n ≤ m) : ((slice b k m).take n).drop s = slice b (k + s) (n - s) := by
  rw [slice_take h]
  unfold slice
  rw [List.drop_take, List.drop_drop]

/-! ## The numbers by which headers are announced -/

theorem linkNames_type : ∀ t ∈ hdrTmpls, etherType t.type =
    if t.name ∈ [c!"ctag", c!"stag", c!"rtag", c!"htag", c!"ipv4", c!"ipv6"] then protoOf t.name else none := by decide +kernel

theorem ipNames_type : ∀ t ∈ hdrTmpls, t.name ∉ [c!"arp", c!"ptp-tlv-org", c!"ptp-tlv-path"] → ipProto (t.type % 256) =
    if t.name ∈ [c!"udp", c!"tcp"] then protoOf t.name else none := by decide +kernel

/-- The number of a completed header is that of its kind, except for ICMP above IPv6. -/
theorem type_at {argv : List CStr} {f f' : Frame} {b : Buf} (h : Sent argv f f' b) {pre post pre' post' : List Hdr} {x x' : Hdr}
    (ha : At f f' pre x post pre' x' post') : ∃ t ∈ hdrTmpls, x.name = t.name ∧ x'.type < 65536 ∧
      (x'.type = t.type ∨ (t.name = c!"icmp" ∧ x'.type = 58)) := by
  have hp := h.place ha
  obtain ⟨t, ht, t', hv, hi, hty⟩ := hp.inst
  have hn : x.name = t.name := by rw [hi.name, variant_name hv]
  have small : ∀ t ∈ hdrTmpls, t.type < 65536 := by decide +kernel
  have key : x'.type = t.type ∨ (t.name = c!"icmp" ∧ x'.type = 58) := by
    rcases hp.res.type with e | ⟨e1, e2⟩
    · exact .inl (by rw [e, hty])
    · exact .inr ⟨by rw [← hn]; exact e1, e2⟩
  refine ⟨t, ht, hn, ?_, key⟩
  rcases key with e | ⟨_, e⟩
  · rw [e]; exact small t ht
  · omega

theorem at_lengths {argv : List CStr} {f f' : Frame} {b : Buf} (h : Sent argv f f' b) {pre post pre' post' : List Hdr} {x x' : Hdr}
    (ha : At f f' pre x post pre' x' post') : post'.length = post.length := by
  have := h.goods.2.1
  rw [ha.before, ha.after] at this
  simp only [List.length_append, List.length_cons] at this
  have := ha.same
  omega

theorem at_next {argv : List CStr} {f f' : Frame} {b : Buf} {pre post pre' post' : List Hdr} {x x' y y' : Hdr}
    (_h : Sent argv f f' b) (ha : At f f' pre x (y :: post) pre' x' (y' :: post')) : At f f' (pre ++ [x]) y post (pre' ++ [x']) y' post' :=
  ⟨by rw [ha.before]; simp, by rw [ha.after]; simp, by simp [ha.same]⟩

/-- The name on the command line. -/
def nameOf : Proto → CStr
  | .eth => c!"eth"
  | .ctag => c!"ctag"
  | .stag => c!"stag"
  | .rtag => c!"rtag"
  | .htag => c!"htag"
  | .ipv4 => c!"ipv4"
  | .ipv6 => c!"ipv6"
  | .udp => c!"udp"
  | .tcp => c!"tcp"

theorem protoOf_name {n : CStr} {q : Proto} (hq : protoOf n = some q) : n = nameOf q := by
  unfold protoOf at hq
  repeat (split at hq; · simp only [Option.some.injEq] at hq; subst hq; assumption)
  simp at hq

/-- What an Ethernet header or tag announces. -/
def linkNext : List Hdr → Option Proto
  | [] => none
  | y :: _ => etherType y.type

/-- What the header of the kind `p` announces, given the completed headers behind it. -/
def saysNext (p : Proto) (post' : List Hdr) : Option Proto :=
  if p.link then linkNext post'
  else if p.ip then ipProto (protoNum post' % 256) else none

theorem saysNext_at {argv : List CStr} {f f' : Frame} {b : Buf} (h : Sent argv f f' b) {pre post pre' post' : List Hdr} {x x' y y' : Hdr}
    (ha : At f f' pre x (y :: post) pre' x' (y' :: post')) (p : Proto) :
    (∀ q, protoOf y.name = some q → p.carries q = true → saysNext p (y' :: post') = some q) ∧
    (y.name ∉ p.finds → saysNext p (y' :: post') = none) := by
  obtain ⟨t, ht, hn, _, hty⟩ := type_at h (at_next h ha)
  have h1 := linkNames_type t ht
  have h2 := ipNames_type t ht
  have pt : ∀ q, protoOf t.name = some q → t.name = nameOf q := fun q => protoOf_name
  have e1 : p.link = true → saysNext p (y' :: post') = if t.name ∈ [c!"ctag", c!"stag", c!"rtag", c!"htag", c!"ipv4", c!"ipv6"] then
      protoOf t.name else none := by
    intro hl
    unfold saysNext
    rw [if_pos hl]
    simp only [linkNext]
    rcases hty with e | ⟨e, e'⟩
    · rw [e, h1]
    · rw [e', e]; decide +kernel
  have e2 : p.link = false → p.ip = true → t.name ∉ [c!"arp", c!"ptp-tlv-org", c!"ptp-tlv-path"] → saysNext p (y' :: post') =
      if t.name ∈ [c!"udp", c!"tcp"] then protoOf t.name else none := by
    intro hl hi hno
    unfold saysNext
    rw [if_neg (by simp [hl]), if_pos hi]
    simp only [protoNum]
    rcases hty with e | ⟨e, e'⟩
    · rw [e, h2 hno]
    · rw [e', e]; decide +kernel
  rw [hn]
  refine ⟨fun q hq hc => ?_, fun hf => ?_⟩
  · have hnm := pt q hq
    cases hl : p.link with
    | true =>
      rw [e1 hl, if_pos, hq]
      rw [hnm]
      cases p <;> cases q <;> first | (exact absurd hc (by decide)) | (exact absurd hl (by decide)) | decide
    | false =>
      cases hi : p.ip with
      | false => cases p <;> first | (exact absurd hl (by decide)) | (exact absurd hi (by decide)) | (cases q <;> exact absurd hc (by decide))
      | true =>
        have hq' : q = .udp ∨ q = .tcp := by
          cases p <;> cases q <;> first | (exact absurd hl (by decide)) | (exact absurd hi (by decide)) | (exact absurd hc (by decide)) | simp
        rw [e2 hl hi (by rw [hnm]; rcases hq' with rfl | rfl <;> decide), if_pos, hq]
        rw [hnm]
        rcases hq' with rfl | rfl <;> decide
  · unfold Proto.finds at hf
    cases hl : p.link with
    | true =>
      rw [if_pos hl] at hf
      rw [e1 hl, if_neg hf]
    | false =>
      rw [if_neg (by simp [hl])] at hf
      cases hi : p.ip with
      | false => unfold saysNext; rw [if_neg (by simp [hl]), if_neg (by simp [hi])]
      | true =>
        rw [if_pos hi] at hf
        rw [e2 hl hi (fun hx => hf (List.mem_append_right [c!"udp", c!"tcp"] hx)),
          if_neg (fun hx => hf (List.mem_append_left [c!"arp", c!"ptp-tlv-org", c!"ptp-tlv-path"] hx))]

/-! ## What the headers say -/

/-- The type field of an Ethernet header or tag with something behind it. -/
theorem et_number {argv : List CStr} {f f' : Frame} {b : Buf} (h : Sent argv f f' b) {pre post pre' post' : List Hdr} {x x' : Hdr}
    (ha : At f f' pre x post pre' x' post') {e : CStr × Nat} (he : e ∈ etPos) (hx : x.name = e.1) (hg : given x c!"et" = none)
    (hz : ∀ y ∈ pre, Tame y) :
    etherType (numAt b (8 * totalSize pre' + e.2) 16) = linkNext post' := by
  have hl := at_lengths h ha
  cases post' with
  | nil =>
    have : post = [] := List.eq_nil_of_length_eq_zero hl.symm
    subst this
    rw [C28_ethertype_last argv f f' b h pre pre' [] x x' ha e he hx hg (fun _ => hz)]
    simp only [linkNext]
    split <;> decide
  | cons y' q =>
    simp only [linkNext]
    obtain ⟨y, post, rfl⟩ : ∃ y p, post = y :: p := by
      cases post with
      | nil => simp at hl
      | cons y p => exact ⟨_, _, rfl⟩
    obtain ⟨_, _, _, hlt, _⟩ := type_at h (at_next h ha)
    have hpl := h.place ha
    obtain ⟨t, ht, t', hv, hi, hty⟩ := hpl.inst
    have hnm : t.name = e.1 := by rw [← hx, hi.name, variant_name hv]
    obtain ⟨t1, t2, t3, t4⟩ := et_table e he t ht hnm
    have htt : t' = t := by
      cases hv with
      | same => rfl
      | _ => exact absurd t1 (by decide)
    subst htt
    obtain ⟨ft, hft⟩ : ∃ ft, findField t' c!"et" = some ft := by
      cases e : findField t' c!"et" with
      | none => rw [e] at t3; simp at t3
      | some f => exact ⟨f, rfl⟩
    have w := width_of hft t3
    have o := offset_of hft t4
    have hfill := hpl.filled
    unfold fillHdr at hfill
    rw [hi.fill, t1] at hfill
    simp only at hfill
    rw [fillEtherType_eq hi hft _ hpl.goods] at hfill
    simp only [Out.ok.injEq] at hfill
    have hi' : Inst t' x' := by rw [← hfill]; exact hi.setDefault hft (beBytes_len_ok (by rw [w]; omega))
    obtain ⟨g, hgx, _⟩ := hi.find' hft
    have hval : given x' c!"et" = some (beBytes 2 y'.type) := by rw [← hfill, given_setDefault hgx, hg]; rfl
    have := h.num ha hi' (tmpls_fit t' ht) t2 hft (fun hn => by rw [hval] at hn; cases hn)
    rw [o, w] at this
    rw [this, hval, numOf_be (k := 2) (by rw [w]), Nat.mod_eq_of_lt hlt]

theorem ipv4_number {argv : List CStr} {f f' : Frame} {b : Buf} (h : Sent argv f f' b) {pre post pre' post' : List Hdr} {x x' : Hdr}
    (ha : At f f' pre x post pre' x' post') (hx : x.name = c!"ipv4") (hg : given x c!"proto" = none) :
    numAt b (8 * totalSize pre' + 72) 8 = protoNum post' % 256 := by
  obtain ⟨hi, hi', e⟩ := ipv4_done h ha hx
  obtain ⟨f0, h0⟩ := look HDR_IPV4 c!"proto" (by decide +kernel)
  have this : given x' c!"proto" = some (beBytes 1 (protoNum post')) := by
    rw [e, given_setDefault_other _ _ (by decide)]
    unfold ipv4Filled0
    obtain ⟨g, hg', _⟩ := hi.find' h0
    rw [given_setDefault_other _ _ (by decide), given_setDefault hg', hg]
    rfl
  obtain ⟨ft, h1, h2, h3⟩ := ipv4_num h ha hx c!"proto" 72 8 (by decide +kernel) (fun hn => by rw [this] at hn; cases hn)
  rw [h3, this, numOf_be (k := 1) (by rw [h2])]

theorem ipv6_number {argv : List CStr} {f f' : Frame} {b : Buf} (h : Sent argv f f' b) {pre post pre' post' : List Hdr} {x x' : Hdr}
    (ha : At f f' pre x post pre' x' post') (hx : x.name = c!"ipv6") (hg : given x c!"next" = none) :
    numAt b (8 * totalSize pre' + 48) 8 = protoNum post' % 256 := by
  obtain ⟨hi, hi', e⟩ := ipv6_done h ha hx
  obtain ⟨f0, h0⟩ := look HDR_IPV6 c!"next" (by decide +kernel)
  have this : given x' c!"next" = some (beBytes 1 (protoNum post')) := by
    rw [e]
    unfold ipv6Filled
    obtain ⟨g, hg', _⟩ := hi.find' h0
    rw [given_setDefault_other _ _ (by decide), given_setDefault hg', hg]
    rfl
  obtain ⟨ft, h1, h2, h3⟩ := ipv6_num h ha hx c!"next" 48 8 (by decide +kernel) (fun hn => by rw [this] at hn; cases hn)
  rw [h3, this, numOf_be (k := 1) (by rw [h2])]

/-- The size of a header is the one of its kind. -/
theorem proto_size {argv : List CStr} {f f' : Frame} {b : Buf} (h : Sent argv f f' b) {pre post pre' post' : List Hdr} {x x' : Hdr}
    (ha : At f f' pre x post pre' x' post') {p : Proto} (hp : protoOf x.name = some p) : x'.size = p.bytes := by
  have hn := protoOf_name hp
  have tab : ∀ p : Proto, ∃ s ∈ standards, s.name = nameOf p ∧ s.bytes = p.bytes ∧ s.name ≠ c!"coap" ∧ s.name ≠ c!"profinet-rtc" := by
    intro p; cases p <;> decide +kernel
  obtain ⟨s, hs, h1, h2, h3, h4⟩ := tab p
  rw [C79_every_size h ha hs (by rw [hn, h1]) h3 h4, h2]

theorem proto_tame {x : Hdr} {p : Proto} (hp : protoOf x.name = some p) : Tame x := by
  have hn := protoOf_name hp
  refine ⟨fun hs => ?_, fun hs => ?_⟩ <;>
  · rw [hs] at hn
    cases p <;> exact absurd hn (by decide)

theorem totalSize_cons (x : Hdr) (l : List Hdr) : totalSize (x :: l) = x.size + totalSize l := by
  simp [totalSize]

/-- Each header says what it should. -/
theorem says_at {argv : List CStr} {f f' : Frame} {b : Buf} (h : Sent argv f f' b) (hb : b.length < 65536)
    {pre post pre' post' : List Hdr} {x x' : Hdr} (ha : At f f' pre x post pre' x' post') {p : Proto} (hp : protoOf x.name = some p)
    (hk : ∀ n ∈ p.keys, given x n = none) (hz : ∀ y ∈ pre, Tame y) {m : Nat} (hm : totalSize (x' :: post') ≤ m)
    (hmb : totalSize pre' + m ≤ b.length) :
    says p (slice b (totalSize pre') m) =
      some ⟨p.bytes, if p.counts then totalSize (x' :: post') else m, saysNext p post'⟩ := by
  have hn := protoOf_name hp
  have hs := proto_size h ha hp
  rw [totalSize_cons] at hm ⊢
  have hl := slice_len hmb
  have num : ∀ o w, o + w ≤ 8 * p.bytes → numAt (slice b (totalSize pre') m) o w = numAt b (8 * totalSize pre' + o) w :=
    fun o w how => numAt_slice (by omega)
  have et : ∀ o : Nat, (nameOf p, o) ∈ etPos → given x c!"et" = none → o + 16 ≤ 8 * p.bytes →
      etherType (numAt (slice b (totalSize pre') m) o 16) = linkNext post' :=
    fun o ho hg how => by rw [num _ _ how]; exact et_number (e := (nameOf p, o)) h ha ho hn hg hz
  have preset : ∀ (s : StdHdr) (q : StdField), s ∈ standards → nameOf p = s.name → q ∈ s.fields → (s.name, q.name) ∉ computed →
      given x q.name = none → (s.name, q.name) ∉ [(c!"mrp_topo", c!"t_length"), (c!"ptp-tlv-path", c!"tlv-type"), (c!"opc-ua", c!"flags1-flags2")] →
      stdByte s x'.size q = q.byte → 8 * q.byte + q.bit + q.bits ≤ 8 * p.bytes →
      numAt (slice b (totalSize pre') m) (8 * q.byte + q.bit) q.bits = presetOf s.name q.name := by
    intro s q h1 h2 h3 h4 h5 h6 h7 h8
    have := C78_presets_partial h ha h1 (by rw [hn, h2]) h3 h4 h5 h6 (fun _ => hz)
    rw [num _ _ h8, ← this, h7]
    congr 1
    omega
  cases p with
  | eth =>
    have := et 96 (by decide) (hk _ (by decide)) (by decide)
    simp only [says, hl]
    rw [if_pos (by simp only [Proto.bytes] at hs; omega), this]
    rfl
  | ctag =>
    have := et 16 (by decide) (hk _ (by decide)) (by decide)
    simp only [says, hl]
    rw [if_pos (by simp only [Proto.bytes] at hs; omega), this]
    rfl
  | stag =>
    have := et 16 (by decide) (hk _ (by decide)) (by decide)
    simp only [says, hl]
    rw [if_pos (by simp only [Proto.bytes] at hs; omega), this]
    rfl
  | rtag =>
    have := et 32 (by decide) (hk _ (by decide)) (by decide)
    simp only [says, hl]
    rw [if_pos (by simp only [Proto.bytes] at hs; omega), this]
    rfl
  | htag =>
    have := et 32 (by decide) (hk _ (by decide)) (by decide)
    simp only [says, hl]
    rw [if_pos (by simp only [Proto.bytes] at hs; omega), this]
    rfl
  | ipv4 =>
    simp only [Proto.bytes] at hs num
    have a1 := preset stdIpv4 ⟨c!"ver", 0, 0, 4⟩ (by decide) rfl (by decide) (by decide) (hk _ (by decide)) (by decide) rfl (by decide)
    have a2 := preset stdIpv4 ⟨c!"ihl", 0, 4, 4⟩ (by decide) rfl (by decide) (by decide) (hk _ (by decide)) (by decide) rfl (by decide)
    have a3 := preset stdIpv4 ⟨c!"flags", 6, 0, 3⟩ (by decide) rfl (by decide) (by decide) (hk _ (by decide)) (by decide) rfl (by decide)
    have a4 := preset stdIpv4 ⟨c!"offset", 6, 3, 13⟩ (by decide) rfl (by decide) (by decide) (hk _ (by decide)) (by decide) rfl (by decide)
    have c1 : presetOf stdIpv4.name c!"ver" = 4 := by decide
    have c2 : presetOf stdIpv4.name c!"ihl" = 5 := by decide
    have c3 : presetOf stdIpv4.name c!"flags" = 0 := by decide
    have c4 : presetOf stdIpv4.name c!"offset" = 0 := by decide
    rw [c1] at a1
    rw [c2] at a2
    rw [c3] at a3
    rw [c4] at a4
    simp only [Nat.mul_zero, Nat.zero_add, Nat.add_zero, Nat.reduceMul, Nat.reduceAdd] at a1 a2 a3 a4
    have a5 := C29_ipv4_length argv f f' b h pre post pre' post' x x' ha hn (hk _ (by decide))
    rw [totalSize_cons, Nat.mod_eq_of_lt (by omega), ← num _ _ (by decide)] at a5
    have a6 := ipv4_number h ha hn (hk _ (by decide))
    rw [← num _ _ (by decide)] at a6
    simp only [says, hl, a1, a2, a3, a4, a5, a6, true_and, and_true]
    rw [if_pos (by omega)]
    rfl
  | ipv6 =>
    simp only [Proto.bytes] at hs num
    have a1 := preset stdIpv6 ⟨c!"ver", 0, 0, 4⟩ (by decide) rfl (by decide) (by decide) (hk _ (by decide)) (by decide) rfl (by decide)
    have c1 : presetOf stdIpv6.name c!"ver" = 6 := by decide
    rw [c1] at a1
    simp only [Nat.mul_zero, Nat.add_zero] at a1
    have a5 := C38_ipv6_length argv f f' b h pre post pre' post' x x' ha hn (hk _ (by decide))
    rw [Nat.mod_eq_of_lt (by omega), ← num _ _ (by decide)] at a5
    have a6 := ipv6_number h ha hn (hk _ (by decide))
    rw [← num _ _ (by decide)] at a6
    simp only [says, hl, a1, a5, a6, true_and]
    rw [if_pos (by omega), hs]
    rfl
  | udp =>
    simp only [Proto.bytes] at hs num
    have a5 := C33_udp_length argv f f' b h pre post pre' post' x x' ha hn (hk _ (by decide))
    rw [totalSize_cons, Nat.mod_eq_of_lt (by omega), ← num _ _ (by decide)] at a5
    simp only [says, hl, a5]
    rw [if_pos (by omega)]
    rfl
  | tcp =>
    simp only [Proto.bytes] at hs num
    have a1 := preset stdTcp ⟨c!"doff", 12, 0, 4⟩ (by decide) rfl (by decide) (by decide) (hk _ (by decide)) (by decide) rfl (by decide)
    have c1 : presetOf stdTcp.name c!"doff" = 5 := by decide
    rw [c1] at a1
    simp only [Nat.reduceMul, Nat.add_zero] at a1
    simp only [says, hl, a1]
    rw [if_pos (by omega)]
    rfl

/-! ## C99 -/

/-- All headers are inside of the frame. -/
theorem sent_total {argv : List CStr} {f f' : Frame} {b : Buf} (h : Sent argv f f' b) : totalSize f'.stack ≤ b.length := by
  have hl := h.goods.2.1
  rcases List.eq_nil_or_concat f'.stack with e | ⟨l, x', e⟩
  · rw [e]; exact Nat.zero_le _
  · rcases List.eq_nil_or_concat f.stack with e0 | ⟨l0, x, e0⟩
    · rw [e, e0] at hl; simp at hl
    · have := h.long (pre := l0) (x := x) (post := []) (pre' := l) (x' := x') (post' := []) ⟨by simpa using e0, by simpa using e, by
        rw [e, e0] at hl
        simpa using hl⟩
      rw [e]
      simpa [totalSize] using this

theorem dissect_short (n : Nat) (p : Proto) (b : Buf) (k : Nat) : dissect n p (slice b k 0) = ([], slice b k 0) := by
  cases n with
  | zero => rfl
  | succ n =>
    have : slice b k 0 = [] := by simp [slice]
    rw [this]
    cases p <;> rfl

theorem dissect_stacked {argv : List CStr} {f f' : Frame} {b : Buf} (h : Sent argv f f' b) (hb : b.length < 65536)
    {hs rest : List Hdr} {ps : List Proto} (hst : Stacked hs ps rest) :
    ∀ {pre pre' hs' : List Hdr}, f.stack = pre ++ hs → f'.stack = pre' ++ hs' → pre'.length = pre.length → (∀ y ∈ pre, Tame y) →
    ∀ m n, totalSize hs' ≤ m → totalSize pre' + m ≤ b.length → ps.length ≤ n → ∀ p ∈ ps.head?,
    headBytes ps ≤ totalSize hs' ∧ dissect n p (slice b (totalSize pre') m) = (layers b (totalSize pre') ps,
      slice b (totalSize pre' + headBytes ps) ((if ps.any Proto.counts then totalSize hs' else m) - headBytes ps)) := by
  induction hst with
  | @last x p rest hp hk hr =>
    intro pre pre' hs' e1 e2 e3 hz m n hm hmb hn q hq
    simp only [List.head?_cons, Option.mem_def, Option.some.injEq] at hq
    subst hq
    have hlen := h.goods.2.1
    rw [e1, e2] at hlen
    cases hs' with
    | nil => simp at hlen; omega
    | cons x' post' =>
      have ha : At f f' pre x rest pre' x' post' := ⟨e1, e2, e3⟩
      have hsz := proto_size h ha hp
      have hsay := says_at h hb ha hp hk hz hm hmb
      have hfirst : (slice b (totalSize pre') m).take p.bytes = slice b (totalSize pre') p.bytes :=
        slice_take (by rw [totalSize_cons] at hm; omega)
      cases n with
      | zero => simp at hn
      | succ n =>
        refine ⟨by simp only [headBytes, List.map_cons, List.map_nil, List.sum_cons, List.sum_nil]; rw [totalSize_cons]; omega, ?_⟩
        have hall : (if p.counts then totalSize (x' :: post') else m) ≤ m := by split <;> omega
        simp only [dissect, hsay, hfirst]
        rw [slice_cut hall]
        simp only [layers, headBytes, List.map_cons, List.map_nil, List.sum_cons, List.sum_nil, Nat.add_zero, List.any_cons,
          List.any_nil, Bool.or_false]
        cases rest with
        | nil =>
          have hnil : post' = [] := List.eq_nil_of_length_eq_zero (at_lengths h ha)
          subst hnil
          cases hann : saysNext p [] with
          | none => rfl
          | some q =>
            have hip : p.counts = true := by
              cases p <;> first | rfl | (simp [saysNext, Proto.link, Proto.ip, linkNext] at hann)
            simp only
            have h0 : totalSize [x'] - p.bytes = 0 := by simp [totalSize, hsz]
            rw [if_pos hip, h0, dissect_short]
        | cons y q =>
          have hl := at_lengths h ha
          match post', hl with
          | y' :: q', _ =>
            rw [(saysNext_at h ha p).2 (hr y (by simp))]
  | @next x p q hs rest ps hp hk hc hst' ih =>
    intro pre pre' hs' e1 e2 e3 hz m n hm hmb hn p0 hq
    simp only [List.head?_cons, Option.mem_def, Option.some.injEq] at hq
    subst hq
    have hlen := h.goods.2.1
    rw [e1, e2] at hlen
    cases hs' with
    | nil => simp at hlen; omega
    | cons x' post' =>
      have ha : At f f' pre x hs pre' x' post' := ⟨e1, e2, e3⟩
      have hsz := proto_size h ha hp
      have hsay := says_at h hb ha hp hk hz hm hmb
      rw [totalSize_cons] at hm
      have hfirst : (slice b (totalSize pre') m).take p.bytes = slice b (totalSize pre') p.bytes := slice_take (by omega)
      have hall : (if p.counts then totalSize (x' :: post') else m) ≤ m := by rw [totalSize_cons]; split <;> omega
      have hpre : totalSize (pre' ++ [x']) = totalSize pre' + p.bytes := by simp [totalSize, hsz]
      cases n with
      | zero => simp at hn
      | succ n =>
        obtain ⟨i1, i2⟩ := ih (pre := pre ++ [x]) (pre' := pre' ++ [x']) (hs' := post') (by simp [e1]) (by simp [e2]) (by simp [e3])
          (by
            intro y hy
            rcases List.mem_append.1 hy with hy | hy
            · exact hz y hy
            · rw [List.mem_singleton.1 hy]; exact proto_tame hp)
          ((if p.counts then totalSize (x' :: post') else m) - p.bytes) n (by rw [totalSize_cons]; split <;> omega)
          (by rw [hpre]; omega) (by simp only [List.length_cons] at hn ⊢; omega) q (by simp)
        rw [hpre] at i2
        have hnx : saysNext p post' = some q := by
          have hl := at_lengths h ha
          obtain ⟨y, tl, rfl, hy⟩ : ∃ y tl, hs = y :: tl ∧ protoOf y.name = some q := by
            cases hst' with
            | last h1 _ _ => exact ⟨_, _, rfl, h1⟩
            | next h1 _ _ _ => exact ⟨_, _, rfl, h1⟩
          match post', hl with
          | y' :: q', _ => exact (saysNext_at h ha p).1 q hy hc
        have hB : headBytes (p :: q :: ps) = p.bytes + headBytes (q :: ps) := by simp [headBytes]
        refine ⟨by rw [hB, totalSize_cons]; omega, ?_⟩
        simp only [dissect, hsay, hfirst, hnx]
        rw [slice_cut hall, i2, hB]
        simp only [layers]
        congr 2
        · omega
        · rw [show (p :: q :: ps).any Proto.counts = (p.counts || (q :: ps).any Proto.counts) from rfl]
          cases p.counts <;> cases (q :: ps).any Proto.counts <;> simp only [Bool.or_true, Bool.or_false, if_true,
            Bool.false_eq_true, if_false] <;> (try rw [totalSize_cons]) <;> omega

theorem head_bytes_pos (ps : List Proto) : ps.length ≤ headBytes ps := by
  induction ps with
  | nil => exact Nat.le_refl _
  | cons p ps ih =>
    have : 1 ≤ p.bytes := by cases p <;> decide
    simp only [headBytes, List.map_cons, List.sum_cons, List.length_cons] at ih ⊢
    omega

/-- **C99**: a receiver that knows Ethernet, VLAN, R-, and HSR tags, IPv4, IPv6, UDP and TCP finds in a frame exactly the headers of the
command line, in their order and with their bytes, if each of them may carry the next one and the user has not given the fields it
goes by. What it finds behind them are the bytes of the other headers, without the bytes added to get a frame of 60 bytes if a header
with a length is among them. -/
theorem C99_receiver {argv : List CStr} {f f' : Frame} {b : Buf} (h : Sent argv f f' b) (hb : b.length < 65536) {ps : List Proto}
    {rest : List Hdr} (hst : Stacked f.stack ps rest) (he : ps.head? = some .eth) :
    received b = (layers b 0 ps,
      slice b (headBytes ps) ((if ps.any Proto.counts then totalSize f'.stack else b.length) - headBytes ps)) := by
  have hps : ps.length ≤ b.length := by
    have h1 := (dissect_stacked h hb hst (pre := []) (pre' := []) (hs' := f'.stack) rfl rfl rfl (by simp) b.length ps.length (sent_total h)
      (by simp [totalSize]) (Nat.le_refl _) .eth (by rw [he]; rfl)).1
    have := sent_total h
    have := head_bytes_pos ps
    omega
  have := (dissect_stacked h hb hst (pre := []) (pre' := []) (hs' := f'.stack) rfl rfl rfl (by simp) b.length b.length (sent_total h)
    (by simp [totalSize]) hps .eth (by rw [he]; rfl)).2
  have e : slice b (totalSize []) b.length = b := by simp [slice, totalSize]
  rw [e] at this
  simpa [received, totalSize] using this

/-- The headers in front of the others have the bytes of their kinds. -/
theorem stacked_sizes {argv : List CStr} {f f' : Frame} {b : Buf} (h : Sent argv f f' b) {hs rest : List Hdr} {ps : List Proto}
    (hst : Stacked hs ps rest) : ∀ {pre pre' hs' : List Hdr}, f.stack = pre ++ hs → f'.stack = pre' ++ hs' → pre'.length = pre.length →
    ∃ l l' rest', hs = l ++ rest ∧ hs' = l' ++ rest' ∧ l'.length = l.length ∧ totalSize l' = headBytes ps := by
  induction hst with
  | @last x p rest hp hk hr =>
    intro pre pre' hs' e1 e2 e3
    have hlen := h.goods.2.1
    rw [e1, e2] at hlen
    cases hs' with
    | nil => simp at hlen; omega
    | cons x' post' =>
      have hsz := proto_size h (⟨e1, e2, e3⟩ : At f f' pre x rest pre' x' post') hp
      exact ⟨[x], [x'], post', rfl, rfl, rfl, by simp [totalSize, headBytes, hsz]⟩
  | @next x p q hs rest ps hp hk hc hst' ih =>
    intro pre pre' hs' e1 e2 e3
    have hlen := h.goods.2.1
    rw [e1, e2] at hlen
    cases hs' with
    | nil => simp at hlen; omega
    | cons x' post' =>
      have hsz := proto_size h (⟨e1, e2, e3⟩ : At f f' pre x hs pre' x' post') hp
      obtain ⟨l, l', rest', i1, i2, i3, i4⟩ := ih (pre := pre ++ [x]) (pre' := pre' ++ [x']) (hs' := post') (by simp [e1]) (by simp [e2])
        (by simp [e3])
      exact ⟨x :: l, x' :: l', rest', by rw [i1]; rfl, by rw [i2]; rfl, by simp [i3], by
        rw [totalSize_cons, i4, hsz]; simp [headBytes]⟩

/-- **C99, payload**: with `data` behind such headers, among them one with a length, a receiver gets exactly the bytes given. -/
theorem C99_payload {pre : List CStr} {f0 f f' : Frame} {b : Buf} {segs : List (List CStr × Buf)}
    (hpre : argcFrame pre = .ok (some (pre.length, f0))) (hend : NotField f0 c!"data") (hs : ∀ p ∈ segs, Segment p.1 p.2)
    (hne : segs ≠ []) (h : Sent (pre ++ c!"data" :: segsWords segs) f f' b) (hb : b.length < 65536) {ps : List Proto} {x : Hdr}
    (hst : Stacked f.stack ps [x]) (hlast : f.stack.length = f0.stack.length + 1) (he : ps.head? = some .eth)
    (hcnt : ps.any Proto.counts = true) : received b = (layers b 0 ps, segsBytes segs) := by
  obtain ⟨l, l', rest', e1, e2, e3, e4⟩ := stacked_sizes h hst (pre := []) (pre' := []) (hs' := f'.stack) rfl rfl rfl
  have hlen := h.goods.2.1
  rw [e1, e2] at hlen
  simp only [List.length_append, List.length_cons, List.length_nil] at hlen
  match rest', hlen with
  | [x'], _ =>
    have ha : At f f' l x [] l' x' [] := ⟨e1, e2, e3⟩
    have hc := C71_payload_on_the_wire (rest := []) hpre hend hs hne (by simp) (by simpa using h) l [] l' [] x x' ha (by
      rw [e1] at hlast; simpa using hlast)
    rw [C99_receiver h hb hst he, if_pos hcnt]
    have : totalSize f'.stack - headBytes ps = x'.size := by rw [e2, ← e4]; simp [totalSize]
    rw [this, ← e4, hc.2]
  | [], hl => simp at hl; omega
  | _ :: _ :: _, hl => simp at hl; omega

/-! ## Cases -/

/-- `eth ctag vid 7 ipv4 dip 1.2.3.4 udp dport 80 data hex 0a0b0c` -/
def tagUdpWords : List CStr := [c!"eth", c!"ctag", c!"vid", c!"7", c!"ipv4", c!"dip", c!"1.2.3.4", c!"udp", c!"dport", c!"80"]

/-- Finds the headers behind the known ones. -/
def stackRest : List Hdr → List Proto → Option (List Hdr)
  | x :: rest, [p] =>
    if protoOf x.name = some p ∧ (∀ n ∈ p.keys, given x n = none) ∧ (∀ y ∈ rest.head?, y.name ∉ p.finds) then some rest else none
  | x :: hs, p :: q :: ps =>
    if protoOf x.name = some p ∧ (∀ n ∈ p.keys, given x n = none) ∧ p.carries q = true then stackRest hs (q :: ps) else none
  | _, _ => none

theorem stackRest_sound {hs : List Hdr} {ps : List Proto} {rest : List Hdr} (h : stackRest hs ps = some rest) : Stacked hs ps rest := by
  induction ps generalizing hs with
  | nil => cases hs <;> simp [stackRest] at h
  | cons p ps ih =>
    cases hs with
    | nil => cases ps <;> simp [stackRest] at h
    | cons x hs =>
      cases ps with
      | nil =>
        simp only [stackRest] at h
        split at h
        · rename_i hc
          simp only [Option.some.injEq] at h
          subst h
          exact .last hc.1 hc.2.1 hc.2.2
        · simp at h
      | cons q ps =>
        simp only [stackRest] at h
        split at h
        · rename_i hc
          exact .next hc.1 hc.2.1 hc.2.2 (ih h)
        · simp at h

/-- The frame is taken apart into its four headers and the three bytes of payload; 11 bytes have been added to it. -/
example : ∃ f f' b x, Sent (tagUdpWords ++ [c!"data", c!"hex", c!"0a0b0c"]) f f' b ∧ Stacked f.stack [.eth, .ctag, .ipv4, .udp] [x] ∧
    b.length = 60 ∧ totalSize f'.stack = 49 ∧ (received b).2 = [0x0a#8, 0x0b#8, 0x0c#8] ∧
    (received b).1.map (·.1) = [.eth, .ctag, .ipv4, .udp] := by
  have key : (match argcFrame (tagUdpWords ++ [c!"data", c!"hex", c!"0a0b0c"]) with
    | .ok (some (_, f)) =>
      match frameToBuf f, stackRest f.stack [.eth, .ctag, .ipv4, .udp] with
      | .ok (f', b), some [_] => decide (b.length = 60 ∧ totalSize f'.stack = 49 ∧ (received b).2 = [0x0a#8, 0x0b#8, 0x0c#8] ∧
          (received b).1.map (·.1) = [.eth, .ctag, .ipv4, .udp])
      | _, _ => false
    | _ => false) = true := by decide +kernel
  split at key
  · rename_i n f e1
    split at key
    · rename_i f' b x e2 e3
      exact ⟨f, f', b, x, ⟨by decide +kernel, ⟨n, e1⟩, e2⟩, stackRest_sound e3, of_decide_eq_true key⟩
    · simp at key
  · simp at key

end Ef.Props
