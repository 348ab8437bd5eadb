import Verif.Props.Values
import Verif.Spec.Standard

/-!
# Property C79: headers have the layout of the documents that define them
-/

namespace Ef.Props

open Ef Spec

/-- Comparison of a template with a header of the documents. -/
def stdOk (s : StdHdr) (t : Hdr) : Bool :=
  decide (t.name ∉ reshaped) && decide (t.size = s.bytes) && disjB t && decide (t.parser = .fields) &&
    s.fields.all (fun q =>
      match findField t q.name with
      | some ft => decide (ft.offset = 8 * q.byte + q.bit ∧ ft.width = q.bits ∧ ft.parser = .none ∧ 1 ≤ q.bits ∧
          8 * q.byte + q.bit + q.bits ≤ 8 * s.bytes)
      | none => false)

theorem std_all : ∀ s ∈ standards, ∀ t ∈ hdrTmpls, t.name = s.name → stdOk s t = true := by decide +kernel

/-- Every header of the list exists. -/
theorem std_exists : ∀ s ∈ standards, ∃ t ∈ hdrTmpls, t.name = s.name := by decide +kernel

theorem std_elim {s : StdHdr} (hs : s ∈ standards) {t : Hdr} (ht : t ∈ hdrTmpls) (hn : t.name = s.name) :
    t.name ∉ reshaped ∧ t.size = s.bytes ∧ disjB t = true ∧ ∀ q ∈ s.fields, ∃ ft, findField t q.name = some ft ∧
      ft.offset = 8 * q.byte + q.bit ∧ ft.width = q.bits ∧ ft.parser = .none ∧ 1 ≤ q.bits ∧
      8 * q.byte + q.bit + q.bits ≤ 8 * s.bytes := by
  have h := std_all s hs t ht hn
  unfold stdOk at h
  simp only [Bool.and_eq_true, decide_eq_true_eq, List.all_eq_true] at h
  obtain ⟨⟨⟨⟨h1, h2⟩, h3⟩, _⟩, h5⟩ := h
  refine ⟨h1, h2, h3, fun q hq => ?_⟩
  have := h5 q hq
  split at this
  · rename_i ft hft
    exact ⟨ft, hft, by simpa using this⟩
  · simp at this

/-- **C79, size**: a header of the list has the number of bytes of its document. -/
theorem C79_size {argv pre rest lead : List CStr} {f0 f f' : Frame} {b : Buf} {t : Hdr} {as : List (CStr × CStr)}
    (hA : Assigned argv pre f0 t lead as rest) (hB : Sent argv f f' b) (hne : as ≠ [])
    {hp hq hp' hq' : List Hdr} {x x' : Hdr} (ha : At f f' hp x hq hp' x' hq') (hpos : hp.length = f0.stack.length)
    {s : StdHdr} (hs : s ∈ standards) (hn : t.name = s.name) : x'.size = s.bytes := by
  obtain ⟨h1, h2, _, _⟩ := std_elim hs hA.tmpl hn
  rw [wire_size hA hB h1 ha hpos hne, h2]

/-- **C79, numbers**: a number assigned to a field is found in the bits where the document has this field. -/
theorem C79_numbers {argv pre rest lead : List CStr} {f0 f f' : Frame} {b : Buf} {t : Hdr} {as : List (CStr × CStr)}
    (hA : Assigned argv pre f0 t lead as rest) (hB : Sent argv f f' b)
    {hp hq hp' hq' : List Hdr} {x x' : Hdr} (ha : At f f' hp x hq hp' x' hq') (hpos : hp.length = f0.stack.length)
    {s : StdHdr} (hs : s ∈ standards) (hn : t.name = s.name) {q : StdField} (hq : q ∈ s.fields) (hw : q.bits ≤ 64)
    {v : CStr} {N : Nat} (hl : lastOf as q.name = some v) (hv : Literal v N) (hN : N < 2 ^ 64) :
    numAt b (8 * (totalSize hp' + q.byte) + q.bit) q.bits = N % 2 ^ q.bits := by
  obtain ⟨h1, h2, h3, h4⟩ := std_elim hs hA.tmpl hn
  obtain ⟨ft, hft, q1, q2, q3, _, _⟩ := h4 q hq
  obtain ⟨l1, l2, hsep⟩ := sep_of_disj h3 hft
  have := C70_numbers_on_the_wire hA hB h1 _ _ _ _ _ _ ha hpos l1 l2 ft hsep.split (by rw [hsep.name]; exact hsep.fresh) (by
    intro k hk i hc
    have := hsep.after k hk
    unfold covers at hc
    omega) q3 (by omega) v N (by rw [hsep.name]; exact hl) hv hN
  rw [q1, q2] at this
  rw [← this]
  congr 1
  omega

/-- **C79, bytes**: the bytes a text stands for (`parseBytes`, properties C01 to C06) are found where the document has the
field. -/
theorem C79_bytes {argv pre rest lead : List CStr} {f0 f f' : Frame} {b : Buf} {t : Hdr} {as : List (CStr × CStr)}
    (hA : Assigned argv pre f0 t lead as rest) (hB : Sent argv f f' b)
    {hp hq hp' hq' : List Hdr} {x x' : Hdr} (ha : At f f' hp x hq hp' x' hq') (hpos : hp.length = f0.stack.length)
    {s : StdHdr} (hs : s ∈ standards) (hn : t.name = s.name) {q : StdField} (hq : q ∈ s.fields) (hbit : q.bit = 0) {k : Nat}
    (hbits : q.bits = 8 * k) {v : CStr} (hl : lastOf as q.name = some v) (hi : ¬ IgnWord v) {w : Buf} (hlen : w.length = k)
    (hv : parseBytes v k = .ok (some w)) : slice b (totalSize hp' + q.byte) k = w := by
  obtain ⟨h1, h2, h3, h4⟩ := std_elim hs hA.tmpl hn
  obtain ⟨ft, hft, q1, q2, q3, q4, q5⟩ := h4 q hq
  obtain ⟨l1, l2, hsep⟩ := sep_of_disj h3 hft
  obtain ⟨o, e1, e2, e3⟩ := wire_value hA hB h1 ha hpos hsep.split (by rw [hsep.name]; exact hsep.fresh) (by
    intro k hk i hc
    have := hsep.after k hk
    unfold covers at hc
    omega) (by rw [hsep.name]; exact hl) hi
  have hk : bitToByte ft.width = k := by unfold bitToByte; omega
  unfold parseVal at e1
  rw [q3] at e1
  simp only at e1
  rw [hk, hv] at e1
  simp only [Out.ok.injEq] at e1
  have hnum := e3 w e1.symm
  have hne : as ≠ [] := by rintro rfl; simp [lastOf] at hl
  have hsz := wire_size hA hB h1 ha hpos hne
  have hlong := hB.long ha
  unfold slice
  rw [slice_eq b _ _ (by omega), show 8 * (totalSize hp' + q.byte) = 8 * totalSize hp' + ft.offset by omega,
    show 8 * k = ft.width by omega, hnum, q2, hbits, Nat.pow_mul, show 2 ^ 8 = 256 from rfl, beBytes_mod, ← hlen, beBytes_beNat]

theorem quad_not_ign (a b c d : Nat) : ¬ IgnWord (quadText a b c d) := by
  intro h
  have : ch!"." ∈ quadText a b c d := by unfold quadText; simp
  rcases h with h | h <;> rw [h] at this <;> exact absurd this (by decide)

/-- **C79, IPv4 addresses**: the four numbers of a dotted quad are the four bytes of the field. -/
theorem C79_ipv4_address {argv pre rest lead : List CStr} {f0 f f' : Frame} {b : Buf} {t : Hdr} {as : List (CStr × CStr)}
    (hA : Assigned argv pre f0 t lead as rest) (hB : Sent argv f f' b)
    {hp hq hp' hq' : List Hdr} {x x' : Hdr} (ha : At f f' hp x hq hp' x' hq') (hpos : hp.length = f0.stack.length)
    {s : StdHdr} (hs : s ∈ standards) (hn : t.name = s.name) {q : StdField} (hq : q ∈ s.fields) (hbit : q.bit = 0)
    (hbits : q.bits = 32) {a1 a2 a3 a4 : Nat} (h1 : a1 < 256) (h2 : a2 < 256) (h3 : a3 < 256) (h4 : a4 < 256)
    (hl : lastOf as q.name = some (quadText a1 a2 a3 a4)) :
    slice b (totalSize hp' + q.byte) 4 = [BitVec.ofNat 8 a1, BitVec.ofNat 8 a2, BitVec.ofNat 8 a3, BitVec.ofNat 8 a4] :=
  C79_bytes hA hB ha hpos hs hn hq hbit (k := 4) (by omega) hl (quad_not_ign _ _ _ _) rfl (C04_dotted_quad.1 _ _ _ _ h1 h2 h3 h4)

theorem colon_not_ign {v : CStr} (h : ch!":" ∈ v) : ¬ IgnWord v := by
  intro hi
  rcases hi with hi | hi <;> rw [hi] at h <;> exact absurd h (by decide)

/-- **C79, MAC addresses**: the six numbers of a MAC address are the six bytes of the field (texts beginning with `0b`
excepted, see C05). -/
theorem C79_mac_address {argv pre rest lead : List CStr} {f0 f f' : Frame} {b : Buf} {t : Hdr} {as : List (CStr × CStr)}
    (hA : Assigned argv pre f0 t lead as rest) (hB : Sent argv f f' b)
    {hp hq hp' hq' : List Hdr} {x x' : Hdr} (ha : At f f' hp x hq hp' x' hq') (hpos : hp.length = f0.stack.length)
    {s : StdHdr} (hs : s ∈ standards) (hn : t.name = s.name) {q : StdField} (hq : q ∈ s.fields) (hbit : q.bit = 0)
    (hbits : q.bits = 48) {es : List CStr} {bs : Buf} (he : AllRel MacElem es bs) (h6 : es.length = 6)
    (h0b : (joinColon es).take 2 ≠ c!"0b") (hl : lastOf as q.name = some (joinColon es)) :
    slice b (totalSize hp' + q.byte) 6 = bs :=
  C79_bytes hA hB ha hpos hs hn hq hbit (k := 6) (by omega) hl (colon_not_ign (joinColon_mem (by omega)))
    (by rw [← allRel_length he, h6]) (C05_mac_partial.1 es bs he h6 h0b)

theorem groups_length {es : List CStr} {gs : List Buf} (he : AllRel Ip6Group es gs) : gs.flatten.length = 2 * es.length := by
  induction he with
  | nil => rfl
  | cons hr _ ih =>
    obtain ⟨n, _, _, _, rfl⟩ := hr
    simp only [List.flatten_cons, List.length_append, ih, beBytes_length, List.length_cons]
    omega

/-- **C79, IPv6 addresses**: the eight groups of an address are the sixteen bytes of the field (texts beginning with `0b`
excepted, see C06). -/
theorem C79_ipv6_address {argv pre rest lead : List CStr} {f0 f f' : Frame} {b : Buf} {t : Hdr} {as : List (CStr × CStr)}
    (hA : Assigned argv pre f0 t lead as rest) (hB : Sent argv f f' b)
    {hp hq hp' hq' : List Hdr} {x x' : Hdr} (ha : At f f' hp x hq hp' x' hq') (hpos : hp.length = f0.stack.length)
    {s : StdHdr} (hs : s ∈ standards) (hn : t.name = s.name) {q : StdField} (hq : q ∈ s.fields) (hbit : q.bit = 0)
    (hbits : q.bits = 128) {es : List CStr} {gs : List Buf} (he : AllRel Ip6Group es gs) (h8 : es.length = 8)
    (h0b : (joinColon es).take 2 ≠ c!"0b") (hl : lastOf as q.name = some (joinColon es)) :
    slice b (totalSize hp' + q.byte) 16 = gs.flatten :=
  C79_bytes hA hB ha hpos hs hn hq hbit (k := 16) (by omega) hl (colon_not_ign (joinColon_mem (by omega)))
    (by rw [groups_length he, h8]) (C06_ipv6_partial.1 es gs he h8 h0b)

/-- A case: the hypotheses hold for `eth ipv4 ttl 1 ...`, and the destination address is found at bytes 16 to 19. -/
example : ∃ f0, Assigned [c!"eth", c!"ipv4", c!"ign", c!"ttl", c!"1", c!"proto", c!"0x11", c!"ttl", c!"300", c!"data"]
    [c!"eth"] f0 HDR_IPV4 [c!"ign"] [(c!"ttl", c!"1"), (c!"proto", c!"0x11"), (c!"ttl", c!"300")] [c!"data"] ∧
    f0.stack.length = 1 ∧ stdIpv4 ∈ standards ∧ HDR_IPV4.name = stdIpv4.name := by
  obtain ⟨f0, h1, h2⟩ := assigned_case
  exact ⟨f0, h1, h2, by decide, by decide⟩

example : ∃ f f' b pre x post pre' x' post',
    Built [c!"eth", c!"ipv4", c!"dip", c!"1.2.3.4", c!"flags", c!"5", c!"offset", c!"8191", c!"data"] f f' b ∧
    At f f' pre x post pre' x' post' ∧ slice b (totalSize pre' + 16) 4 = [1#8, 2#8, 3#8, 4#8] ∧
    numAt b (8 * (totalSize pre' + 6) + 0) 3 = 5 ∧ numAt b (8 * (totalSize pre' + 6) + 3) 13 = 8191 := by
  obtain ⟨f, f', b, pre, x, post, pre', x', post', h1, h2, h3⟩ := holdsAt_elim
    (argv := [c!"eth", c!"ipv4", c!"dip", c!"1.2.3.4", c!"flags", c!"5", c!"offset", c!"8191", c!"data"]) (i := 1)
    (P := fun _ _ b _ _ pre' _ => decide (slice b (totalSize pre' + 16) 4 = [1#8, 2#8, 3#8, 4#8] ∧
      numAt b (8 * (totalSize pre' + 6) + 0) 3 = 5 ∧ numAt b (8 * (totalSize pre' + 6) + 3) 13 = 8191)) (by decide +kernel)
  simp only [decide_eq_true_eq] at h3
  exact ⟨f, f', b, pre, x, post, pre', x', post', h1, h2, h3⟩

end Ef.Props
