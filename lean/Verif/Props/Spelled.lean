import Verif.Lemmas.SpelledText
import Verif.Props.Relax

/-!
# C100: writing out a value that is sent anyway changes nothing

Values the tool computes or presets (checksums, lengths, protocol numbers, defaults) can be written out by the user, and the
frame stays the same.
-/

namespace Ef.Props

open Ef Ef.Spec

/-- **C100, full statement.** -/
def C100_statement : Prop :=
  ∀ (argv pre lead rest : List CStr) (f0 f f' : Frame) (t : Hdr) (as : List (CStr × CStr)) (b : Buf),
    Assigned argv pre f0 t lead as rest → Built argv f f' b →
    ∀ (hp hq hp' hq' : List Hdr) (x x' : Hdr), At f f' hp x hq hp' x' hq' → hp.length = f0.stack.length →
    ∀ (l1 l2 : List Field) (ft : Field), t.fields = l1 ++ ft :: l2 → (∀ k ∈ l1, k.name ≠ ft.name) →
    (∀ k ∈ l1 ++ l2, ∀ i, ¬ (covers ft i ∧ covers k i)) → PlainField t ft.name → ft.parser = .none →
    ∀ (txt : CStr) (w : Buf), parseBytes txt (bitToByte ft.width) = .ok (some w) → ¬ IgnWord txt → txt ≠ c!"help" →
    txt.length < 2 ^ 32 → beNat w % 2 ^ ft.width = numAt b (8 * totalSize hp' + ft.offset) ft.width →
    argv.length + 2 ≤ 100 → (lead = [] → as = [] → ∀ w ∈ rest.head?, ¬ IgnWord w) →
    ∃ g g', Sent (pre ++ t.name :: (lead ++ (asgnWords (as ++ [(ft.name, txt)]) ++ rest))) g g' b ∧ g.padding = f.padding

/-! ## The part that holds -/

theorem flex_tables : ∀ t ∈ hdrTmpls, t.name ∉ flexible → plainFill t.fill = true ∧ ¬ Reshapes t.fill ∧
    (t.fill = .icmp → t.name = c!"icmp") := by decide +kernel

theorem names_nodup : ∀ t ∈ hdrTmpls, ∀ u ∈ hdrTmpls, u.name = t.name → u = t := by decide +kernel

theorem variant_tables : HDR_COAP.name ∈ flexible ∧ HDR_PNET_RTC.name ∈ flexible ∧ HDR_COAP_OPTIONS.name ∈ flexible ∧
    HDR_COAP_PARMS.name ∈ flexible ∧ HDR_PAYLOAD.parser = .payload ∧
    (∀ k, (coapShape k).name = HDR_COAP.name) ∧ (∀ k, (pnetShape k).name = HDR_PNET_RTC.name) ∧
    (∀ k m, (optShape k m).name = HDR_COAP_OPTIONS.name) ∧ (∀ k, (parmsShape k).name = HDR_COAP_PARMS.name) ∧
    (∀ k m, (dataShape k m).name = HDR_PAYLOAD.name) := by
  refine ⟨by decide, by decide, by decide, by decide, by decide, ?_, ?_, ?_, ?_, ?_⟩ <;> intros <;> rfl

/-- A header with a fixed layout is an instance of its template. -/
theorem inst_of_tmpl {x t : Hdr} (h : IsInst x) (ht : t ∈ hdrTmpls) (hk : t.parser = .fields) (hn : x.name = t.name)
    (hfx : t.name ∉ flexible) : Inst t x ∧ x.type = t.type := by
  obtain ⟨u, hu, u', hv, hi, hty⟩ := h
  obtain ⟨v1, v2, v3, v4, v5, v6, v7, v8, v9, v10⟩ := variant_tables
  cases hv with
  | same =>
    have := names_nodup t ht u hu (by rw [← hi.name, hn])
    subst this
    exact ⟨hi, hty⟩
  | coap k _ => exact absurd v1 (by rw [← v6 k, ← hi.name, hn]; exact hfx)
  | pnet k _ => exact absurd v2 (by rw [← v7 k, ← hi.name, hn]; exact hfx)
  | opt k m _ _ _ => exact absurd v3 (by rw [← v8 k m, ← hi.name, hn]; exact hfx)
  | parms k _ => exact absurd v4 (by rw [← v9 k, ← hi.name, hn]; exact hfx)
  | data k _ =>
    have := names_nodup t ht HDR_PAYLOAD hu (by rw [← v10 k k, ← hi.name, hn])
    subst this
    rw [v5] at hk; cases hk

/-- The number of a field that shares no bits with others. -/
theorem num_alone {argv : List CStr} {f f' : Frame} {b : Buf} (hB : Built argv f f' b) {pre post pre' post' : List Hdr} {x x' t : Hdr}
    (ha : At f f' pre x post pre' x' post') (ht : t ∈ hdrTmpls) (hi : Inst t x) (hr : ¬ Reshapes t.fill)
    {l1 l2 : List Field} {ft : Field} (hsp : t.fields = l1 ++ ft :: l2) (h1 : ∀ k ∈ l1, k.name ≠ ft.name)
    (h2 : ∀ k ∈ l1 ++ l2, ∀ i, ¬ (covers ft i ∧ covers k i)) :
    numAt b (8 * totalSize pre' + ft.offset) ft.width = numOf ft (given x' ft.name) := by
  have hp := hB.toSent.place ha
  have hlay : lay x' = lay x := fillHdr_lay (by rw [hi.fill]; exact hr) x' hp.filled
  have hc : SameCore t x := by
    have : ∀ {ts xs : List Field}, AllRel FieldInst ts xs → xs.map core = ts.map core := by
      intro ts xs h
      induction h with
      | nil => rfl
      | cons r _ ih =>
        simp only [List.map_cons, ih, List.cons.injEq, and_true]
        rw [r.eq]; rfl
    exact this hi.fields
  have hcf : x'.fields.map core = t.fields.map core := by
    have := congrArg (fun q => q.2.2.2.2.map core) hlay
    simp only [lay, List.map_map] at this
    rw [show (core ∘ fun f : Field => { f with val := none }) = core from rfl] at this
    rw [this]; exact hc
  have hsz : x'.size = t.size := by
    have := congrArg (fun q => q.2.1) hlay
    rw [← hi.size]; exact this
  rw [hsp, List.map_append, List.map_cons] at hcf
  obtain ⟨m1, m2', e1, e2, e3⟩ := List.map_eq_append_iff.mp hcf
  obtain ⟨g, m2, rfl, e4, e5⟩ := List.map_eq_cons_iff.mp e3
  obtain ⟨q1, q3, q2, q4⟩ := core_parts e4
  have hother : ∀ k ∈ m1 ++ m2, ∃ k' ∈ l1 ++ l2, k'.name = k.name ∧ k'.offset = k.offset ∧ k'.width = k.width := by
    intro k hk
    have : core k ∈ (l1 ++ l2).map core := by
      rw [List.map_append, ← e2, ← e5, ← List.map_append]
      exact List.mem_map.mpr ⟨k, hk, rfl⟩
    obtain ⟨k', hk', ek⟩ := List.mem_map.mp this
    obtain ⟨a1, a2, a3, _⟩ := core_parts ek
    exact ⟨k', hk', a1, a3, a2⟩
  have hdis : ∀ k ∈ m1 ++ m2, ∀ i, ¬ (covers g i ∧ covers k i) := by
    intro k hk i hcov
    obtain ⟨k', hk', _, a2, a3⟩ := hother k hk
    refine h2 k' hk' i ?_
    unfold covers at hcov ⊢
    rw [← q2, ← q3, a2, a3]; exact hcov
  have hfirst : ∀ k ∈ m1, k.name ≠ ft.name := by
    intro k hk
    have : core k ∈ l1.map core := by rw [← e2]; exact List.mem_map.mpr ⟨k, hk, rfl⟩
    obtain ⟨k', hk', ek⟩ := List.mem_map.mp this
    rw [← (core_parts ek).1]
    exact h1 k' hk'
  have hg : given x' ft.name = g.val := by
    unfold given
    rw [e1, find_split q1 hfirst]; rfl
  obtain ⟨c1, c2⟩ := C17_values_appear f f' b hB.bytes pre' post' x' ha.after (hB.fits x' (by rw [ha.after]; simp)) m1 m2 g e1
  rw [q2, q3] at c1 c2
  have hfv : fieldValue g = (given x' ft.name).or ft.dflt := by
    unfold fieldValue
    rw [hg, q4]
    cases g.val <;> rfl
  unfold numOf
  rw [← hfv]
  cases e : fieldValue g with
  | some v => exact c1 v e (fun k hk _ => hdis k (by simp [hk]))
  | none =>
    refine c2 (fun y hy => hB.fits y (by rw [ha.after]; simp [hy])) e ?_ ?_
    · rw [hsz]
      exact ((tmpls_fit t ht).inside ft (by rw [hsp]; simp)).1
    · intro k hk hks
      rw [e1] at hk
      rcases List.mem_append.mp hk with hk | hk
      · exact hdis k (by simp [hk])
      · rcases List.mem_cons.mp hk with rfl | hk
        · rw [e] at hks; cases hks
        · exact hdis k (by simp [hk])

/-- **C100** (partial): a value written out that the field has anyway leaves every byte of the frame as it is. Left out: headers
whose shape depends on what is given (`flexible`), frames with an `mld` header, and the checksum of `icmp` directly on
`ipv6`, where it is false (see `C100_false`). -/
theorem C100_spelled_out_partial {argv pre lead rest : List CStr} {f0 f f' : Frame} {t : Hdr} {as : List (CStr × CStr)} {b : Buf}
    (hA : Assigned argv pre f0 t lead as rest) (hB : Built argv f f' b) (hfx : t.name ∉ flexible)
    (hnm : ∀ z ∈ f.stack, z.name ≠ c!"mld")
    {hp hq hp' hq' : List Hdr} {x x' : Hdr} (ha : At f f' hp x hq hp' x' hq') (hpos : hp.length = f0.stack.length)
    {l1 l2 : List Field} {ft : Field} (hsp : t.fields = l1 ++ ft :: l2) (h1 : ∀ k ∈ l1, k.name ≠ ft.name)
    (h2 : ∀ k ∈ l1 ++ l2, ∀ i, ¬ (covers ft i ∧ covers k i)) (hpl : PlainField t ft.name) (hps : ft.parser = .none)
    (hic : t.name = c!"icmp" → ft.name = c!"chksum" → ∀ z, hp.getLast? = some z → z.name ≠ c!"ipv6")
    {txt : CStr} {w : Buf} (hw : parseBytes txt (bitToByte ft.width) = .ok (some w)) (hni : ¬ IgnWord txt) (hnh : txt ≠ c!"help")
    (hsh : txt.length < 2 ^ 32) (hnum : beNat w % 2 ^ ft.width = numAt b (8 * totalSize hp' + ft.offset) ft.width)
    (hlen : argv.length + 2 ≤ 100) (hbare : lead = [] → as = [] → ∀ w ∈ rest.head?, ¬ IgnWord w) :
    ∃ g g', Sent (pre ++ t.name :: (lead ++ (asgnWords (as ++ [(ft.name, txt)]) ++ rest))) g g' b ∧ g.padding = f.padding := by
  obtain ⟨n, hn⟩ := hB.parsed
  have ht := hA.tmpl
  have hfd : findField t ft.name = some ft := by unfold findField; rw [hsp, find_split rfl h1]
  have hii : isIgn txt = false := by
    cases e : isIgn txt with
    | false => rfl
    | true => exact absurd ((isIgn_iff txt).1 e) hni
  have hpv : parseVal ft txt = .ok (some w) := by unfold parseVal; rw [hps]; exact hw
  have hgood : GoodAsgn t (ft.name, txt) := by
    obtain ⟨hni', f1, hf1, a2, a3, a4⟩ := hpl
    rw [show t.fields.find? (fun f => f.name == ft.name) = some ft from hfd] at hf1
    obtain rfl := Option.some.inj hf1
    refine ⟨(tmpl_words t ht).2.2.2 hA.kind ft (by rw [hsp]; simp), ?_, ft, hfd, a2, a3, a4, Or.inr ⟨hnh, _, hpv⟩⟩
    cases e : isIgn ft.name with
    | false => rfl
    | true => exact absurd ((isIgn_iff _).1 e) hni'
  obtain ⟨hs, p1, p2, p3⟩ := parse_more hA hn hgood hii (by unfold frameStackMax; exact hlen) hbare
  have hshort : ShortWords (pre ++ t.name :: (lead ++ (asgnWords (as ++ [(ft.name, txt)]) ++ rest))) := by
    have h0 := hB.short
    rw [hA.words] at h0
    have hfl : ft.name.length < 2 ^ 32 := by
      have : ∀ t ∈ hdrTmpls, ∀ k ∈ t.fields, k.name.length < 2 ^ 32 := by decide +kernel
      exact this t ht ft (by rw [hsp]; simp)
    have haw : ∀ l : List (CStr × CStr), asgnWords (l ++ [(ft.name, txt)]) = asgnWords l ++ [ft.name, txt] := by
      intro l
      induction l with
      | nil => rfl
      | cons c l ih => obtain ⟨c1, c2⟩ := c; simp [asgnWords, ih]
    intro v hv
    rw [haw] at hv
    simp only [List.mem_append, List.mem_cons, List.not_mem_nil, or_false] at hv
    rcases hv with hv | rfl | hv | (hv | rfl | rfl) | hv
    · exact h0 v (by simp [hv])
    · exact h0 _ (by simp)
    · exact h0 v (by simp [hv])
    · exact h0 v (by simp [hv])
    · exact hfl
    · exact hsh
    · exact h0 v (by simp [hv])
  have hxe : hp = f0.stack ∧ x = assignAll (leadHdr lead t) as ∧ hq = hs := by
    have e := ha.before
    rw [p1] at e
    obtain ⟨e1, e2⟩ := List.append_inj e hpos.symm
    simp only [List.cons.injEq] at e2
    exact ⟨e1.symm, e2.1.symm, e2.2.symm⟩
  obtain ⟨rfl, hx, rfl⟩ := hxe
  obtain ⟨t1, t2, t3⟩ := flex_tables t ht hfx
  have hxn : x.name = t.name := by rw [hx]; exact (assignAll_fill as lead t).2
  obtain ⟨hi, hty⟩ := inst_of_tmpl (hB.inst x (by rw [ha.before]; simp)) ht hA.kind hxn hfx
  have hgi := argcFrame_inst hshort p3
  rw [← hx] at p3 hgi
  have hyn : (assign1 x (ft.name, txt)).name = t.name := by rw [← hxn]; rfl
  obtain ⟨hyi, _⟩ := inst_of_tmpl (hgi (assign1 x (ft.name, txt)) (by simp)) ht hA.kind hyn hfx
  obtain ⟨fx, b1, b2⟩ := hi.find' hfd
  have hnear : Near ft.name w x (assign1 x (ft.name, txt)) := by
    refine ⟨rfl, rfl, rfl, rfl, ?_⟩
    obtain ⟨c0, k1, k2, c1, c2⟩ := List.find?_eq_some_iff_append.mp b1
    have c0' : fx.name = ft.name := by simpa using c0
    have hk1 : ∀ k ∈ k1, k.name ≠ ft.name := fun k hk => by simpa using c2 k hk
    refine ⟨k1, fx, setBy txt fx, k2, c1, ?_, c0', hk1, rfl, ?_⟩
    · show updFirst _ _ x.fields = _
      rw [c1, updFirst_mid _ c0' hk1]
    · show (if isIgn txt then none else okVal (parseVal fx txt)) = some w
      have : parseVal fx txt = parseVal ft txt := by unfold parseVal; rw [b2.parser, b2.width]
      rw [hii, this, hpv]; rfl
  have halone : Alone t ft.name := by
    intro k1 p k2 d1 d2 d3 k hk i hc hc'
    have : t.fields.find? (fun f => f.name == ft.name) = some p := by rw [d1, find_split d2 d3]
    rw [show t.fields.find? (fun f => f.name == ft.name) = some ft from hfd] at this
    obtain rfl := Option.some.inj this
    rw [hsp] at d1
    have hl : l1.length = k1.length := by
      rcases Nat.lt_trichotomy l1.length k1.length with h | h | h
      · have := congrArg (fun l => l[l1.length]?) d1
        simp only [List.getElem?_append_right (Nat.le_refl _), Nat.sub_self, List.getElem?_append_left h] at this
        simp only [List.getElem?_cons_zero, List.getElem?_eq_getElem h, Option.some.injEq] at this
        exact absurd (by rw [← this]) (d3 _ (List.getElem_mem h))
      · exact h
      · have := congrArg (fun l => l[k1.length]?) d1
        simp only [List.getElem?_append_right (Nat.le_refl _), Nat.sub_self, List.getElem?_append_left h] at this
        simp only [List.getElem?_cons_zero, List.getElem?_eq_getElem h, Option.some.injEq] at this
        exact absurd (by rw [this]) (h1 _ (List.getElem_mem h))
    obtain ⟨e1, e2⟩ := List.append_inj d1 hl
    simp only [List.cons.injEq, true_and] at e2
    subst e1 e2
    exact h2 k hk i ⟨hc, hc'⟩
  have hnum' : numOf ft (given x' ft.name) = numOf ft (some w) := by
    rw [← num_alone hB ha ht hi t2 hsp h1 h2, ← hnum]; rfl
  obtain ⟨g', hg'⟩ := near_frame hB ha (g := { f with stack := f0.stack ++ assign1 x (ft.name, txt) :: hq }) rfl hnm ht t1 hi hyi hty
    hnear halone hfd hnum' (fun c1 c2 => by
      unfold ipv6Below
      cases e : f0.stack.getLast? with
      | none => rfl
      | some z => simp only; rw [if_neg (hic (t3 c1) c2 z e)])
  exact ⟨_, g', ⟨hshort, ⟨_, p3⟩, hg'⟩, rfl⟩

theorem literal_not_help {v : CStr} {N : Nat} (h : Literal v N) : v ≠ c!"help" := by
  intro hi
  cases h with
  | dec _ _ h =>
    cases h with
    | nil => cases hi
    | snoc s n c d h1 h2 h3 =>
      have h4 := digit_small h2 h3
      have : c = ch!"p" := by simpa using congrArg List.getLast? hi
      subst this
      exact absurd h4 (by decide)
  | hex s n _ => simp at hi
  | oct s n _ => simp at hi
  | bin s n _ => simp at hi

/-- **C100** (partial), numbers: a field of up to 8 bytes that holds the number `N` on the wire may be written out as any text
denoting `N`. -/
theorem C100_numbers_partial {argv pre lead rest : List CStr} {f0 f f' : Frame} {t : Hdr} {as : List (CStr × CStr)} {b : Buf}
    (hA : Assigned argv pre f0 t lead as rest) (hB : Built argv f f' b) (hfx : t.name ∉ flexible)
    (hnm : ∀ z ∈ f.stack, z.name ≠ c!"mld")
    {hp hq hp' hq' : List Hdr} {x x' : Hdr} (ha : At f f' hp x hq hp' x' hq') (hpos : hp.length = f0.stack.length)
    {l1 l2 : List Field} {ft : Field} (hsp : t.fields = l1 ++ ft :: l2) (h1 : ∀ k ∈ l1, k.name ≠ ft.name)
    (h2 : ∀ k ∈ l1 ++ l2, ∀ i, ¬ (covers ft i ∧ covers k i)) (hpl : PlainField t ft.name) (hps : ft.parser = .none)
    (hic : t.name = c!"icmp" → ft.name = c!"chksum" → ∀ z, hp.getLast? = some z → z.name ≠ c!"ipv6")
    {txt : CStr} {N : Nat} (hN : Literal txt N) (hwid : ft.width ≤ 64) (hsh : txt.length < 2 ^ 32)
    (hnum : numAt b (8 * totalSize hp' + ft.offset) ft.width = N)
    (hlen : argv.length + 2 ≤ 100) (hbare : lead = [] → as = [] → ∀ w ∈ rest.head?, ¬ IgnWord w) :
    ∃ g g', Sent (pre ++ t.name :: (lead ++ (asgnWords (as ++ [(ft.name, txt)]) ++ rest))) g g' b ∧ g.padding = f.padding := by
  have hN2 : N < 2 ^ ft.width := by
    rw [← hnum]
    have := bitsNat_lt (bitsAt b (8 * totalSize hp' + ft.offset) ft.width)
    rw [bitsAt_length] at this
    exact this
  have hk : bitToByte ft.width ≤ 8 ∧ ft.width ≤ 8 * bitToByte ft.width := by
    unfold bitToByte
    omega
  have hN64 : N < 2 ^ 64 := Nat.lt_of_lt_of_le hN2 (Nat.pow_le_pow_right (by omega) hwid)
  have hp := C01_integer_literals hN (bitToByte ft.width) hk.1
  rw [if_pos hN64] at hp
  refine C100_spelled_out_partial hA hB hfx hnm ha hpos hsp h1 h2 hpl hps hic hp (literal_not_ign hN) (literal_not_help hN) hsh ?_ hlen hbare
  rw [hnum, beNat_beBytes, show (256 : Nat) = 2 ^ 8 from rfl, ← Nat.pow_mul]
  rw [Nat.mod_eq_of_lt (Nat.lt_of_lt_of_le hN2 (Nat.pow_le_pow_right (by omega) hk.2)), Nat.mod_eq_of_lt hN2]

/-! ## Where it fails -/

/-- Cases: the frame given by `pre` and a header without assignments. -/
theorem assigned_bare {pre : List CStr} {t : Hdr} {k : Nat}
    (hk : (match argcFrame pre with
      | .ok (some (n, f0)) => decide (n = pre.length ∧ f0.stack.length = k ∧ ∀ h ∈ f0.stack.getLast?, ∀ g ∈ h.fields, g.name ≠ t.name)
      | _ => false) = true) (ht : t ∈ hdrTmpls) (hp : t.parser = .fields) {rest : List CStr}
    (hr : ∀ x tl, rest = x :: tl → ∀ g ∈ t.fields, g.name ≠ x) :
    ∃ f0, Assigned (pre ++ t.name :: rest) pre f0 t [] [] rest ∧ f0.stack.length = k := by
  split at hk
  · rename_i n f0 h0
    simp only [decide_eq_true_eq, Option.mem_def] at hk
    obtain ⟨rfl, k1, k2⟩ := hk
    exact ⟨f0, ⟨rfl, h0, ht, hp, k2, Or.inl rfl, fun a ha => by simp at ha, hr⟩, k1⟩
  · simp at hk

/-- **C100 does not hold**: if the checksum of an ICMPv6 message is written out, the header before announces protocol 1
instead of 58. -/
theorem C100_false : ¬ C100_statement := by
  intro hC
  obtain ⟨f0, hA, hk⟩ := assigned_bare (pre := [c!"eth", c!"ipv6"]) (t := HDR_ICMP) (k := 2) (rest := []) (by decide +kernel)
    (by decide +kernel) (by decide +kernel) (by intro x tl e; cases e)
  obtain ⟨f, f', b, pre, x, post, pre', x', post', h1, h2, h3⟩ := holdsAt_elim (argv := [c!"eth", c!"ipv6", c!"icmp"]) (i := 2)
    (P := fun _ _ b pre _ pre' _ => decide (pre.length = 2 ∧ numAt b (8 * totalSize pre' + 16) 16 = 65469 ∧ b[20]? = some 58#8))
    (by decide +kernel)
  simp only [decide_eq_true_eq] at h3
  obtain ⟨h3, h4, h5⟩ := h3
  obtain ⟨g, g', hS, _⟩ := hC _ _ _ _ _ _ _ _ _ _ hA h1 _ _ _ _ _ _ h2 (by rw [h3, hk])
    (HDR_ICMP.fields.take 2) (HDR_ICMP.fields.drop 3) { name := c!"chksum", width := 16, offset := 16 } (by decide +kernel)
    (by decide +kernel) (by
      intro k hk i
      have : ∀ k ∈ HDR_ICMP.fields.take 2 ++ HDR_ICMP.fields.drop 3, k.offset + k.width ≤ 16 ∨ 32 ≤ k.offset := by decide +kernel
      have := this k hk
      unfold covers
      simp only
      omega)
    (plain_of (t := HDR_ICMP) (as := [(c!"chksum", [])]) (by decide +kernel) (c!"chksum", []) (by simp)) rfl c!"65469" [255#8, 189#8] (by decide +kernel) (by decide) (by decide)
    (by decide) (by rw [h4]; decide) (by decide) (by intro _ _ w hw; simp at hw)
  obtain ⟨n, hn⟩ := hS.parsed
  have key : (match argcFrame [c!"eth", c!"ipv6", c!"icmp", c!"chksum", c!"65469"] with
    | .ok (some (_, g)) => (match frameToBuf g with
      | .ok (_, b) => decide (b[20]? = some 1#8)
      | _ => false)
    | _ => false) = true := by decide +kernel
  have hn' : argcFrame [c!"eth", c!"ipv6", c!"icmp", c!"chksum", c!"65469"] = .ok (some (n, g)) := hn
  rw [hn'] at key
  simp only [hS.bytes, decide_eq_true_eq] at key
  rw [h5] at key
  cases key

/-- A case: the checksum of `ipv4` written out. -/
example : ∃ argv2 f f' b g g', Built [c!"eth", c!"ipv4", c!"udp", c!"data", c!"hex", c!"0102"] f f' b ∧ Sent argv2 g g' b ∧
    argv2 = [c!"eth", c!"ipv4", c!"chksum", c!"0x9bd0", c!"udp", c!"data", c!"hex", c!"0102"] := by
  obtain ⟨f0, hA, hk⟩ := assigned_bare (pre := [c!"eth"]) (t := HDR_IPV4) (k := 1) (rest := [c!"udp", c!"data", c!"hex", c!"0102"])
    (by decide +kernel) (by decide +kernel) (by decide +kernel) (by intro x tl e; cases e; decide +kernel)
  obtain ⟨f, f', b, pre, x, post, pre', x', post', h1, h2, h3⟩ := holdsAt_elim
    (argv := [c!"eth", c!"ipv4", c!"udp", c!"data", c!"hex", c!"0102"]) (i := 1)
    (P := fun f _ b pre _ pre' _ => decide (pre.length = 1 ∧ numAt b (8 * totalSize pre' + 80) 16 = 0x9bd0 ∧
      ∀ z ∈ f.stack, z.name ≠ c!"mld")) (by decide +kernel)
  simp only [decide_eq_true_eq] at h3
  obtain ⟨h3, h4, h5⟩ := h3
  obtain ⟨g, g', hS, _⟩ := C100_spelled_out_partial hA h1 (by decide +kernel) h5 h2 (by rw [h3, hk]) (l1 := HDR_IPV4.fields.take 10)
    (l2 := HDR_IPV4.fields.drop 11) (ft := { name := c!"chksum", width := 16, offset := 80 }) (by decide +kernel) (by decide +kernel) (by
      intro k hk i
      have : ∀ k ∈ HDR_IPV4.fields.take 10 ++ HDR_IPV4.fields.drop 11, k.offset + k.width ≤ 80 ∨ 96 ≤ k.offset := by decide +kernel
      have := this k hk
      unfold covers
      simp only
      omega)
    (plain_of (t := HDR_IPV4) (as := [(c!"chksum", [])]) (by decide +kernel) (c!"chksum", []) (by simp)) rfl (by intro h; exact absurd h (by decide))
    (txt := c!"0x9bd0") (w := [0x9b#8, 0xd0#8]) (by decide +kernel) (by decide) (by decide) (by decide) (by rw [h4]; decide) (by decide)
    (by intro _ _ w hw; simp only [List.head?_cons, Option.mem_def, Option.some.injEq] at hw; subst hw; decide)
  exact ⟨_, f, f', b, g, g', h1, hS, rfl⟩

end Ef.Props
