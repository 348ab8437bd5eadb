import Verif.Lemmas.Values
import Verif.Lemmas.Placed
import Verif.Props.Fill
import Verif.Props.Parse
import Verif.Props.Words
import Verif.Spec.Header

/-!
# Properties C42 and C70: values given as text, in the bytes of the frame
-/

namespace Ef.Props

open Ef Spec

/-! ## C70 -/

/-- **C70**: the value of every field is what the text assigned last denotes; fields without assignment and fields
that are ignored have no value. -/
theorem C70_assigned_values {argv pre rest lead : List CStr} {f0 f : Frame} {t : Hdr} {as : List (CStr × CStr)} {n : Nat}
    (hA : Assigned argv pre f0 t lead as rest) (hne : as ≠ []) (h : argcFrame argv = .ok (some (n, f))) :
    ∃ x, f.stack[f0.stack.length]? = some x ∧ x.name = t.name ∧ ∀ name,
      (lastOf as name = none → given x name = none) ∧
      ∀ v, lastOf as name = some v →
        (IgnWord v → given x name = none) ∧
        (¬ IgnWord v → ∀ ft, t.fields.find? (fun k => k.name == name) = some ft → ft.parser = .none →
          parseBytes v (bitToByte ft.width) = .ok (given x name)) := by
  rw [hA.words] at h
  obtain ⟨h1, h2⟩ := asgn_header hA.pre hA.tmpl hA.kind hA.fresh hA.lead hA.plain hA.stop (Or.inr hne) h
  have hv := tmpl_vals t hA.tmpl
  refine ⟨_, h1, ?_, fun name => ?_⟩
  · have : ∀ (as : List (CStr × CStr)) (z : Hdr), (assignAll z as).name = z.name := by
      intro as
      induction as with
      | nil => intro z; rfl
      | cons a as ih => intro z; exact (ih (assign1 z a)).trans rfl
    rw [this]
    unfold leadHdr
    split <;> rfl
  · obtain ⟨g1, g2⟩ := asgn_given hv (lead := lead) h2 name
    refine ⟨g1, fun v hl => ⟨(g2 v hl).1, fun hi ft hft hp => ?_⟩⟩
    have := (g2 v hl).2 hi ft hft
    unfold parseVal at this
    rw [hp] at this
    exact this

/-- The kinds of headers whose layout depends on which fields are given. -/
def reshaped : List CStr := [c!"igmp", c!"mld", c!"sv", c!"coap-opt"]

theorem reshaped_table : ∀ t ∈ hdrTmpls, t.name ∉ reshaped → ¬ Reshapes t.fill ∧ t.name ≠ c!"coap-opt" := by decide +kernel

theorem assignAll_fill (as : List (CStr × CStr)) (lead : List CStr) (t : Hdr) :
    (assignAll (leadHdr lead t) as).fill = t.fill ∧ (assignAll (leadHdr lead t) as).name = t.name := by
  have : ∀ (as : List (CStr × CStr)) (z : Hdr), (assignAll z as).fill = z.fill ∧ (assignAll z as).name = z.name := by
    intro as
    induction as with
    | nil => intro z; exact ⟨rfl, rfl⟩
    | cons a as ih => intro z; exact ih (assign1 z a)
  rw [(this as _).1, (this as _).2]
  unfold leadHdr
  split <;> exact ⟨rfl, rfl⟩

/-- The header behind `pre`. -/
theorem at_header {f f' : Frame} {hp hq hp' hq' : List Hdr} {x x' y : Hdr} {k : Nat} (ha : At f f' hp x hq hp' x' hq')
    (hk : hp.length = k) (hy : f.stack[k]? = some y) : x = y := by
  rw [ha.before, ← hk] at hy
  simpa using hy

/-- Common part: a value of a fixed-size field in the frame. -/
theorem wire_value {argv pre rest lead : List CStr} {f0 f f' : Frame} {b : Buf} {t : Hdr} {as : List (CStr × CStr)}
    (hA : Assigned argv pre f0 t lead as rest) (hB : Sent argv f f' b) (hk : t.name ∉ reshaped)
    {hp hq hp' hq' : List Hdr} {x x' : Hdr} (ha : At f f' hp x hq hp' x' hq') (hpos : hp.length = f0.stack.length)
    {l1 l2 : List Field} {ft : Field} (hsp : t.fields = l1 ++ ft :: l2) (h1 : ∀ k ∈ l1, k.name ≠ ft.name)
    (h2 : ∀ k ∈ l2, ∀ i, ¬ (covers ft i ∧ covers k i)) {v : CStr} (hl : lastOf as ft.name = some v) (hi : ¬ IgnWord v) :
    ∃ o, parseVal ft v = .ok o ∧ given x ft.name = o ∧
      ∀ w, o = some w → numAt b (8 * totalSize hp' + ft.offset) ft.width = beNat w % 2 ^ ft.width := by
  have ht := hA.tmpl
  obtain ⟨n, hn⟩ := hB.parsed
  rw [hA.words] at hn
  have hne : as ≠ [] := by rintro rfl; simp [lastOf] at hl
  obtain ⟨e1, e2⟩ := asgn_header hA.pre ht hA.kind hA.fresh hA.lead hA.plain hA.stop (Or.inr hne) hn
  have hx := at_header ha hpos e1
  obtain ⟨_, g2⟩ := asgn_given (tmpl_vals t ht) (lead := lead) e2 ft.name
  have hfd : findField t ft.name = some ft := by
    unfold findField
    rw [hsp, List.find?_append]
    have : l1.find? (fun f => f.name == ft.name) = none := by
      rw [List.find?_eq_none]
      intro k hk
      simpa using h1 k hk
    rw [this, Option.none_or, List.find?_cons]
    simp
  have hpv := (g2 v hl).2 hi ft hfd
  rw [← hx] at hpv
  refine ⟨_, hpv, rfl, fun w hw => ?_⟩
  obtain ⟨r1, r2⟩ := reshaped_table t ht hk
  obtain ⟨f1, f2⟩ := assignAll_fill as lead t
  refine value_on_wire hB ha (t := t) ?_ ?_ ?_ hsp h1 h2 hw
  · rw [hx]; exact (leadHdr_core lead t).assignAll as
  · rw [hx, f1]; exact r1
  · rw [hx, f2]; exact r2

theorem digit_small {c : Byte} {d : Nat} (h : Digit c d) (hd : d < 10) : c.toNat < 58 := by
  cases h with
  | dec d hd => simp only [BitVec.toNat_ofNat]; omega
  | lower d h1 h2 => omega
  | upper d h1 h2 => omega

/-- A number is not the word "ignore". -/
theorem literal_not_ign {v : CStr} {N : Nat} (h : Literal v N) : ¬ IgnWord v := by
  intro hi
  cases h with
  | dec _ _ h =>
    cases h with
    | nil => rcases hi with h | h <;> cases h
    | snoc s n c d h1 h2 h3 =>
      have h4 := digit_small h2 h3
      have : c = ch!"n" ∨ c = ch!"e" := by
        rcases hi with h | h
        · exact Or.inl (by simpa using congrArg List.getLast? h)
        · exact Or.inr (by simpa using congrArg List.getLast? h)
      rcases this with rfl | rfl <;> exact absurd h4 (by decide)
  | hex s n _ => rcases hi with h | h <;> simp at h
  | oct s n _ => rcases hi with h | h <;> simp at h
  | bin s n _ => rcases hi with h | h <;> simp at h

/-- **C70, numbers**: a number (decimal, `0x`, `0o` or `0b`) assigned to a field of at most 64 bits is the number found
in the frame at the position of the field in its header, reduced to the width of the field. `ft` is the first field of
its name and shares no bits with later fields of the template. -/
theorem C70_numbers_on_the_wire {argv pre rest lead : List CStr} {f0 f f' : Frame} {b : Buf} {t : Hdr} {as : List (CStr × CStr)}
    (hA : Assigned argv pre f0 t lead as rest) (hB : Sent argv f f' b) (hk : t.name ∉ reshaped)
    (hp hq hp' hq' : List Hdr) (x x' : Hdr) (ha : At f f' hp x hq hp' x' hq') (hpos : hp.length = f0.stack.length)
    (l1 l2 : List Field) (ft : Field) (hsp : t.fields = l1 ++ ft :: l2) (h1 : ∀ k ∈ l1, k.name ≠ ft.name)
    (h2 : ∀ k ∈ l2, ∀ i, ¬ (covers ft i ∧ covers k i)) (hpar : ft.parser = .none) (hw : ft.width ≤ 64)
    (v : CStr) (N : Nat) (hl : lastOf as ft.name = some v) (hv : Literal v N) (hN : N < 2 ^ 64) :
    numAt b (8 * totalSize hp' + ft.offset) ft.width = N % 2 ^ ft.width := by
  have hni : ¬ IgnWord v := literal_not_ign hv
  obtain ⟨o, e1, e2, e3⟩ := wire_value hA hB hk ha hpos hsp h1 h2 hl hni
  unfold parseVal at e1
  rw [hpar] at e1
  simp only at e1
  have hb : bitToByte ft.width ≤ 8 := by unfold bitToByte; omega
  rw [C01_integer_literals hv _ hb, if_pos hN] at e1
  simp only [Out.ok.injEq] at e1
  rw [e3 _ e1.symm, beNat_beBytes]
  have : 256 ^ bitToByte ft.width = 2 ^ ft.width * 2 ^ (8 * bitToByte ft.width - ft.width) := by
    rw [← Nat.pow_add, show (256 : Nat) = 2 ^ 8 from rfl, ← Nat.pow_mul]
    congr 1
    unfold bitToByte; omega
  rw [this, Nat.mod_mul_right_mod]

/-- A case for the theorems above: `data` behind it, "ignore" in front, a repeated assignment. -/
theorem assigned_case : ∃ f0, Assigned [c!"eth", c!"ipv4", c!"ign", c!"ttl", c!"1", c!"proto", c!"0x11", c!"ttl", c!"300", c!"data"]
    [c!"eth"] f0 HDR_IPV4 [c!"ign"] [(c!"ttl", c!"1"), (c!"proto", c!"0x11"), (c!"ttl", c!"300")] [c!"data"] ∧
    f0.stack.length = 1 := by
  have key : (match argcFrame [c!"eth"] with
      | .ok (some (n, f0)) => decide (n = 1 ∧ f0.stack.length = 1 ∧ ∀ h ∈ f0.stack.getLast?, ∀ g ∈ h.fields, g.name ≠ c!"ipv4")
      | _ => false) = true := by decide +kernel
  split at key
  · rename_i n f0 h0
    simp only [decide_eq_true_eq, Option.mem_def] at key
    obtain ⟨rfl, k1, k2⟩ := key
    refine ⟨f0, ⟨rfl, h0, by decide +kernel, rfl, k2, Or.inr ⟨_, Or.inl rfl, rfl⟩, plain_of (by decide +kernel), ?_⟩, k1⟩
    intro x tl e
    cases e
    decide +kernel
  · simp at key

example : ∃ f f' b pre x post pre' x' post',
    Built [c!"eth", c!"ipv4", c!"ign", c!"ttl", c!"1", c!"proto", c!"0x11", c!"ttl", c!"300", c!"data"] f f' b ∧
    At f f' pre x post pre' x' post' ∧ pre.length = 1 ∧ numAt b (8 * totalSize pre' + 64) 8 = 44 := by
  obtain ⟨f, f', b, pre, x, post, pre', x', post', h1, h2, h3⟩ := holdsAt_elim
    (argv := [c!"eth", c!"ipv4", c!"ign", c!"ttl", c!"1", c!"proto", c!"0x11", c!"ttl", c!"300", c!"data"]) (i := 1)
    (P := fun _ _ b pre _ pre' _ => decide (pre.length = 1 ∧ numAt b (8 * totalSize pre' + 64) 8 = 44)) (by decide +kernel)
  simp only [decide_eq_true_eq] at h3
  exact ⟨f, f', b, pre, x, post, pre', x', post', h1, h2, h3⟩

/-! ## C42 -/

/-- The field `n` of the OPC-UA header, `k` bytes at byte `o`, is sent with the least significant byte first. -/
def LittleEndian (n : CStr) (o k : Nat) : Prop :=
  ∀ argv pre rest lead f0 f f' b as, Assigned argv pre f0 HDR_OPC_UA lead as rest → Sent argv f f' b →
    ∀ hp hq hp' hq' x x', At f f' hp x hq hp' x' hq' → hp.length = f0.stack.length →
    ∀ v N, lastOf as n = some v → Literal v N → N < 256 ^ k → slice b (totalSize hp' + o) k = leBytes k N

/-- **C42, full statement.** The numbers of the OPC-UA network message and group headers. -/
def C42_statement : Prop :=
  LittleEndian c!"pub-id" 2 2 ∧ LittleEndian c!"wg-id" 5 2 ∧ LittleEndian c!"gversion" 7 4 ∧
    LittleEndian c!"nm-num" 11 2 ∧ LittleEndian c!"seq-num" 13 2

/-- `eth opc-ua F V`. -/
theorem opc_case (n v : CStr) (hn : plainB HDR_OPC_UA [(n, v)] = true) :
    ∃ f0, Assigned [c!"eth", c!"opc-ua", n, v] [c!"eth"] f0 HDR_OPC_UA [] [(n, v)] [] ∧ f0.stack.length = 1 := by
  have key : (match argcFrame [c!"eth"] with
      | .ok (some (n, f0)) => decide (n = 1 ∧ f0.stack.length = 1 ∧ ∀ h ∈ f0.stack.getLast?, ∀ g ∈ h.fields, g.name ≠ c!"opc-ua")
      | _ => false) = true := by decide +kernel
  split at key
  · rename_i n f0 h0
    simp only [decide_eq_true_eq, Option.mem_def] at key
    obtain ⟨rfl, k1, k2⟩ := key
    refine ⟨f0, ⟨rfl, h0, by decide +kernel, rfl, k2, Or.inl rfl, plain_of hn, ?_⟩, k1⟩
    intro x tl e
    cases e
  · simp at key

/-- **C42 is false**: the sequence number 1 is sent as `00 01`. -/
theorem C42_false : ¬ C42_statement := by
  intro h
  obtain ⟨f0, hA, hl⟩ := opc_case c!"seq-num" c!"1" (by decide +kernel)
  obtain ⟨f, f', b, pre, x, post, pre', x', post', h1, h2, h3⟩ := holdsAt_elim
    (argv := [c!"eth", c!"opc-ua", c!"seq-num", c!"1"]) (i := 1)
    (P := fun _ _ b pre _ pre' _ => decide (pre.length = 1 ∧ slice b (totalSize pre' + 13) 2 = [0#8, 1#8])) (by decide +kernel)
  simp only [decide_eq_true_eq] at h3
  have := h.2.2.2.2 _ _ _ _ _ _ _ _ _ hA h1.toSent _ _ _ _ _ _ h2 (h3.1.trans hl.symm) c!"1" 1 (by decide)
    (by
      have := Numeral.snoc (base := 10) [] 0 ch!"1" 1 Numeral.nil (Digit.dec 1 (by decide)) (by decide)
      exact Literal.dec _ _ (by simpa using this)) (by decide)
  rw [h3.2] at this
  exact absurd this (by decide)

/-- The size of a header that is not reshaped. -/
theorem wire_size {argv pre rest lead : List CStr} {f0 f f' : Frame} {b : Buf} {t : Hdr} {as : List (CStr × CStr)}
    (hA : Assigned argv pre f0 t lead as rest) (hB : Sent argv f f' b) (hk : t.name ∉ reshaped)
    {hp hq hp' hq' : List Hdr} {x x' : Hdr} (ha : At f f' hp x hq hp' x' hq') (hpos : hp.length = f0.stack.length)
    (hne : as ≠ []) : x'.size = t.size := by
  have ht := hA.tmpl
  obtain ⟨n, hn⟩ := hB.parsed
  rw [hA.words] at hn
  obtain ⟨e1, e2⟩ := asgn_header hA.pre ht hA.kind hA.fresh hA.lead hA.plain hA.stop (Or.inr hne) hn
  have hx := at_header ha hpos e1
  obtain ⟨r1, r2⟩ := reshaped_table t ht hk
  obtain ⟨f1, f2⟩ := assignAll_fill as lead t
  have hlay : lay x' = lay x := fillHdr_lay (by rw [hx, f1]; exact r1) x' (hB.place ha).filled
  have : x'.size = x.size := congrArg (fun q => q.2.1) hlay
  rw [this, hx]
  have : ∀ (as : List (CStr × CStr)) (z : Hdr), (assignAll z as).size = z.size := by
    intro as
    induction as with
    | nil => intro z; rfl
    | cons a as ih => intro z; exact ih (assign1 z a)
  rw [this]
  unfold leadHdr
  split <;> rfl

theorem opc_bytes {n : CStr} {o : Nat} (h1 : (findField HDR_OPC_UA n).map (fun f => (f.offset, f.width, f.parser)) =
    some (8 * o, 16, .opcUint16)) : LittleEndian n o 2 := by
  intro argv pre rest lead f0 f f' b as hA hB hp hq hp' hq' x x' ha hpos v N hl hv hN
  obtain ⟨ft, hft, h1⟩ := Option.map_eq_some_iff.mp h1
  simp only [Prod.mk.injEq] at h1
  obtain ⟨q1, q2, q3⟩ := h1
  obtain ⟨l1, l2, hs⟩ := sep_of_disj (t := HDR_OPC_UA) (by decide +kernel) hft
  obtain ⟨o', e1, e2, e3⟩ := wire_value hA hB (by decide) ha hpos hs.split (by rw [hs.name]; exact hs.fresh) (by
    intro k hk i hc
    have := hs.after k hk
    unfold covers at hc
    omega) (by rw [hs.name]; exact hl) (literal_not_ign hv)
  unfold parseVal at e1
  rw [q3] at e1
  simp only [opcParseUint16] at e1
  rw [C01_integer_literals hv 2 (by decide), if_pos (Nat.lt_of_lt_of_le hN (by decide)), Out.ok_bind] at e1
  simp only [beBytes, Out.ok.injEq] at e1
  have hnum := e3 _ e1.symm
  obtain ⟨n, hn⟩ := hB.parsed
  rw [hA.words] at hn
  have hne : as ≠ [] := by rintro rfl; simp [lastOf] at hl
  have hsz := wire_size hA hB (by decide) ha hpos hne
  have h15 : HDR_OPC_UA.size = 15 := by decide +kernel
  have ho : ft.offset + ft.width ≤ 8 * HDR_OPC_UA.size := ((tmpls_fit _ hA.tmpl).inside ft (find_mem hft).1).1
  have hlong := hB.long ha
  unfold slice
  rw [slice_eq b _ _ (by omega), show 8 * (totalSize hp' + o) = 8 * totalSize hp' + ft.offset by omega,
    show 8 * 2 = ft.width by omega, hnum, q2]
  have hN' : N < 65536 := hN
  have e : ∀ x y : Byte, beBytes 2 (beNat [x, y] % 2 ^ 16) = [x, y] := by
    intro x y
    have := beBytes_beNat [x, y]
    have h := beBytes_mod 2 (beNat [x, y])
    exact h.trans this
  rw [e]
  rfl

/-- What happens to the other fields: most significant byte first. -/
theorem C42_others_big_endian {n : CStr} {o k : Nat} (hn : (n, o, k) ∈ [(c!"gversion", 7, 4), (c!"nm-num", 11, 2), (c!"seq-num", 13, 2)])
    {argv pre rest lead : List CStr} {f0 f f' : Frame} {b : Buf} {as : List (CStr × CStr)}
    (hA : Assigned argv pre f0 HDR_OPC_UA lead as rest) (hB : Sent argv f f' b)
    {hp hq hp' hq' : List Hdr} {x x' : Hdr} (ha : At f f' hp x hq hp' x' hq') (hpos : hp.length = f0.stack.length)
    {v : CStr} {N : Nat} (hl : lastOf as n = some v) (hv : Literal v N) (hN : N < 2 ^ 64) :
    slice b (totalSize hp' + o) k = beBytes k N := by
  have tab : ∀ p ∈ [(c!"gversion", 7, 4), (c!"nm-num", 11, 2), (c!"seq-num", 13, 2)],
      (findField HDR_OPC_UA p.1).map (fun f => (f.offset, f.width, f.parser)) = some (8 * p.2.1, 8 * p.2.2, .none) ∧
      p.2.1 + p.2.2 ≤ HDR_OPC_UA.size ∧ p.2.2 ≤ 8 := by decide +kernel
  obtain ⟨h1, h2, h3⟩ := tab _ hn
  obtain ⟨ft, hft, h1⟩ := Option.map_eq_some_iff.mp h1
  simp only [Prod.mk.injEq] at h1 h2 h3
  obtain ⟨q1, q2, q3⟩ := h1
  obtain ⟨l1, l2, hs⟩ := sep_of_disj (t := HDR_OPC_UA) (by decide +kernel) hft
  have hnum := C70_numbers_on_the_wire hA hB (by decide) _ _ _ _ _ _ ha hpos l1 l2 ft hs.split (by rw [hs.name]; exact hs.fresh) (by
    intro k hk i hc
    have := hs.after k hk
    unfold covers at hc
    omega) q3 (by omega) v N (by rw [hs.name]; exact hl) hv hN
  have hne : as ≠ [] := by rintro rfl; simp [lastOf] at hl
  have hsz := wire_size hA hB (by decide) ha hpos hne
  have hlong := hB.long ha
  unfold slice
  rw [slice_eq b _ _ (by omega), show 8 * (totalSize hp' + o) = 8 * totalSize hp' + ft.offset by omega,
    show 8 * k = ft.width by omega, hnum, q2, Nat.pow_mul, show 2 ^ 8 = 256 from rfl, beBytes_mod]

/-- **C42, the part that holds**: publisher id and writer group id. Missing: `gversion`, `nm-num` and `seq-num`, which
are sent with the most significant byte first (`C42_others_big_endian`). -/
theorem C42_little_endian_partial : LittleEndian c!"pub-id" 2 2 ∧ LittleEndian c!"wg-id" 5 2 :=
  ⟨opc_bytes (by decide +kernel), opc_bytes (by decide +kernel)⟩

end Ef.Props
