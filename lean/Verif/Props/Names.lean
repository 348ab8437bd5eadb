import Verif.Lemmas.Shadow
import Verif.Lemmas.HdrWords

/-!
# Properties C75 and C76: what can be named on the command line
-/

namespace Ef.Props

open Ef Spec

/-! ## C75 -/

/-- Some command line gives the `i`-th field of a header `t` a value. -/
def Settable (t : Hdr) (i : Nat) : Prop :=
  ∃ (argv : List CStr) (n : Nat) (f : Frame) (x : Hdr) (g : Field), argcFrame argv = .ok (some (n, f)) ∧ x ∈ f.stack ∧
    x.name = t.name ∧ x.fields[i]? = some g ∧ g.val ≠ none

/-- **C75**: every field of every header can be given a value. -/
def C75_statement : Prop := ∀ t ∈ hdrTmpls, ∀ i < t.fields.length, Settable t i

/-- No field before the `i`-th one has its name. -/
def FirstOfName (t : Hdr) (i : Nat) : Prop := ∀ j < i, (t.fields[j]?).map (·.name) ≠ (t.fields[i]?).map (·.name)

instance (t : Hdr) (i : Nat) : Decidable (FirstOfName t i) := Nat.decidableBallLT _ _

/-- Words that give the `i`-th field of `t` a value. -/
def wordsFor (t : Hdr) (i : Nat) : List CStr :=
  match t.fields[i]? with
  | none => []
  | some f =>
    if t.parser = .payload then [t.name, c!"hex", c!"01"]
    else if f.name = c!"ignore" then [t.name, c!"station-ok", c!"1", f.name, c!"1"]
    else if f.multi ≠ .none then [t.name, f.name, c!"hex", c!"01"]
    else if f.parser = .coapCode then [t.name, f.name, c!"0.01"]
    else if f.parser = .coapToken ∨ f.parser = .profinetData ∨ f.parser = .fieldHex then [t.name, f.name, c!"01"]
    else [t.name, f.name, c!"0x01"]

/-- The words give the field a value. -/
def setsB (t : Hdr) (i : Nat) (argv : List CStr) : Bool :=
  match argcFrame argv with
  | .ok (some (_, f)) =>
    match f.stack with
    | x :: _ => x.name == t.name && ((x.fields[i]?).any (fun g => g.val.isSome))
    | [] => false
  | _ => false

theorem sets_of {t : Hdr} {i : Nat} {argv : List CStr} (h : setsB t i argv = true) : Settable t i := by
  unfold setsB at h
  split at h
  · rename_i n f hf
    split at h
    · rename_i x xs hx
      rw [Bool.and_eq_true] at h
      obtain ⟨h1, h2⟩ := h
      cases hg : x.fields[i]? with
      | none => rw [hg] at h2; simp at h2
      | some g =>
        rw [hg] at h2
        refine ⟨argv, n, f, x, g, hf, by rw [hx]; simp, by simpa using h1, hg, ?_⟩
        intro e
        simp [e] at h2
    · simp at h
  · simp at h

theorem sets_all : ∀ t ∈ hdrTmpls, ∀ i < t.fields.length, FirstOfName t i → setsB t i (wordsFor t i) = true := by
  decide +kernel

/-- Headers with the same field names as a template have the template's name. -/
theorem names_at {x t : Hdr} (hs : sig x = sig t) (i : Nat) : (x.fields[i]?).map (·.name) = (t.fields[i]?).map (·.name) := by
  have h := congrArg (fun l => (l[i]?).map (·.1)) (congrArg Prod.snd hs)
  simp only [sig, sigF, List.getElem?_map, Option.map_map] at h
  exact h

theorem tmpl_name_inj : ∀ t ∈ hdrTmpls, ∀ u ∈ hdrTmpls, t.name = u.name → t = u := by decide +kernel

/-- **C75**: exactly the fields that are the first ones of their name in their header can be given a value. -/
theorem C75_settable_partial (t : Hdr) (ht : t ∈ hdrTmpls) (i : Nat) (hi : i < t.fields.length) :
    Settable t i ↔ FirstOfName t i := by
  constructor
  · rintro ⟨argv, n, f, x, g, hf, hx, hn, hg, hv⟩ j hj e
    obtain ⟨hu, u, hu1, hu2, hu3⟩ := argcFrame_shaped hf x hx
    have : u = t := tmpl_name_inj u hu1 t ht (by rw [← hu3, hn])
    subst this
    rw [← names_at hu2, ← names_at hu2, hg] at e
    cases hgj : x.fields[j]? with
    | none => rw [hgj] at e; simp at e
    | some gj =>
      rw [hgj] at e
      simp only [Option.map_some, Option.some.injEq] at e
      obtain ⟨h1, e1⟩ := List.getElem?_eq_some_iff.mp hg
      obtain ⟨h2, e2⟩ := List.getElem?_eq_some_iff.mp hgj
      have := List.pairwise_iff_getElem.mp hu j i h2 h1 hj
      rw [e1, e2] at this
      exact hv (this e)
  · intro h
    exact sets_of (sets_all t ht i hi h)

/-- The fields that share their name with an earlier one: header, index, name. -/
def hiddenFields : List (CStr × Nat × CStr) :=
  hdrTmpls.flatMap (fun t => ((List.range t.fields.length).filter (fun i => ¬ FirstOfName t i)).map
    (fun i => (t.name, i, ((t.fields[i]?).map (·.name)).getD [])))

/-- **C75**: the fields that cannot be given a value are one of `ifh-la`, one of `oam-ccm` and one of
`ptp-announce`. -/
theorem C75_hidden_fields : hiddenFields.map (fun p => (p.1, p.2.2)) =
    [(c!"ifh-la", c!"du-fill"), (c!"oam-ccm", c!"reserved"), (c!"ptp-announce", c!"ann-reserved1")] := by decide +kernel

/-- **C75 is false**: the second `reserved` field of `oam-ccm` can never be given a value. -/
theorem C75_false : ¬ C75_statement := by
  intro h
  have key : ∃ i < HDR_CCM.fields.length, ¬ FirstOfName HDR_CCM i := by decide +kernel
  obtain ⟨i, h1, h2⟩ := key
  have hm : HDR_CCM ∈ hdrTmpls := by decide +kernel
  exact h2 ((C75_settable_partial HDR_CCM hm i h1).1 (h HDR_CCM hm i h1))

-- The first `reserved` field of `oam-ccm` (index 4) can be given.
example : Settable HDR_CCM 4 :=
  (C75_settable_partial HDR_CCM (by decide +kernel) 4 (by decide +kernel)).2 (by decide +kernel)

/-! ## C76 -/

/-- The words are accepted and the result satisfies `p`. -/
def parsedB (argv : List CStr) (p : Nat → Frame → Bool) : Bool :=
  match argcFrame argv with
  | .ok (some (n, f)) => p n f
  | _ => false

theorem parsed_of {argv : List CStr} {p : Nat → Frame → Bool} (h : parsedB argv p = true) :
    ∃ n f, argcFrame argv = .ok (some (n, f)) ∧ p n f = true := by
  unfold parsedB at h
  split at h
  · rename_i n f hf
    exact ⟨n, f, hf, h⟩
  · simp at h

/-- The frame has a header called `n` at position `k`. -/
def HeaderAt (f : Frame) (k : Nat) (n : CStr) : Prop := ∃ x, f.stack[k]? = some x ∧ x.name = n

/-- **C76**: behind the words of a frame, the name of a header starts that header. -/
def C76_statement : Prop := ∀ (pre rest : List CStr) (f0 f : Frame) (t : Hdr) (n : Nat),
  argcFrame pre = .ok (some (pre.length, f0)) → t ∈ hdrTmpls → argcFrame (pre ++ t.name :: rest) = .ok (some (n, f)) →
    HeaderAt f f0.stack.length t.name

/-- A header and a header that cannot follow it directly, because its name is also a field name. -/
def nameClashes : List (CStr × CStr) := [(c!"ifh-mas", c!"rtag"), (c!"mrp_tst", c!"padding"), (c!"mrp_topo", c!"padding"),
  (c!"mrp_lnk", c!"padding"), (c!"mrp_prop_nack", c!"padding"), (c!"oam-laps", c!"padding"), (c!"oam-lb", c!"padding"),
  (c!"oam-lt", c!"padding"), (c!"oam-raps", c!"padding"), (c!"profinet-rtc", c!"data")]

theorem clash_table : ∀ t ∈ hdrTmpls, ∀ u ∈ hdrTmpls, (t.name, u.name) ∉ nameClashes → ∀ g ∈ t.fields, g.name ≠ u.name := by
  decide +kernel

theorem run_some {pre rest : List CStr} {f0 f : Frame} {t : Hdr} {n : Nat}
    (hpre : argcFrame pre = .ok (some (pre.length, f0))) (ht : t ∈ hdrTmpls) (hend : NotField f0 t.name)
    (hf : argcFrame (pre ++ t.name :: rest) = .ok (some (n, f))) :
    ∃ k h pad m, runHdrParser t f0.padding f0.hasMask rest = .ok (some (k, h, pad, m)) := by
  unfold argcFrame at hpre hf
  split at hf
  · simp at hf
  split at hpre
  · simp at hpre
  rw [afl_cont (cap := frameStackMax) (r := t.name :: rest) hpre (by omega) (by omega)
    (by simp only [List.length_append]; omega) ?_] at hf
  · obtain ⟨hh, _, _, _⟩ := tmpl_words t ht
    rw [List.length_cons, afl_step, if_neg hh, findTmpl_all t ht] at hf
    simp only at hf
    rw [Out.bind_eq_ok] at hf
    obtain ⟨_, _, hf⟩ := hf
    rw [Out.bind_eq_ok] at hf
    obtain ⟨o, ho, hf⟩ := hf
    rcases o with _ | ⟨k, h, pad, m⟩
    · simp at hf
    · exact ⟨k, h, pad, m, ho⟩
  · intro w tl e
    cases e
    exact endsLast_tmpl ht hend

/-- **C76**: except for the ten pairs of `nameClashes`, the name of a header behind the words of a frame starts that
header. -/
theorem C76_next_header_partial (pre rest : List CStr) (f0 f : Frame) (t : Hdr) (n : Nat)
    (hpre : argcFrame pre = .ok (some (pre.length, f0))) (ht : t ∈ hdrTmpls)
    (hf : argcFrame (pre ++ t.name :: rest) = .ok (some (n, f)))
    (hc : ∀ h, f0.stack.getLast? = some h → (h.name, t.name) ∉ nameClashes) :
    HeaderAt f f0.stack.length t.name := by
  have hend : NotField f0 t.name := by
    intro h hh g hg
    obtain ⟨_, u, hu1, hu2, hu3⟩ := argcFrame_shaped hpre h (List.mem_of_getLast? hh)
    have := hc h hh
    rw [hu3] at this
    obtain ⟨i, hi, e⟩ := List.getElem_of_mem hg
    have hn := names_at hu2 i
    rw [List.getElem?_eq_getElem hi, e] at hn
    cases hgu : u.fields[i]? with
    | none => rw [hgu] at hn; simp at hn
    | some gu =>
      rw [hgu] at hn
      simp only [Option.map_some, Option.some.injEq] at hn
      rw [hn]
      exact clash_table u hu1 t ht this gu (List.mem_of_getElem? hgu)
  obtain ⟨k, h, pad, m, hr⟩ := run_some hpre ht hend hf
  exact ⟨h, header_of_words hpre ht hend hr hf, runHdrParser_name hr⟩

/-- **C76**: in each of these ten cases the word is taken as a field: two headers are requested, there is one, and no
padding. -/
theorem C76_clashes (p : CStr × CStr) (hp : p ∈ nameClashes) : ∃ v f x, argcFrame [p.1, p.2, v] = .ok (some (3, f)) ∧
    f.stack = [x] ∧ x.name = p.1 ∧ f.padding = 0 ∧ given x p.2 ≠ none := by
  have key : ∀ p ∈ nameClashes, parsedB [p.1, p.2, if p.2 = c!"data" then c!"01" else c!"0x01"] (fun n f => n == 3 && f.padding == 0 && match f.stack with
    | [x] => x.name == p.1 && (given x p.2).isSome | _ => false) = true := by decide +kernel
  obtain ⟨n, f, h1, h2⟩ := parsed_of (key p hp)
  rw [Bool.and_eq_true, Bool.and_eq_true] at h2
  obtain ⟨⟨h3, h4⟩, h5⟩ := h2
  have h3 : n = 3 := by simpa using h3
  subst h3
  split at h5
  · rename_i x hx
    rw [Bool.and_eq_true] at h5
    refine ⟨_, f, x, h1, hx, by simpa using h5.1, by simpa using h4, ?_⟩
    intro e
    rw [e] at h5
    simp at h5
  · simp at h5

/-- **C76 is false**: `mrp_tst padding 1` does not contain a `padding` header. -/
theorem C76_false : ¬ C76_statement := by
  intro h
  have hpre : ∃ f0, argcFrame [c!"mrp_tst"] = .ok (some ([c!"mrp_tst"].length, f0)) ∧ f0.stack.length = 1 :=
    ⟨{ stack := [HDR_MRP_TST] }, by decide +kernel⟩
  obtain ⟨f0, h1, h2⟩ := hpre
  have ht : HDR_PADDING ∈ hdrTmpls := by decide +kernel
  have hn : HDR_PADDING.name = c!"padding" := by decide +kernel
  obtain ⟨n, f, h3, h4⟩ := parsed_of (p := fun _ f => f.stack.length == 1)
    (argv := [c!"mrp_tst"] ++ c!"padding" :: [c!"1"]) (by decide +kernel)
  obtain ⟨x, h5, _⟩ := h [c!"mrp_tst"] [c!"1"] f0 f HDR_PADDING n h1 ht (by rw [hn]; exact h3)
  rw [h2, List.getElem?_eq_none (by simp at h4; omega)] at h5
  simp at h5

-- `eth dmac 1 ipv4`: the second header is `ipv4`.
example : ∃ n f, argcFrame ([c!"eth", c!"dmac", c!"1"] ++ c!"ipv4" :: [c!"ttl", c!"5"]) = .ok (some (n, f)) ∧
    HeaderAt f 1 c!"ipv4" := by
  obtain ⟨n, f, h1, h2⟩ := parsed_of (p := fun _ f => (f.stack[1]?).map (·.name) == some c!"ipv4")
    (argv := [c!"eth", c!"dmac", c!"1"] ++ c!"ipv4" :: [c!"ttl", c!"5"]) (by decide +kernel)
  refine ⟨n, f, h1, ?_⟩
  cases hx : f.stack[1]? with
  | none => rw [hx] at h2; simp at h2
  | some x => rw [hx] at h2; exact ⟨x, hx, by simpa using h2⟩

end Ef.Props
