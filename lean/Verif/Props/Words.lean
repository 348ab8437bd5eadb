import Verif.Lemmas.AssignFrame
import Verif.Lemmas.Built

/-!
# Properties C22, C45, C46, C47, C48: how the words of a frame are read

`argcFrame argv = .ok (some (n, f))`: the first `n` words of `argv` describe the frame `f`.
-/

namespace Ef.Props

open Ef Spec

/-! ## Helpers -/

theorem tmpl_words : ∀ t ∈ hdrTmpls, t.name ≠ c!"help" ∧ isIgn t.name = false ∧ t.name ∉ segWords ∧
    (t.parser = .fields → ∀ f ∈ t.fields, f.name ≠ c!"help") := by decide +kernel

theorem findTmpl_all : ∀ t ∈ hdrTmpls, findTmpl t.name = some t := by decide +kernel

theorem findTmpl_none {w : CStr} (h : ∀ t ∈ hdrTmpls, t.name ≠ w) : findTmpl w = none := by
  unfold findTmpl
  rw [List.find?_eq_none]
  intro t ht
  simpa using h t ht

theorem findField_none {h : Hdr} {w : CStr} (hn : ∀ g ∈ h.fields, g.name ≠ w) : findField h w = none := by
  unfold findField
  rw [List.find?_eq_none]
  intro t ht
  simpa using hn t ht

theorem findField_none' {h : Hdr} {w : CStr} (hn : findField h w = none) : ∀ g ∈ h.fields, g.name ≠ w := by
  unfold findField at hn
  rw [List.find?_eq_none] at hn
  intro t ht
  simpa using hn t ht

theorem not_isIgn {w : CStr} (h : ¬ IgnWord w) : isIgn w = false := by
  cases he : isIgn w with
  | false => rfl
  | true => exact absurd ((isIgn_iff w).1 he) h

theorem endsLast_tmpl {f0 : Frame} {t : Hdr} (ht : t ∈ hdrTmpls) (hn : NotField f0 t.name) : EndsLast f0 t.name := by
  intro h hh
  obtain ⟨h1, h2, h3, _⟩ := tmpl_words t ht
  exact ⟨fun _ => ⟨h1, h2, findField_none (hn h hh), fun _ => h3⟩, fun _ => h3⟩

theorem takes_of_sig {h : Hdr} (hs : ∃ e ∈ (sig h).2, e.2 ≠ .none) : TakesSegments h := by
  obtain ⟨e, h1, h2⟩ := hs
  unfold sig sigF at h1
  obtain ⟨g, hg, rfl⟩ := List.mem_map.mp h1
  exact Or.inr ⟨g, hg, h2⟩

theorem endsLast_of_endsFrame {f : Frame} {w : CStr} (h : EndsFrame f w) : w ≠ c!"help" ∧ findTmpl w = none ∧ EndsLast f w := by
  obtain ⟨h1, h2, h3, h4, h5⟩ := h
  refine ⟨h1, findTmpl_none h3, fun x hx => ⟨fun _ => ⟨h1, not_isIgn h2, findField_none (h4 x hx), fun hs => ?_⟩, fun hp => ?_⟩⟩
  · exact h5 x hx (takes_of_sig hs)
  · exact h5 x hx (Or.inl hp)

/-! ## C45 -/

/-- **C45**: whatever the words are, a frame never gets more than 100 headers, and the check that detects a write beyond
the array of headers has no influence: with an array of any larger size the outcome is the same. -/
theorem C45_stack_bound (argv : List CStr) :
    (∀ n f, argcFrame argv = .ok (some (n, f)) → f.stack.length ≤ 100) ∧
    ∀ cap, 100 ≤ cap → argv.length ≤ 100 → argcFrame argv = argcFrameLoop cap argv.length {} 0 argv := by
  refine ⟨fun n f h => argcFrame_len h, fun cap hc hl => ?_⟩
  unfold argcFrame
  rw [if_neg (by unfold frameStackMax; omega)]
  exact afl_cap (by simp only [List.length_nil, frameStackMax]; omega) (by simp only [List.length_nil]; omega)

/-- 100 headers are possible. -/
example : (match argcFrame (List.replicate 100 c!"eth") with
    | .ok (some (n, f)) => decide (n = 100 ∧ f.stack.length = 100) | _ => false) = true := by decide +kernel

/-- With 101 words nothing is stored. -/
example : argcFrame (List.replicate 101 c!"eth") = .ok none := by decide +kernel

/-! ## C46 -/

/-- **C46**: the words used are a prefix of those given, and the word behind them is no header name and no field of the
last header. -/
theorem C46_consumed {argv : List CStr} {n : Nat} {f : Frame} (h : argcFrame argv = .ok (some (n, f))) :
    n ≤ argv.length ∧ ∀ w, argv[n]? = some w → w ≠ c!"help" ∧ (∀ t ∈ hdrTmpls, t.name ≠ w) ∧
      ∀ x, f.stack.getLast? = some x → x.parser = .fields → ∀ g ∈ x.fields, g.name ≠ w := by
  unfold argcFrame at h
  split at h
  · simp at h
  · refine ⟨by have := (afl_mono h).2.1; omega, fun w hw => ?_⟩
    obtain ⟨h1, h2, h3⟩ := afl_stops (Nat.le_refl _) (by simp) h w hw
    refine ⟨h1, ?_, fun x hx hp => findField_none' (h3 x hx hp)⟩
    intro t ht e
    rw [← e, findTmpl_all t ht] at h2
    simp at h2

/-- **C46**: the result depends on the used words only: they give the same frame alone, and in front of any words that
do not continue the frame. -/
theorem C46_prefix {argv : List CStr} {n : Nat} {f : Frame} (h : argcFrame argv = .ok (some (n, f))) (r : List CStr)
    (hr : ∀ w tl, r = w :: tl → EndsFrame f w) (hl : n + r.length ≤ 100) :
    argcFrame (argv.take n ++ r) = .ok (some (n, f)) := by
  have hn := (C46_consumed h).1
  unfold argcFrame at h
  split at h
  · simp at h
  · have hlen : (argv.take n).length = n := by rw [List.length_take]; omega
    unfold argcFrame
    rw [if_neg (by rw [List.length_append, hlen]; unfold frameStackMax; omega)]
    have e : argv = argv.take n ++ argv.drop n := (List.take_append_drop n argv).symm
    rw [e] at h
    rw [← e] at h
    refine afl_swap (a := argv.take n) (r := argv.drop n) (fuel := argv.length) (by rw [← e]; exact h) (by omega) ?_ ?_ ?_
    · rw [hlen, List.length_drop]; omega
    · rw [List.length_append]
      exact Nat.le_refl _
    · intro w tl e
      exact endsLast_of_endsFrame (hr w tl e)

/-- **C46** (termination): the parser takes at most one step per word; a larger bound on the number of steps gives the
same result. -/
theorem C46_terminates (argv : List CStr) (hl : argv.length ≤ 100) (steps : Nat) (hs : argv.length ≤ steps) :
    argcFrameLoop 100 steps {} 0 argv = argcFrame argv := by
  unfold argcFrame
  rw [if_neg (by unfold frameStackMax; omega)]
  exact afl_fuel hs (Nat.le_refl _)

/-- A frame followed by another command. -/
example : ∃ n f, argcFrame [c!"eth", c!"dmac", c!"::1", c!"udp", c!"rx", c!"eth0"] = .ok (some (n, f)) ∧ n = 4 ∧
    EndsFrame f c!"tx" := by
  have key : (match argcFrame [c!"eth", c!"dmac", c!"::1", c!"udp", c!"rx", c!"eth0"] with
    | .ok (some (n, f)) => decide (n = 4) && decide (∀ h ∈ f.stack.getLast?, h.parser = .fields ∧
        ∀ g ∈ h.fields, g.name ≠ c!"tx" ∧ g.multi = .none) | _ => false) = true := by decide +kernel
  split at key
  · rename_i n f hf
    simp only [Bool.and_eq_true, decide_eq_true_eq, Option.mem_def] at key
    refine ⟨n, f, hf, key.1, by decide, by decide, by decide +kernel, fun h hh g hg => ((key.2 h hh).2 g hg).1, fun h hh hs => ?_⟩
    rcases hs with hs | ⟨g, hg, hs⟩
    · rw [(key.2 h hh).1] at hs; cases hs
    · exact absurd ((key.2 h hh).2 g hg).2 hs
  · simp at key

/-! ## C47, C48 -/

theorem lift_ok {X : Out (Option (Nat × Frame))} {d n : Nat} {m : Bool} {f : Frame}
    (h : (X >>= fun o => .ok (liftA d m o)) = .ok (some (n, f))) :
    ∃ k g, X = .ok (some (k, g)) ∧ n = k + d ∧ f = { g with hasMask := m || g.hasMask } := by
  rw [Out.bind_eq_ok] at h
  obtain ⟨o, h1, h2⟩ := h
  rcases o with _ | ⟨k, g⟩
  · simp [liftA] at h2
  · simp only [liftA, Option.map_some, Out.ok.injEq, Option.some.injEq, Prod.mk.injEq] at h2
    exact ⟨k, g, h1, h2.1.symm, h2.2.symm⟩

/-- **C47**: `pre` is the part of the frame before the header, `rest` what follows the assignments. If fields are
assigned several times, giving only the last assignment of each makes the same headers and padding. It makes the same
frame altogether if none of the dropped assignments is "ignore" (which makes the frame need a mask). -/
theorem C47_last_assignment_wins {pre rest lead : List CStr} {f0 f : Frame} {t : Hdr} {as : List (CStr × CStr)} {n : Nat}
    (hpre : argcFrame pre = .ok (some (pre.length, f0))) (ht : t ∈ hdrTmpls) (htf : t.parser = .fields)
    (hend : NotField f0 t.name) (hlead : lead = [] ∨ ∃ w, IgnWord w ∧ lead = [w]) (has : PlainFields t as)
    (h : argcFrame (pre ++ t.name :: (lead ++ (asgnWords as ++ rest))) = .ok (some (n, f))) :
    ∃ n' f', argcFrame (pre ++ t.name :: (lead ++ (asgnWords (keepLast as) ++ rest))) = .ok (some (n', f')) ∧
      n' + 2 * as.length = n + 2 * (keepLast as).length ∧ f'.stack = f.stack ∧ f'.padding = f.padding ∧
      ((∀ a ∈ as, IgnWord a.2 → a ∈ keepLast as) → f' = f) := by
  by_cases hne : lead ≠ [] ∨ as ≠ []
  · have hlen : (pre ++ t.name :: (lead ++ (asgnWords as ++ rest))).length ≤ frameStackMax := by
      unfold argcFrame at h
      split at h
      · simp at h
      · omega
    have hlen' : (pre ++ t.name :: (lead ++ (asgnWords (keepLast as) ++ rest))).length ≤ frameStackMax := by
      have := keepLast_length as
      simp only [List.length_append, List.length_cons, words_length] at hlen ⊢
      omega
    obtain ⟨hh, _, _, hfh⟩ := tmpl_words t ht
    have A := argcFrame_asgn hpre (findTmpl_all t ht) htf hh (endsLast_tmpl ht hend) hlead hlen
    have A' := argcFrame_asgn hpre (findTmpl_all t ht) htf hh (endsLast_tmpl ht hend) hlead hlen'
    have hg := A.1 _ h has (hfh htf)
    have hg' : ∀ a ∈ keepLast as, GoodAsgn t a := fun a ha => hg a (keepLast_sub ha)
    have hne' : lead ≠ [] ∨ keepLast as ≠ [] := by
      rcases hne with hne | hne
      · exact Or.inl hne
      · exact Or.inr (fun e => hne (keepLast_nil e))
    rw [A.2 hg hne] at h
    obtain ⟨k, g, e1, e2, e3⟩ := lift_ok h
    rw [A'.2 hg' hne', assignAll_keepLast, e1]
    refine ⟨_, _, rfl, ?_, ?_, ?_, ?_⟩
    · simp only; omega
    · rw [e3]
    · rw [e3]
    · intro hig
      rw [e3]
      congr 2
      have : ((keepLast as).any fun a => isIgn a.2) = as.any fun a => isIgn a.2 := by
        rw [Bool.eq_iff_iff]
        simp only [List.any_eq_true]
        constructor
        · rintro ⟨a, h1, h2⟩; exact ⟨a, keepLast_sub h1, h2⟩
        · rintro ⟨a, h1, h2⟩; exact ⟨a, hig a h1 ((isIgn_iff _).1 h2), h2⟩
      rw [this]
  · have h1 : lead = [] := by
      by_cases e : lead = []
      · exact e
      · exact absurd (Or.inl e) hne
    have h2 : as = [] := by
      by_cases e : as = []
      · exact e
      · exact absurd (Or.inr e) hne
    subst h2
    exact ⟨n, f, h, by simp [keepLast], rfl, rfl, fun _ => rfl⟩

/-- Test for `PlainFields`. -/
def plainB (t : Hdr) (as : List (CStr × CStr)) : Bool := as.all (fun a => decide (¬ IgnWord a.1) &&
  (t.fields.find? (fun f => f.name == a.1)).any (fun f => decide (f.multi = .none ∧ f.parser ≠ .coapToken ∧ f.parser ≠ .profinetData)))

theorem plain_of {t : Hdr} {as : List (CStr × CStr)} (h : plainB t as = true) : PlainFields t as := by
  intro a ha
  unfold plainB at h
  rw [List.all_eq_true] at h
  have := h a ha
  simp only [Bool.and_eq_true, decide_eq_true_eq] at this
  refine ⟨this.1, ?_⟩
  have h3 := this.2
  cases hf : t.fields.find? (fun f => f.name == a.1) with
  | none => rw [hf] at h3; simp at h3
  | some f => rw [hf] at h3; exact ⟨f, rfl, by simpa using h3⟩

/-- A case where the claims apply: two headers, `ttl` is assigned twice. -/
example : ∃ n f, argcFrame ([c!"eth", c!"ipv4"] ++ c!"udp" :: ([] ++ (asgnWords
      [(c!"dport", c!"3"), (c!"sport", c!"7"), (c!"dport", c!"5")] ++ [c!"data"]))) = .ok (some (n, f)) ∧
    keepLast [(c!"dport", c!"3"), (c!"sport", c!"7"), (c!"dport", c!"5")] = [(c!"sport", c!"7"), (c!"dport", c!"5")] ∧
    PlainFields HDR_UDP [(c!"dport", c!"3"), (c!"sport", c!"7"), (c!"dport", c!"5")] ∧ HDR_UDP.name = c!"udp" ∧
    HDR_UDP ∈ hdrTmpls ∧ ∃ f0, argcFrame [c!"eth", c!"ipv4"] = .ok (some (2, f0)) ∧ NotField f0 c!"udp" := by
  have key : (match argcFrame ([c!"eth", c!"ipv4"] ++ c!"udp" :: ([] ++ (asgnWords
      [(c!"dport", c!"3"), (c!"sport", c!"7"), (c!"dport", c!"5")] ++ [c!"data"]))) with
      | .ok (some _) => true | _ => false) = true := by decide +kernel
  have key2 : (match argcFrame [c!"eth", c!"ipv4"] with
      | .ok (some (n, f0)) => decide (n = 2 ∧ ∀ h ∈ f0.stack.getLast?, ∀ g ∈ h.fields, g.name ≠ c!"udp") | _ => false) = true := by
    decide +kernel
  split at key
  · rename_i p hp
    refine ⟨p.1, p.2, hp, by decide, plain_of (by decide +kernel), rfl, by decide +kernel, ?_⟩
    split at key2
    · rename_i n f0 h0
      simp only [decide_eq_true_eq, Option.mem_def] at key2
      obtain ⟨rfl, key2⟩ := key2
      exact ⟨f0, h0, key2⟩
    · simp at key2
  · simp at key

/-- **C48**: fields assigned in another order give the same frame. -/
theorem C48_field_order {pre rest lead : List CStr} {f0 f : Frame} {t : Hdr} {as bs : List (CStr × CStr)} {n : Nat}
    (hpre : argcFrame pre = .ok (some (pre.length, f0))) (ht : t ∈ hdrTmpls) (htf : t.parser = .fields)
    (hend : NotField f0 t.name) (hlead : lead = [] ∨ ∃ w, IgnWord w ∧ lead = [w]) (has : PlainFields t as)
    (hperm : as.Perm bs) (hd : (as.map (·.1)).Nodup)
    (h : argcFrame (pre ++ t.name :: (lead ++ (asgnWords as ++ rest))) = .ok (some (n, f))) :
    argcFrame (pre ++ t.name :: (lead ++ (asgnWords bs ++ rest))) = .ok (some (n, f)) := by
  by_cases hne : lead ≠ [] ∨ as ≠ []
  · have hlen : (pre ++ t.name :: (lead ++ (asgnWords as ++ rest))).length ≤ frameStackMax := by
      unfold argcFrame at h
      split at h
      · simp at h
      · omega
    have hpl := hperm.length_eq
    have hlen' : (pre ++ t.name :: (lead ++ (asgnWords bs ++ rest))).length ≤ frameStackMax := by
      simp only [List.length_append, List.length_cons, words_length] at hlen ⊢
      omega
    obtain ⟨hh, _, _, hfh⟩ := tmpl_words t ht
    have A := argcFrame_asgn hpre (findTmpl_all t ht) htf hh (endsLast_tmpl ht hend) hlead hlen
    have A' := argcFrame_asgn hpre (findTmpl_all t ht) htf hh (endsLast_tmpl ht hend) hlead hlen'
    have hg := A.1 _ h has (hfh htf)
    have hg' : ∀ a ∈ bs, GoodAsgn t a := fun a ha => hg a (hperm.mem_iff.mpr ha)
    have hne' : lead ≠ [] ∨ bs ≠ [] := by
      rcases hne with hne | hne
      · exact Or.inl hne
      · exact Or.inr (fun e => hne (by rw [e] at hperm; exact hperm.eq_nil))
    rw [A.2 hg hne] at h
    rw [A'.2 hg' hne', ← assignAll_perm hperm hd, ← hpl]
    have : (bs.any fun a => isIgn a.2) = as.any fun a => isIgn a.2 := by
      rw [Bool.eq_iff_iff]
      simp only [List.any_eq_true]
      constructor
      · rintro ⟨a, h1, h2⟩; exact ⟨a, hperm.mem_iff.mpr h1, h2⟩
      · rintro ⟨a, h1, h2⟩; exact ⟨a, hperm.mem_iff.mp h1, h2⟩
    rw [this]
    exact h
  · have h2 : as = [] := by
      by_cases e : as = []
      · exact e
      · exact absurd (Or.inr e) hne
    subst h2
    have : bs = [] := by have := hperm.symm.eq_nil; exact this
    subst this
    exact h

/-- Another order of three fields, with one of them ignored. -/
example : PlainFields HDR_UDP [(c!"dport", c!"3"), (c!"sport", c!"ign"), (c!"len", c!"5")] ∧
    ([(c!"dport", c!"3"), (c!"sport", c!"ign"), (c!"len", c!"5")].map (·.1)).Nodup ∧
    [(c!"dport", c!"3"), (c!"sport", c!"ign"), (c!"len", c!"5")].Perm [(c!"len", c!"5"), (c!"dport", c!"3"), (c!"sport", c!"ign")] ∧
    (match argcFrame ([c!"eth"] ++ c!"udp" :: ([] ++ (asgnWords [(c!"dport", c!"3"), (c!"sport", c!"ign"), (c!"len", c!"5")] ++ []))) with
      | .ok (some _) => true | _ => false) = true :=
  ⟨plain_of (by decide +kernel), by decide, by decide, by decide +kernel⟩

/-! ## C22 -/

/-- **C22**: the frame of a header name directly followed by "ignore" needs a mask, whatever follows. -/
theorem C22_mask_needed {pre rest : List CStr} {f0 f : Frame} {t : Hdr} {w : CStr} {n : Nat}
    (hpre : argcFrame pre = .ok (some (pre.length, f0))) (ht : t ∈ hdrTmpls) (htf : t.parser = .fields)
    (hend : NotField f0 t.name) (hw : IgnWord w)
    (h : argcFrame (pre ++ t.name :: w :: rest) = .ok (some (n, f))) : f.hasMask = true := by
  have hlen : (pre ++ t.name :: ([w] ++ (asgnWords [] ++ rest))).length ≤ frameStackMax := by
    unfold argcFrame at h
    split at h
    · simp at h
    · rename_i hl
      simp only [asgnWords, List.cons_append, List.nil_append] at hl ⊢
      omega
  obtain ⟨hh, _, _, hfh⟩ := tmpl_words t ht
  have A := argcFrame_asgn hpre (findTmpl_all t ht) htf hh (endsLast_tmpl ht hend) (Or.inr ⟨w, hw, rfl⟩) hlen
  have := A.2 (by simp) (Or.inl (by simp))
  simp only [asgnWords, List.cons_append, List.nil_append] at this
  rw [this] at h
  obtain ⟨k, g, _, _, e⟩ := lift_ok h
  rw [e]; simp

/-- **C22**: the fields of the header are ignored except those that were assigned a value (a word other than "ignore")
last. `pre` is the part of the frame before the header; `rest` does not continue the header. Field number `i` of the
header can be assigned if no earlier field has the same name. -/
theorem C22_marks {pre rest : List CStr} {f0 f : Frame} {t : Hdr} {w : CStr} {as : List (CStr × CStr)} {n : Nat}
    (hpre : argcFrame pre = .ok (some (pre.length, f0))) (ht : t ∈ hdrTmpls) (htf : t.parser = .fields)
    (hend : NotField f0 t.name) (hw : IgnWord w) (has : PlainFields t as)
    (hrest : ∀ x tl, rest = x :: tl → ∀ g ∈ t.fields, g.name ≠ x)
    (h : argcFrame (pre ++ t.name :: w :: (asgnWords as ++ rest)) = .ok (some (n, f))) :
    ∃ x, f.stack[f0.stack.length]? = some x ∧ x.fields.length = t.fields.length ∧
      ∀ (i : Nat) g, x.fields[i]? = some g → t.fields[i]?.map (·.name) = some g.name ∧
        (g.rxSkip = false ↔ (∀ j < i, ∀ y, t.fields[j]? = some y → y.name ≠ g.name) ∧
          ∃ v, lastOf as g.name = some v ∧ ¬ IgnWord v) := by
  have hlen : (pre ++ t.name :: ([w] ++ (asgnWords as ++ rest))).length ≤ frameStackMax := by
    unfold argcFrame at h
    split at h
    · simp at h
    · rename_i hl
      simp only [List.cons_append, List.nil_append] at hl ⊢
      omega
  obtain ⟨hh, _, _, hfh⟩ := tmpl_words t ht
  have A := argcFrame_asgn hpre (findTmpl_all t ht) htf hh (endsLast_tmpl ht hend) (Or.inr ⟨w, hw, rfl⟩) hlen
  have hg := A.1 _ h has (hfh htf)
  have hX : argcFrame (pre ++ t.name :: w :: (asgnWords as ++ rest)) = _ := A.2 hg (Or.inl (by simp))
  rw [hX] at h
  obtain ⟨k, g, e1, _, e⟩ := lift_ok h
  have hlead : leadHdr [w] t = skipAll t := by simp [leadHdr]
  rw [hlead] at e1
  unfold afterAsgn at e1
  have hsc : SameCore t (assignAll (skipAll t) as) :=
    (SameCore.skipAll rfl).assignAll as
  have hnames : (assignAll (skipAll t) as).fields.map Field.name = t.fields.map Field.name := by
    have := congrArg (List.map Field.name) hsc
    simpa [List.map_map, Function.comp_def, core] using this
  have hnh : ∀ x tl, rest = x :: tl → x ≠ c!"help" := by
    rintro x tl rfl rfl
    simp only [List.length_cons] at e1
    unfold parseFieldsLoop at e1
    simp at e1
  rw [pfl_stop (by omega) ?_] at e1
  · simp only [Out.ok_bind, Nat.sub_self, List.drop_zero] at e1
    obtain ⟨_, _, _, _, hs, q, _⟩ := afl_mono e1
    refine ⟨assignAll (skipAll t) as, ?_, ?_, ?_⟩
    · rw [e]; simp only [q]; simp
    · have := congrArg List.length hnames
      simpa using this
    · intro i g hgi
      have hni : t.fields[i]?.map Field.name = some g.name := by
        rw [← List.getElem?_map, ← hnames, List.getElem?_map, hgi]; rfl
      refine ⟨hni, ?_⟩
      have hsk : (skipAll t).fields = t.fields.map (fun f => { f with rxSkip := true }) := rfl
      cases hti : t.fields[i]? with
      | none => rw [hti] at hni; simp at hni
      | some y =>
        have hy : (skipAll t).fields[i]? = some { y with rxSkip := true } := by
          rw [hsk, List.getElem?_map, hti]; rfl
        rw [hti] at hni
        simp only [Option.map_some, Option.some.injEq] at hni
        have hfirst : FirstAt (skipAll t) i y.name ↔ ∀ j < i, ∀ z, t.fields[j]? = some z → z.name ≠ g.name := by
          unfold FirstAt
          rw [hsk, ← hni]
          constructor
          · intro hh j hj z hz
            exact hh j hj { z with rxSkip := true } (by rw [List.getElem?_map, hz]; rfl)
          · intro hh j hj z hz
            rw [List.getElem?_map] at hz
            cases hz' : t.fields[j]? with
            | none => rw [hz'] at hz; simp at hz
            | some z' =>
              rw [hz'] at hz
              simp only [Option.map_some, Option.some.injEq] at hz
              rw [← hz]; exact hh j hj z' hz'
        rw [← hfirst, ← hni]
        rcases assignAll_get as (skipAll t) i _ hy with ⟨q1, q2⟩ | ⟨q1, v, q2, q3⟩
        · rw [hgi] at q1
          simp only [Option.some.injEq] at q1
          subst q1
          simp only [Bool.true_eq_false, false_iff]
          rintro ⟨r1, v, r2, _⟩
          rcases q2 with q2 | q2
          · exact q2 r1
          · simp only at q2; rw [r2] at q2; cases q2
        · rw [hgi] at q3
          simp only [Option.some.injEq] at q3
          subst q3
          simp only at q1 q2
          simp only [setBy]
          constructor
          · intro hv
            exact ⟨q1, v, q2, fun hi => by rw [(isIgn_iff v).2 hi] at hv; cases hv⟩
          · rintro ⟨_, v', r2, r3⟩
            rw [q2] at r2; cases r2
            exact not_isIgn r3
  · intro x tl hx
    refine ⟨hnh x tl hx, findField_none ?_⟩
    intro g hgm
    have : g.name ∈ t.fields.map Field.name := by rw [← hnames]; exact List.mem_map.mpr ⟨g, hgm, rfl⟩
    obtain ⟨g', h1, h2⟩ := List.mem_map.mp this
    rw [← h2]; exact hrest x tl hx g' h1

/-- A case where the claim applies. -/
example : PlainFields HDR_UDP [(c!"dport", c!"3"), (c!"sport", c!"ign")] ∧
    (match argcFrame ([c!"eth"] ++ c!"udp" :: c!"ign" :: (asgnWords [(c!"dport", c!"3"), (c!"sport", c!"ign")] ++ [])) with
      | .ok (some (_, f)) => decide (f.stack.map (fun h => h.fields.map (fun g => (g.rxSkip))) =
          [[false, false, false], [true, false, true, true]]) | _ => false) = true :=
  ⟨plain_of (by decide +kernel), by decide +kernel⟩

end Ef.Props
