import Verif.Props.Values
import Verif.Props.Payload

/-!
# Texts that are no values (C49)
-/

namespace Ef.Props

open Ef Ef.Spec

/-! ## C49: a value that cannot be parsed is not silently replaced -/

/-- The text cannot be parsed as a value of the field. -/
def NoValue (ft : Field) (v : CStr) : Prop :=
  ft.parser = .none ∧ parseBytes v (bitToByte ft.width) = .ok none ∧ ¬ IgnWord v ∧ v ≠ c!"help"

/-- C49 as claimed: if one of the texts assigned to fields of a header cannot be parsed, the frame is rejected. -/
def C49_statement : Prop :=
  ∀ (argv pre rest lead : List CStr) (f0 : Frame) (t : Hdr) (as : List (CStr × CStr)) (ft : Field) (name v : CStr),
    Assigned argv pre f0 t lead as rest → (name, v) ∈ as → t.fields.find? (fun k => k.name == name) = some ft →
    NoValue ft v → argcFrame argv = .ok none

theorem updFirst_id {α : Type} {p : α → Bool} {g : α → α} {l : List α} (h : ∀ x, l.find? p = some x → g x = x) :
    updFirst p g l = l := by
  induction l with
  | nil => rfl
  | cons x l ih =>
    rw [updFirst]
    by_cases hp : p x = true
    · rw [if_pos hp, h x (by rw [List.find?_cons_of_pos hp])]
    · rw [if_neg hp, ih (fun y hy => h y (by rw [List.find?_cons_of_neg hp]; exact hy))]

theorem assignAll_other (as : List (CStr × CStr)) (h : Hdr) (n : CStr) (hn : n ∉ as.map (·.1)) :
    findField (assignAll h as) n = findField h n := by
  induction as generalizing h with
  | nil => rfl
  | cons a as ih =>
    simp only [List.map_cons, List.mem_cons, not_or] at hn
    show findField (assignAll (assign1 h a) as) n = _
    rw [ih _ hn.2]
    unfold assign1
    rw [find_updField h a.1 n (setBy a.2) (fun f => by unfold setBy; split <;> rfl)]
    simp [hn.1]

theorem tmpl_skips : ∀ t ∈ hdrTmpls, ∀ f ∈ t.fields, f.rxSkip = false := by decide +kernel

/-- Assigning a text that is no value to a field that has not been assigned yet changes nothing. -/
theorem assign_novalue {t : Hdr} (ht : t ∈ hdrTmpls) (as : List (CStr × CStr)) {name v : CStr} (hn : name ∉ as.map (·.1))
    {ft : Field} (hft : t.fields.find? (fun k => k.name == name) = some ft) (hv : NoValue ft v) :
    assign1 (assignAll t as) (name, v) = assignAll t as := by
  have h1 := assignAll_other as t name hn
  have h2 : findField t name = some ft := hft
  rw [h2] at h1
  have hm := List.mem_of_find?_eq_some hft
  have hval := tmpl_vals t ht ft hm
  have hskip := tmpl_skips t ht ft hm
  have : updFirst (fun f => f.name == name) (setBy v) (assignAll t as).fields = (assignAll t as).fields := by
    apply updFirst_id
    intro x hx
    have : x = ft := by
      unfold findField at h1
      rw [hx] at h1
      simpa using h1
    subst this
    have hi : isIgn v = false := by
      cases h : isIgn v with
      | false => rfl
      | true => exact absurd ((isIgn_iff v).1 h) hv.2.2.1
    have hp : parseVal x v = .ok none := by
      unfold parseVal
      rw [hv.1]
      exact hv.2.1
    unfold setBy
    rw [hi, hp]
    cases x
    simp_all [okVal]
  unfold assign1 updField
  rw [this]

/-- The frame with one more header. -/
theorem argcFrame_hdr {pre : List CStr} {f0 : Frame} (hpre : argcFrame pre = .ok (some (pre.length, f0))) {t : Hdr}
    (ht : t ∈ hdrTmpls) (he : NotField f0 t.name) {rest : List CStr} (hlen : (pre ++ t.name :: rest).length ≤ frameStackMax) :
    argcFrame (pre ++ t.name :: rest) = runHdrParser t f0.padding f0.hasMask rest >>= fun o =>
      match o with
      | none => .ok none
      | some (n, h, pad, m) => argcFrameLoop frameStackMax rest.length
          { stack := f0.stack ++ [h], padding := pad, hasMask := m } (pre.length + 1 + n) (rest.drop n) := by
  have hl1 : ¬ (pre ++ t.name :: rest).length > frameStackMax := by omega
  have hlp : ¬ pre.length > frameStackMax := by simp only [List.length_append] at hlen; omega
  unfold argcFrame at hpre
  rw [if_neg hlp] at hpre
  have hc := afl_cont (r := t.name :: rest) (fuel' := (pre ++ t.name :: rest).length) hpre (by simp) (Nat.le_refl _) (by simp)
    (by intro w tl e; cases e; exact endsLast_tmpl ht he)
  have hstk : f0.stack.length < frameStackMax := by
    obtain ⟨_, _, _, _, hs, e1, e2⟩ := afl_mono hpre
    rw [e1]
    simp only [List.nil_append, List.length_append, List.length_cons] at hlen ⊢
    omega
  have hpush : pushHdr frameStackMax f0 t = .ok { f0 with stack := f0.stack ++ [hdrCopy t] } := by
    unfold pushHdr; rw [if_pos hstk]
  unfold argcFrame
  rw [if_neg hl1, hc, List.length_cons, afl_step, if_neg (tmpl_words t ht).1, findTmpl_all t ht]
  simp only
  rw [hpush, Out.ok_bind]
  rfl

theorem length_of_ok {argv : List CStr} {r : Nat × Frame} (h : argcFrame argv = .ok (some r)) : argv.length ≤ frameStackMax := by
  unfold argcFrame at h
  split at h
  · simp at h
  · omega

/-- **C49**, what happens instead: if a text that is no value is assigned to a field, it is as if this assignment was not
there, and the field gets its default value. -/
theorem C49_dropped {pre rest : List CStr} {f0 f : Frame} {t : Hdr} {as bs : List (CStr × CStr)} {ft : Field} {name v : CStr}
    {n : Nat} (hA : Assigned (pre ++ t.name :: (asgnWords (as ++ bs) ++ rest)) pre f0 t [] (as ++ bs) rest)
    (hna : name ∉ (as ++ bs).map (·.1)) (hname : PlainField t name)
    (hft : t.fields.find? (fun k => k.name == name) = some ft) (hv : NoValue ft v)
    (hrest : as ++ bs = [] → ∀ w ∈ rest.head?, ¬ IgnWord w)
    (h : argcFrame (pre ++ t.name :: (asgnWords (as ++ bs) ++ rest)) = .ok (some (n, f)))
    (hlen : pre.length + 1 + 2 * (as ++ bs).length + 2 + rest.length ≤ 100) :
    argcFrame (pre ++ t.name :: (asgnWords (as ++ (name, v) :: bs) ++ rest)) = .ok (some (n + 2, f)) := by
  obtain ⟨hh, _, _, hfh⟩ := tmpl_words t hA.tmpl
  have hl0 := length_of_ok h
  have hl1 : (pre ++ t.name :: ([] ++ (asgnWords (as ++ (name, v) :: bs) ++ rest))).length ≤ frameStackMax := by
    simp only [List.length_append, List.length_cons, words_length, List.nil_append, frameStackMax] at hlen ⊢
    omega
  have A := argcFrame_asgn hA.pre (findTmpl_all t hA.tmpl) hA.kind hh (endsLast_tmpl hA.tmpl hA.fresh) (Or.inl rfl) hl0
    (lead := []) (as := as ++ bs) (rest := rest)
  have A' := argcFrame_asgn hA.pre (findTmpl_all t hA.tmpl) hA.kind hh (endsLast_tmpl hA.tmpl hA.fresh) (Or.inl rfl) hl1
    (lead := []) (as := as ++ (name, v) :: bs) (rest := rest)
  have hg := A.1 _ h hA.plain (hfh hA.kind)
  have hnew : GoodAsgn t (name, v) := by
    obtain ⟨hni, f1, hf1, h2, h3, h4⟩ := hname
    rw [hft] at hf1
    obtain rfl := Option.some.inj hf1
    refine ⟨?_, ?_, ft, hft, h2, h3, h4, Or.inr ⟨hv.2.2.2, none, ?_⟩⟩
    · have hm := List.mem_of_find?_eq_some hft
      have hn : ft.name = name := by simpa using List.find?_some hft
      rw [show (name, v).1 = ft.name from hn.symm]
      exact hfh hA.kind ft hm
    · cases e : isIgn name with
      | false => rfl
      | true => exact absurd ((isIgn_iff name).1 e) hni
    · unfold parseVal
      rw [hv.1]
      exact hv.2.1
  have hg' : ∀ a ∈ as ++ (name, v) :: bs, GoodAsgn t a := by
    intro a ha
    rw [List.mem_append, List.mem_cons] at ha
    rcases ha with ha | rfl | ha
    · exact hg a (by simp [ha])
    · exact hnew
    · exact hg a (by simp [ha])
  have hiv : isIgn v = false := by
    cases e : isIgn v with
    | false => rfl
    | true => exact absurd ((isIgn_iff v).1 e) hv.2.2.1
  have hall : assignAll t (as ++ (name, v) :: bs) = assignAll t (as ++ bs) := by
    rw [assignAll_append, assignAll_append]
    show assignAll (assign1 (assignAll t as) (name, v)) bs = _
    rw [assign_novalue hA.tmpl as (fun hm => hna (by simp only [List.map_append, List.mem_append]; exact Or.inl hm)) hft hv]
  have hany : ((as ++ (name, v) :: bs).any fun a => isIgn a.2) = ((as ++ bs).any fun a => isIgn a.2) := by
    simp [List.any_append, hiv]
  have B := A'.2 hg' (Or.inr (by simp))
  rw [show leadHdr [] t = t from rfl, hall, hany] at B
  simp only [List.nil_append] at B
  rw [B]
  by_cases hne : as ++ bs = []
  · have hst : Starts (fun w => w ≠ c!"help" ∧ findField t w = none) rest ∧ ∀ w ∈ rest.head?, isIgn w = false := by
      refine ⟨?_, ?_⟩
      · intro w tl e
        subst e
        refine ⟨?_, findField_none (hA.stop w tl rfl)⟩
        rintro rfl
        rw [hne] at h
        rw [show asgnWords ([] : List (CStr × CStr)) ++ c!"help" :: tl = c!"help" :: tl from rfl,
          argcFrame_hdr hA.pre hA.tmpl hA.fresh (by rw [hne] at hl0; exact hl0)] at h
        unfold runHdrParser at h
        simp only [hA.kind] at h
        unfold parseFields parseFieldsLoop at h
        simp at h
      · intro w hw
        cases e : isIgn w with
        | false => rfl
        | true => exact absurd ((isIgn_iff w).1 e) (hrest hne w hw)
    rw [hne] at h hl0 ⊢
    rw [show asgnWords ([] : List (CStr × CStr)) ++ rest = rest from rfl] at h hl0
    rw [argcFrame_hdr hA.pre hA.tmpl hA.fresh hl0] at h
    unfold runHdrParser at h
    simp only [hA.kind] at h
    have hp : parseFields t f0.hasMask rest = .ok (some (0, t, f0.hasMask)) := by
      unfold parseFields
      cases hr : rest with
      | nil => rfl
      | cons w tl =>
        obtain ⟨h1, h2⟩ := hst.1 w tl hr
        have h3 := hst.2 w (by rw [hr]; rfl)
        rw [List.length_cons, parseFieldsLoop]
        simp only
        rw [if_neg h1, if_neg (by rw [h3]; simp), h2]
    rw [hp] at h
    simp only [Out.ok_bind, Nat.add_zero, List.drop_zero] at h
    unfold afterAsgn
    rw [show assignAll t [] = t from rfl, pfl_stop (by omega) hst.1]
    simp only [Out.ok_bind, Nat.sub_self, List.drop_zero, List.any_nil, Bool.or_false]
    have l1 := afl_lift frameStackMax rest.length { stack := f0.stack ++ [t], padding := f0.padding, hasMask := false } f0.hasMask 0
      (pre.length + 1) rest
    simp only [Nat.zero_add] at l1
    rw [l1] at h
    obtain ⟨k, g, e1, e2, e3⟩ := lift_ok h
    rw [e1, Out.ok_bind]
    have e4 : (as ++ (name, v) :: bs).length = 1 := by
      have := List.append_eq_nil_iff.mp hne
      simp [this.1, this.2]
    rw [e4]
    simp only [liftA, Option.map_some, List.isEmpty_nil, Bool.not_true, Bool.or_false, List.length_nil, Nat.add_zero]
    rw [e3, e2]
    simp only [Out.ok.injEq, Option.some.injEq, Prod.mk.injEq, and_true]
    omega
  · have C := A.2 hg (Or.inr hne)
    rw [show leadHdr [] t = t from rfl] at C
    simp only [List.nil_append] at C
    rw [C] at h
    obtain ⟨k, g, e1, e2, e3⟩ := lift_ok h
    rw [e1, Out.ok_bind]
    simp only [liftA, Option.map_some]
    rw [e3, e2]
    simp only [Out.ok.injEq, Option.some.injEq, Prod.mk.injEq, and_true, List.length_append, List.length_cons]
    omega

/-- A number that is too big for any field, a text for a number, an address with a wrong element. -/
example : NoValue { name := c!"ttl", width := 8 } c!"18446744073709551616" ∧ NoValue { name := c!"ttl", width := 8 } c!"ten" ∧
    NoValue { name := c!"dmac", width := 48 } c!"1:2:3:4:5:6:7" := by
  refine ⟨⟨rfl, by decide +kernel, by decide +kernel, by decide⟩, ⟨rfl, by decide +kernel, by decide +kernel, by decide⟩,
    ⟨rfl, by decide +kernel, by decide +kernel, by decide⟩⟩

/-- C49 is false: `eth dmac xyz` is accepted. -/
theorem C49_false : ¬ C49_statement := by
  intro h
  have hA : Assigned [c!"eth", c!"dmac", c!"xyz"] [] {} HDR_ETH [] [(c!"dmac", c!"xyz")] [] :=
    { words := by decide +kernel, pre := rfl, tmpl := by decide +kernel, kind := by decide +kernel
      fresh := by intro h hh; simp at hh
      lead := Or.inl rfl, plain := plain_of (by decide +kernel), stop := by intro x tl e; cases e }
  have := h _ _ _ _ _ _ _ { name := c!"dmac", width := 48, offset := 0, dflt := some (List.replicate 6 255#8) } c!"dmac" c!"xyz" hA
    (by simp) (by decide +kernel) ⟨rfl, by decide +kernel, by decide +kernel, by decide⟩
  have h2 : (match argcFrame [c!"eth", c!"dmac", c!"xyz"] with
    | .ok none => false
    | _ => true) = true := by decide +kernel
  rw [this] at h2
  simp at h2

/-- **C49** (partial): where lists of payload segments or a length of padding are expected, texts that are no values reject
the frame: malformed segments, and padding lengths that are no numbers. -/
theorem C49_rejected_partial {pre : List CStr} {f0 : Frame} (hpre : argcFrame pre = .ok (some (pre.length, f0)))
    (segs : List (List CStr × Buf)) (hs : ∀ p ∈ segs, Segment p.1 p.2) :
    (NotField f0 c!"data" → ∀ bad, BadSegment bad → argcFrame (pre ++ c!"data" :: ((segs.map (·.1)).flatten ++ bad)) = .ok none) ∧
    (NotField f0 c!"padding" → ∀ w ws, NoNumber w → argcFrame (pre ++ c!"padding" :: w :: ws) = .ok none) := by
  have long : ∀ argv : List CStr, ¬ argv.length ≤ frameStackMax → argcFrame argv = .ok none := by
    intro argv h
    unfold argcFrame
    rw [if_pos (by omega)]
  refine ⟨fun hn bad hb => ?_, fun hn w ws hw => ?_⟩
  · by_cases hl : (pre ++ c!"data" :: ((segs.map (·.1)).flatten ++ bad)).length ≤ frameStackMax
    · have ht : HDR_PAYLOAD ∈ hdrTmpls := by decide +kernel
      have := argcFrame_hdr (t := HDR_PAYLOAD) hpre ht hn hl
      rw [show HDR_PAYLOAD.name = c!"data" from rfl] at this
      rw [this]
      have hp : runHdrParser HDR_PAYLOAD f0.padding f0.hasMask ((segs.map (·.1)).flatten ++ bad) = .ok none := by
        show (payloadParser HDR_PAYLOAD ((segs.map (·.1)).flatten ++ bad) >>= _) = _
        unfold payloadParser
        rw [(C10_payload_concatenates segs hs).2 bad hb]
        rfl
      rw [hp]
      rfl
    · exact long _ hl
  · by_cases hl : (pre ++ c!"padding" :: w :: ws).length ≤ frameStackMax
    · have ht : HDR_PADDING ∈ hdrTmpls := by decide +kernel
      have := argcFrame_hdr (t := HDR_PADDING) hpre ht hn hl
      rw [show HDR_PADDING.name = c!"padding" from rfl] at this
      rw [this]
      have hp : runHdrParser HDR_PADDING f0.padding f0.hasMask (w :: ws) = .ok none := by
        show (paddingParser (w :: ws) >>= _) = _
        unfold paddingParser parseUint32
        simp only
        rw [parseBytes_noNumber hw]
        rfl
      rw [hp]
      rfl
    · exact long _ hl

/-- Non-vacuity: a repeat count that is no number. -/
example : argcFrame [c!"eth", c!"data", c!"ascii", c!"x", c!"repeat", c!"ten", c!"0"] = .ok none ∧
    argcFrame [c!"eth", c!"padding", c!"ten"] = .ok none := by decide +kernel

/-- Non-vacuity of `C49_dropped`: a text that is no address is dropped, the frame is the same as without it. -/
example : ∃ f, argcFrame [c!"eth", c!"smac", c!"::1", c!"ipv4"] = .ok (some (4, f)) ∧
    argcFrame [c!"eth", c!"dmac", c!"xyz", c!"smac", c!"::1", c!"ipv4"] = .ok (some (6, f)) := by
  have hA : Assigned [c!"eth", c!"smac", c!"::1", c!"ipv4"] [] {} HDR_ETH [] [(c!"smac", c!"::1")] [c!"ipv4"] :=
    { words := by decide +kernel, pre := rfl, tmpl := by decide +kernel, kind := by decide +kernel
      fresh := by intro h hh; simp at hh
      lead := Or.inl rfl, plain := plain_of (by decide +kernel), stop := by intro x tl e; cases e; decide +kernel }
  have hok : (match argcFrame [c!"eth", c!"smac", c!"::1", c!"ipv4"] with
    | .ok (some (4, _)) => true
    | _ => false) = true := by decide +kernel
  split at hok
  · rename_i f e
    refine ⟨f, e, ?_⟩
    exact C49_dropped (t := HDR_ETH) (f0 := {}) (pre := []) (rest := [c!"ipv4"]) (as := []) (bs := [(c!"smac", c!"::1")]) (name := c!"dmac") (v := c!"xyz")
      (ft := { name := c!"dmac", width := 48, offset := 0, dflt := some (List.replicate 6 255#8) }) hA (by decide +kernel)
      (plain_of (t := HDR_ETH) (as := [(c!"dmac", c!"xyz")]) (by decide +kernel) (c!"dmac", c!"xyz") (by simp)) (by decide +kernel)
      ⟨rfl, by decide +kernel, by decide +kernel, by decide⟩ (by simp) e (by simp)
  · simp at hok

end Ef.Props
