import Verif.Lemmas.AssignFrame
import Verif.Lemmas.FillLayout
import Verif.Props.Words

/-! # From texts to the values of a header -/

namespace Ef

open Spec Props

/-- A header with assignments that are not continued. -/
theorem asgn_header {pre rest lead : List CStr} {f0 f : Frame} {t : Hdr} {as : List (CStr × CStr)} {n : Nat}
    (hpre : argcFrame pre = .ok (some (pre.length, f0))) (ht : t ∈ hdrTmpls) (htf : t.parser = .fields)
    (hend : NotField f0 t.name) (hlead : Lead lead) (has : PlainFields t as)
    (hrest : ∀ x tl, rest = x :: tl → ∀ g ∈ t.fields, g.name ≠ x) (hne : lead ≠ [] ∨ as ≠ [])
    (h : argcFrame (pre ++ t.name :: (lead ++ (asgnWords as ++ rest))) = .ok (some (n, f))) :
    f.stack[f0.stack.length]? = some (assignAll (leadHdr lead t) as) ∧ ∀ a ∈ as, GoodAsgn t a := by
  have hlen : (pre ++ t.name :: (lead ++ (asgnWords as ++ rest))).length ≤ frameStackMax := by
    unfold argcFrame at h
    split at h
    · simp at h
    · omega
  obtain ⟨hh, _, _, hfh⟩ := tmpl_words t ht
  have A := argcFrame_asgn hpre (findTmpl_all t ht) htf hh (endsLast_tmpl ht hend) hlead hlen
  have hg := A.1 _ h has (hfh htf)
  rw [A.2 hg hne] at h
  obtain ⟨k, g, e1, _, e⟩ := lift_ok h
  unfold afterAsgn at e1
  have hsc : SameCore t (assignAll (leadHdr lead t) as) := (leadHdr_core lead t).assignAll as
  have hnames : (assignAll (leadHdr lead t) as).fields.map Field.name = t.fields.map Field.name := by
    have := congrArg (List.map Field.name) hsc
    simpa [List.map_map, Function.comp_def, core] using this
  have hnh : ∀ x tl, rest = x :: tl → x ≠ c!"help" := by
    rintro x tl rfl rfl
    simp only [List.length_cons] at e1
    unfold parseFieldsLoop at e1
    simp at e1
  rw [pfl_stop (by omega) ?_] at e1
  · simp only [Out.ok_bind, Nat.sub_self, List.drop_zero] at e1
    obtain ⟨_, _, _, _, hs, q, _⟩ := afl_mono e1
    refine ⟨?_, hg⟩
    rw [e]; simp only [q]; simp
  · intro x tl hx
    refine ⟨hnh x tl hx, findField_none ?_⟩
    intro g hgm
    have : g.name ∈ t.fields.map Field.name := by rw [← hnames]; exact List.mem_map.mpr ⟨g, hgm, rfl⟩
    obtain ⟨g', h1, h2⟩ := List.mem_map.mp this
    rw [← h2]; exact hrest x tl hx g' h1

theorem lastOf_mem {as : List (CStr × CStr)} {n v : CStr} (h : lastOf as n = some v) : (n, v) ∈ as := by
  unfold lastOf at h
  cases hf : as.reverse.find? (fun a => a.1 == n) with
  | none => rw [hf] at h; simp at h
  | some a =>
    rw [hf] at h
    simp only [Option.map_some, Option.some.injEq] at h
    have h1 := List.mem_of_find?_eq_some hf
    have h2 := List.find?_some hf
    have h2' : a.1 = n := by simpa using h2
    rw [← h, ← h2']
    simpa using h1

theorem find_leadHdr {lead : List CStr} {t : Hdr} {n : CStr} {g : Field} (h : findField (leadHdr lead t) n = some g) :
    ∃ ft, findField t n = some ft ∧ core g = core ft ∧ g.val = ft.val := by
  unfold leadHdr at h
  split at h
  · exact ⟨g, h, rfl, rfl⟩
  · have key : findField (skipAll t) n = (findField t n).map (fun f => { f with rxSkip := true }) := by
      unfold findField skipAll
      simp only
      induction t.fields with
      | nil => rfl
      | cons a l ih =>
        simp only [List.map_cons, List.find?_cons]
        split
        · rfl
        · exact ih
    rw [key] at h
    cases hf : findField t n with
    | none => rw [hf] at h; simp at h
    | some ft =>
      rw [hf] at h
      simp only [Option.map_some, Option.some.injEq] at h
      refine ⟨ft, rfl, ?_, ?_⟩ <;> rw [← h]
      rfl

/-- The values of a header with assignments. -/
theorem asgn_given {t : Hdr} (htv : ∀ f ∈ t.fields, f.val = none) {lead : List CStr} {as : List (CStr × CStr)}
    (hg : ∀ a ∈ as, GoodAsgn t a) (n : CStr) :
    (lastOf as n = none → given (assignAll (leadHdr lead t) as) n = none) ∧
    ∀ v, lastOf as n = some v →
      (IgnWord v → given (assignAll (leadHdr lead t) as) n = none) ∧
      (¬ IgnWord v → ∀ ft, findField t n = some ft → parseVal ft v = .ok (given (assignAll (leadHdr lead t) as) n)) := by
  have hgiv : ∀ x : Hdr, given x n = (findField x n).bind (·.val) := fun x => rfl
  rw [hgiv]
  cases hx : findField (assignAll (leadHdr lead t) as) n with
  | none =>
    refine ⟨fun _ => rfl, fun v hv => ⟨fun _ => rfl, fun _ ft hft => ?_⟩⟩
    obtain ⟨g, h1, _⟩ := ((leadHdr_core lead t).assignAll as).find hft
    rw [hx] at h1; cases h1
  | some g =>
    obtain ⟨f, h1, h2, h3⟩ := assignAll_find as _ n g hx
    obtain ⟨ft, q1, q2, q3⟩ := find_leadHdr h1
    have htn : ft.val = none := htv ft (find_mem q1).1
    constructor
    · intro hl
      rw [hl] at h3
      simp only at h3
      rw [h3]
      exact q3.trans htn
    · intro v hl
      rw [hl] at h3
      simp only at h3
      refine ⟨fun hi => ?_, fun hi ft' hft' => ?_⟩
      · rw [h3]
        simp [setBy, (isIgn_iff v).2 hi]
      · rw [q1] at hft'; cases hft'
        obtain ⟨_, _, fa, r1, _, _, _, r2⟩ := hg _ (lastOf_mem hl)
        simp only at r1 r2
        rw [q1] at r1; cases r1
        have hi' : isIgn v = false := not_isIgn hi
        rcases r2 with r2 | ⟨_, b, r2⟩
        · rw [hi'] at r2; cases r2
        · have e1 : f.parser = ft.parser := by have := congrArg Field.parser q2; exact this
          have e2 : f.width = ft.width := by have := congrArg Field.width q2; exact this
          have : parseVal f v = .ok b := by rw [← r2]; unfold parseVal; rw [e1, e2]
          rw [r2, h3]
          simp [setBy, hi', this, okVal]

/-- The value of a field in the frame, if no later field of its header shares bits with it. -/
theorem value_on_wire {argv : List CStr} {f f' : Frame} {b : Buf} (h : Sent argv f f' b) {pre post pre' post' : List Hdr} {x x' : Hdr}
    (ha : At f f' pre x post pre' x' post') {t : Hdr} (hc : SameCore t x) (hfill : ¬ Reshapes x.fill)
    (hco : x.name ≠ c!"coap-opt") {l1 l2 : List Field} {ft : Field} (hsp : t.fields = l1 ++ ft :: l2) (h1 : ∀ k ∈ l1, k.name ≠ ft.name)
    (h2 : ∀ k ∈ l2, ∀ i, ¬ (covers ft i ∧ covers k i)) {v : Buf} (hv : given x ft.name = some v) :
    numAt b (8 * totalSize pre' + ft.offset) ft.width = beNat v % 2 ^ ft.width := by
  have hp := h.place ha
  have hlay : lay x' = lay x := fillHdr_lay hfill x' hp.filled
  have hcf : x'.fields.map core = t.fields.map core := by
    have := congrArg (fun q => q.2.2.2.2.map core) hlay
    simp only [lay, List.map_map] at this
    rw [show (core ∘ fun f : Field => { f with val := none }) = core from rfl] at this
    rw [this]; exact hc
  rw [hsp, List.map_append, List.map_cons] at hcf
  obtain ⟨m1, m2', e1, e2, e3⟩ := List.map_eq_append_iff.mp hcf
  obtain ⟨g, m2, rfl, e4, e5⟩ := List.map_eq_cons_iff.mp e3
  have q1 : g.name = ft.name := by have := congrArg Field.name e4; exact this
  have q2 : g.offset = ft.offset := by have := congrArg Field.offset e4; exact this
  have q3 : g.width = ft.width := by have := congrArg Field.width e4; exact this
  have hgv := hp.res.keeps.given _ _ hv (fun c => hco c.1)
  have hfirst : findField x' ft.name = some g := by
    unfold findField
    rw [e1, List.find?_append]
    have : m1.find? (fun f => f.name == ft.name) = none := by
      rw [List.find?_eq_none]
      intro k hk
      have : core k ∈ m1.map core := List.mem_map.mpr ⟨k, hk, rfl⟩
      rw [e2] at this
      obtain ⟨k', hk', ek⟩ := List.mem_map.mp this
      have en : k'.name = k.name := by have := congrArg Field.name ek; exact this
      have := h1 k' hk'
      rw [en] at this
      simpa using this
    rw [this, Option.none_or, List.find?_cons]
    simp [q1]
  have hval : g.val = some v := by
    have : given x' ft.name = (findField x' ft.name).bind (·.val) := rfl
    rw [this, hfirst] at hgv
    exact hgv
  have := (C17_values_appear f f' b h.bytes pre' post' x' ha.after (hp.fits (tame_still hp.inst hfill)) m1 m2 g e1).1 v (by unfold fieldValue; rw [hval]) (by
    intro k hk _ i hcov
    have : core k ∈ m2.map core := List.mem_map.mpr ⟨k, hk, rfl⟩
    rw [e5] at this
    obtain ⟨k', hk', ek⟩ := List.mem_map.mp this
    have en : k'.offset = k.offset := by have := congrArg Field.offset ek; exact this
    have ew : k'.width = k.width := by have := congrArg Field.width ek; exact this
    refine h2 k' hk' i ?_
    unfold covers at hcov ⊢
    rw [← q2, ← q3, en, ew]; exact hcov)
  rw [q2, q3] at this
  exact this

end Ef
