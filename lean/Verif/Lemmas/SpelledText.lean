import Verif.Lemmas.Spelled
import Verif.Props.Errors

/-!
One more assignment at the end of the assignments of a header: what `argc_frame` makes of it (C100).
-/

namespace Ef

open Spec Props

/-- The words of the following headers do not depend on the headers before. -/
theorem afl_below (cap fuel : Nat) {s s' : List Hdr} {pad : Int} {m : Bool} {i n : Nat} {argv : List CStr} {g : Frame} (hs : s'.length = s.length)
    (h : argcFrameLoop cap fuel { stack := s, padding := pad, hasMask := m } i argv = .ok (some (n, g))) :
    ∃ hs, g.stack = s ++ hs ∧
      argcFrameLoop cap fuel { stack := s', padding := pad, hasMask := m } i argv = .ok (some (n, { g with stack := s' ++ hs })) := by
  induction fuel generalizing s s' pad m i argv with
  | zero =>
    simp only [argcFrameLoop, Out.ok.injEq, Option.some.injEq, Prod.mk.injEq] at h ⊢
    obtain ⟨rfl, rfl⟩ := h
    exact ⟨[], by simp⟩
  | succ fuel ih =>
    cases argv with
    | nil =>
      rw [afl_nil] at h ⊢
      simp only [Out.ok.injEq, Option.some.injEq, Prod.mk.injEq] at h ⊢
      obtain ⟨rfl, rfl⟩ := h
      exact ⟨[], by simp⟩
    | cons w rest =>
      rw [afl_step] at h ⊢
      split at h
      · simp at h
      · rename_i hw
        rw [if_neg hw]
        split at h
        · rename_i e
          simp only [Out.ok.injEq, Option.some.injEq, Prod.mk.injEq] at h ⊢
          obtain ⟨rfl, rfl⟩ := h
          exact ⟨[], by simp⟩
        · rename_i t e
          simp only
          have hp : ∀ u : List Hdr, pushHdr cap { stack := u, padding := pad, hasMask := m } t =
              if u.length < cap then .ok { stack := u ++ [hdrCopy t], padding := pad, hasMask := m } else .ub .oobWrite := fun _ => rfl
          rw [hp] at h ⊢
          rw [hs]
          split at h
          · rename_i hl
            rw [if_pos hl]
            rw [Out.ok_bind] at h ⊢
            simp only at h ⊢
            cases hr : runHdrParser t pad m rest with
            | ub u => rw [hr] at h; simp at h
            | abort => rw [hr] at h; simp at h
            | exit c => rw [hr] at h; simp at h
            | ok o =>
              rw [hr, Out.ok_bind] at h
              rw [Out.ok_bind]
              rcases o with _ | ⟨k, x, p, m'⟩
              · simp at h
              · simp only at h ⊢
                obtain ⟨hs', e1, e2⟩ := ih (s' := s' ++ [x]) (by simp [hs]) h
                exact ⟨x :: hs', by simp [e1], by simpa using e2⟩
          · simp at h

theorem assignAll_snoc (h : Hdr) (as : List (CStr × CStr)) (a : CStr × CStr) : assignAll h (as ++ [a]) = assign1 (assignAll h as) a := by
  simp [assignAll, List.foldl_append]

theorem SameCore.none {t h : Hdr} (hs : SameCore t h) {w : CStr} (hn : findField t w = none) : findField h w = none := by
  cases e : findField h w with
  | none => rfl
  | some g =>
    have hs' : SameCore h t := Eq.symm hs
    obtain ⟨g', h1, _⟩ := hs'.find e
    rw [hn] at h1; cases h1

/-- One more assignment. -/
theorem parse_more {argv pre lead rest : List CStr} {f0 f : Frame} {t : Hdr} {as : List (CStr × CStr)} {a : CStr × CStr} {n : Nat}
    (hA : Assigned argv pre f0 t lead as rest) (h : argcFrame argv = .ok (some (n, f))) (ha : GoodAsgn t a)
    (hi : isIgn a.2 = false)
    (hlen : argv.length + 2 ≤ frameStackMax) (hbare : lead = [] → as = [] → ∀ w ∈ rest.head?, ¬ IgnWord w) :
    ∃ hs, f.stack = f0.stack ++ assignAll (leadHdr lead t) as :: hs ∧ (∀ a ∈ as, GoodAsgn t a) ∧
      argcFrame (pre ++ t.name :: (lead ++ (asgnWords (as ++ [a]) ++ rest))) =
        .ok (some (n + 2, { f with stack := f0.stack ++ assign1 (assignAll (leadHdr lead t) as) a :: hs })) := by
  obtain ⟨hh, _, _, hfh⟩ := tmpl_words t hA.tmpl
  have hw := hA.words
  subst hw
  have hl0 := length_of_ok h
  have hl1 : (pre ++ t.name :: (lead ++ (asgnWords (as ++ [a]) ++ rest))).length ≤ frameStackMax := by
    simp only [List.length_append, List.length_cons, words_length, List.length_nil] at hlen ⊢
    omega
  have A := argcFrame_asgn hA.pre (findTmpl_all t hA.tmpl) hA.kind hh (endsLast_tmpl hA.tmpl hA.fresh) hA.lead hl0
  have A' := argcFrame_asgn hA.pre (findTmpl_all t hA.tmpl) hA.kind hh (endsLast_tmpl hA.tmpl hA.fresh) hA.lead hl1
  have hg := A.1 _ h hA.plain (hfh hA.kind)
  have hg' : ∀ b ∈ as ++ [a], GoodAsgn t b := by
    intro b hb
    rcases List.mem_append.mp hb with hb | hb
    · exact hg b hb
    · rw [List.mem_singleton] at hb; subst hb; exact ha
  have B := A'.2 hg' (Or.inr (by simp))
  rw [assignAll_snoc] at B
  have hany : ((as ++ [a]).any fun a => isIgn a.2) = (as.any fun a => isIgn a.2) := by simp [hi]
  rw [hany] at B
  have hcore : SameCore t (assignAll (leadHdr lead t) as) := (leadHdr_core lead t).assignAll as
  have hcore' : SameCore t (assign1 (assignAll (leadHdr lead t) as) a) := by
    rw [← assignAll_snoc]; exact (leadHdr_core lead t).assignAll _
  by_cases hb : lead = [] ∧ as = []
  · obtain ⟨rfl, rfl⟩ := hb
    have hst : Starts (fun w => w ≠ c!"help" ∧ findField t w = none) rest ∧ ∀ w ∈ rest.head?, isIgn w = false := by
      refine ⟨?_, ?_⟩
      · intro w tl e
        subst e
        refine ⟨?_, findField_none (hA.stop w tl rfl)⟩
        rintro rfl
        rw [show [] ++ (asgnWords ([] : List (CStr × CStr)) ++ c!"help" :: tl) = c!"help" :: tl from rfl] at h hl0
        rw [argcFrame_hdr hA.pre hA.tmpl hA.fresh hl0] at h
        unfold runHdrParser at h
        simp only [hA.kind] at h
        unfold parseFields parseFieldsLoop at h
        simp at h
      · intro w hw
        cases e : isIgn w with
        | false => rfl
        | true => exact absurd ((isIgn_iff w).1 e) (hbare rfl rfl w hw)
    rw [show [] ++ (asgnWords ([] : List (CStr × CStr)) ++ rest) = rest from rfl] at h hl0
    rw [argcFrame_hdr hA.pre hA.tmpl hA.fresh hl0] at h
    unfold runHdrParser at h
    simp only [hA.kind] at h
    have hp : parseFields t f0.hasMask rest = .ok (some (0, t, f0.hasMask)) := by
      unfold parseFields
      cases hr : rest with
      | nil => rfl
      | cons w tl =>
        obtain ⟨h1, h2⟩ := hst.1 w tl hr
        have h3 := hst.2 w (by rw [hr]; rfl)
        rw [List.length_cons, parseFieldsLoop]
        simp only
        rw [if_neg h1, if_neg (by rw [h3]; simp), h2]
    rw [hp] at h
    simp only [Out.ok_bind, Nat.add_zero, List.drop_zero] at h
    have l1 := afl_lift frameStackMax rest.length { stack := f0.stack ++ [t], padding := f0.padding, hasMask := false } f0.hasMask 0
      (pre.length + 1) rest
    simp only [Nat.zero_add] at l1
    rw [l1] at h
    obtain ⟨k, g, e1, e2, e3⟩ := lift_ok h
    obtain ⟨hs, s1, s2⟩ := afl_below _ _ (s' := f0.stack ++ [assign1 (assignAll (leadHdr [] t) []) a]) (by simp) e1
    refine ⟨hs, by rw [e3]; simp [s1, leadHdr, assignAll], hg, ?_⟩
    rw [B]
    unfold afterAsgn
    rw [pfl_stop (by omega) (by
      intro w tl e
      obtain ⟨h1, h2⟩ := hst.1 w tl e
      refine ⟨h1, ?_⟩
      exact hcore'.none h2)]
    simp only [Out.ok_bind, Nat.sub_self, List.drop_zero]
    rw [s2]
    simp only [Out.ok_bind, liftA, Option.map_some, List.isEmpty_nil, Bool.not_true, Bool.or_false, List.length_nil, Nat.add_zero,
      List.any_nil, e3, e2]
    simp
    omega
  · have hne : lead ≠ [] ∨ as ≠ [] := by
      by_cases h1 : lead = []
      · exact Or.inr (fun h2 => hb ⟨h1, h2⟩)
      · exact Or.inl h1
    have C := A.2 hg hne
    rw [C] at h
    obtain ⟨k, g, e1, e2, e3⟩ := lift_ok h
    have hst : ∀ (x : Hdr), SameCore t x → ∀ r, afterAsgn f0 (assignAll (leadHdr lead t) as) rest = .ok (some r) →
        Starts (fun w => w ≠ c!"help" ∧ findField x w = none) rest := by
      intro x hx r hr w tl e
      refine ⟨?_, ?_⟩
      · rintro rfl
        subst e
        unfold afterAsgn at hr
        rw [List.length_cons, parseFieldsLoop] at hr
        simp at hr
      · exact hx.none (findField_none (hA.stop w tl e))
    have s0 := hst _ hcore _ e1
    have s0' := hst _ hcore' _ e1
    unfold afterAsgn at e1
    rw [pfl_stop (by omega) s0] at e1
    simp only [Out.ok_bind, Nat.sub_self, List.drop_zero] at e1
    obtain ⟨hs, s1, s2⟩ := afl_below _ _ (s' := f0.stack ++ [assign1 (assignAll (leadHdr lead t) as) a]) (by simp) e1
    refine ⟨hs, by rw [e3]; simp [s1], hg, ?_⟩
    rw [B]
    unfold afterAsgn
    rw [pfl_stop (by omega) s0']
    simp only [Out.ok_bind, Nat.sub_self, List.drop_zero]
    rw [s2]
    simp only [Out.ok_bind, liftA, Option.map_some, e3, e2]
    simp
    omega

end Ef
