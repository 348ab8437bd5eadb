import Verif.Lemmas.Assign

/-! # Assignments in frames -/

namespace Ef

open Spec

/-! ## Position and mask flag -/

/-- Result of the field loop at a later position, with a mask flag. -/
def liftF (d : Nat) (m : Bool) (o : Option (Nat × Hdr × Bool)) : Option (Nat × Hdr × Bool) :=
  o.map (fun p => (p.1 + d, p.2.1, m || p.2.2))

theorem liftF_liftF (d d' : Nat) (m m' : Bool) (o : Option (Nat × Hdr × Bool)) :
    liftF d m (liftF d' m' o) = liftF (d' + d) (m || m') o := by
  cases o <;> simp [liftF, Nat.add_assoc, Bool.or_assoc]

theorem pfl_lift (fuel : Nat) (h : Hdr) (m : Bool) (i d : Nat) (argv : List CStr) (hd : 0 < i ∨ d = 0) :
    parseFieldsLoop fuel h m (i + d) argv =
      parseFieldsLoop fuel h false i argv >>= fun o => .ok (liftF d m o) := by
  induction fuel generalizing h m i d argv with
  | zero => simp [parseFieldsLoop, liftF]
  | succ fuel ih =>
    have hcomb : ∀ (h : Hdr) (k : Nat) (m1 : Bool) (argv : List CStr), 0 < k →
        parseFieldsLoop fuel h (m || m1) (i + k + d) argv =
          parseFieldsLoop fuel h m1 (i + k) argv >>= fun o => .ok (liftF d m o) := by
      intro h k m1 argv hk
      rw [ih h (m || m1) (i + k) d argv (by omega), ← Nat.add_zero (i + k), ih h m1 (i + k) 0 argv (by omega), bind_assoc]
      congr 1; funext o
      rw [Out.ok_bind, liftF_liftF, Nat.zero_add]
    unfold parseFieldsLoop
    cases argv with
    | nil => simp [liftF]
    | cons w rest =>
      simp only
      by_cases hw : w = c!"help"
      · rw [if_pos hw, if_pos hw]; rfl
      rw [if_neg hw, if_neg hw]
      have hcond : (isIgn w = true ∧ i + d = 0) ↔ (isIgn w = true ∧ i = 0) := by
        constructor <;> (rintro ⟨a, b⟩; exact ⟨a, by omega⟩)
      by_cases hi : isIgn w = true ∧ i = 0
      · rw [if_pos (hcond.2 hi), if_pos hi]
        have hd0 : d = 0 := by omega
        have := hcomb (skipAll h) 1 true rest (by omega)
        rw [Bool.or_true] at this
        rw [← this]
        congr 1; omega
      rw [if_neg (fun e => hi (hcond.1 e)), if_neg hi]
      cases hf : findField h w with
      | none => simp [liftF]
      | some f =>
        simp only
        cases rest with
        | nil => rfl
        | cons v rest' =>
          simp only
          by_cases hv : isIgn v = true
          · rw [if_pos hv, if_pos hv]
            have := hcomb (updField (setVal h w none) w (fun f => { f with rxSkip := true })) 2 true rest' (by omega)
            rw [Bool.or_true] at this
            rw [← this]
            congr 1; omega
          rw [if_neg hv, if_neg hv]
          by_cases hv2 : v = c!"help"
          · rw [if_pos hv2, if_pos hv2]; rfl
          rw [if_neg hv2, if_neg hv2]
          by_cases hm : f.parser = .none ∧ f.multi ≠ .none
          · rw [if_pos hm, if_pos hm, bind_assoc]
            congr 1; funext p
            obtain ⟨h2, cnt⟩ := p
            simp only
            by_cases hc : cnt > 0 ∧ cnt ≤ (v :: rest').length
            · rw [if_pos hc, if_pos hc]
              have := hcomb (updField h2 w (fun f => { f with rxSkip := false })) (1 + cnt) false ((v :: rest').drop cnt) (by omega)
              rw [Bool.or_false] at this
              have e1 : i + 1 + cnt = i + (1 + cnt) := by omega
              have e2 : i + d + 1 + cnt = i + (1 + cnt) + d := by omega
              rw [e1, e2]
              exact this
            · rw [if_neg hc, if_neg hc]; rfl
          · rw [if_neg hm, if_neg hm, bind_assoc]
            congr 1; funext p
            obtain ⟨h2, b⟩ := p
            simp only
            have := hcomb (updField h2 w (fun f => { f with val := b, rxSkip := false })) 2 false rest' (by omega)
            rw [Bool.or_false] at this
            have e2 : i + d + 2 = i + 2 + d := by omega
            rw [e2]
            exact this

/-- Result of a header parser, with a mask flag. -/
def liftH (m : Bool) (o : Option (Nat × Hdr × Int × Bool)) : Option (Nat × Hdr × Int × Bool) :=
  o.map (fun p => (p.1, p.2.1, p.2.2.1, m || p.2.2.2))

theorem runHdrParser_lift (h : Hdr) (pad : Int) (m : Bool) (argv : List CStr) :
    runHdrParser h pad m argv = runHdrParser h pad false argv >>= fun o => .ok (liftH m o) := by
  unfold runHdrParser
  cases h.parser with
  | fields =>
    simp only [parseFields]
    rw [← Nat.add_zero 0, pfl_lift _ _ m 0 0 argv (Or.inr rfl), bind_assoc, bind_assoc]
    congr 1; funext o
    rcases o with _ | ⟨n, h', m'⟩
    · rfl
    · simp [liftF, liftH]
  | payload =>
    simp only
    rw [bind_assoc]
    congr 1; funext o
    rcases o with _ | ⟨n, h'⟩
    · rfl
    · simp [liftH]
  | padding =>
    simp only
    rw [bind_assoc]
    congr 1; funext o
    rcases o with _ | p
    · rfl
    · simp [liftH]

/-- Result of the frame loop at a later position, with a mask flag. -/
def liftA (d : Nat) (m : Bool) (o : Option (Nat × Frame)) : Option (Nat × Frame) :=
  o.map (fun p => (p.1 + d, { p.2 with hasMask := m || p.2.hasMask }))

theorem liftA_liftA (d d' : Nat) (m m' : Bool) (o : Option (Nat × Frame)) :
    liftA d m (liftA d' m' o) = liftA (d' + d) (m || m') o := by
  cases o <;> simp [liftA, Nat.add_assoc, Bool.or_assoc]

theorem afl_lift (cap fuel : Nat) (f : Frame) (m : Bool) (i d : Nat) (argv : List CStr) :
    argcFrameLoop cap fuel { f with hasMask := m } (i + d) argv =
      argcFrameLoop cap fuel { f with hasMask := false } i argv >>= fun o => .ok (liftA d m o) := by
  induction fuel generalizing f m i d argv with
  | zero => simp [argcFrameLoop, liftA]
  | succ fuel ih =>
    cases argv with
    | nil => rw [afl_nil, afl_nil]; simp [liftA]
    | cons w rest =>
      rw [afl_step, afl_step]
      split
      · rfl
      · split
        · simp [liftA]
        · rename_i t ht
          simp only [bind_assoc]
          have hp : pushHdr cap { f with hasMask := m } t = pushHdr cap { f with hasMask := false } t >>= fun g =>
              .ok { g with hasMask := m } := by
            unfold pushHdr
            split <;> rfl
          rw [hp, bind_assoc]
          congr 1; funext _
          rw [Out.ok_bind, runHdrParser_lift, bind_assoc]
          congr 1; funext o
          rw [Out.ok_bind]
          rcases o with _ | ⟨n, h, pad, m'⟩
          · rfl
          · simp only [liftH, Option.map_some]
            have e : i + d + 1 + n = i + 1 + n + d := by omega
            have ih1 := ih { stack := f.stack ++ [h], padding := pad, hasMask := m' } (m || m') (i + 1 + n) d (rest.drop n)
            have ih2 := ih { stack := f.stack ++ [h], padding := pad, hasMask := m' } m' (i + 1 + n) 0 (rest.drop n)
            simp only [Nat.add_zero] at ih1 ih2
            rw [e, ih1, ih2, bind_assoc]
            congr 1; funext o
            rw [Out.ok_bind, liftA_liftA, Nat.zero_add]

/-! ## A header with assignments -/

/-- Words after the assignments, from a header without mask flag, counting from 0. -/
def afterAsgn (f0 : Frame) (h : Hdr) (rest : List CStr) : Out (Option (Nat × Frame)) :=
  parseFieldsLoop rest.length h false 1 rest >>= fun o =>
    match o with
    | none => .ok none
    | some (n, h', m') => argcFrameLoop frameStackMax rest.length { stack := f0.stack ++ [h'], padding := f0.padding, hasMask := m' } (n - 1)
        (rest.drop (n - 1))

/-- An optional "ignore" directly behind the header name. -/
def Lead (lead : List CStr) : Prop := lead = [] ∨ ∃ w, IgnWord w ∧ lead = [w]

/-- The header after an optional "ignore". -/
def leadHdr (lead : List CStr) (t : Hdr) : Hdr := if lead = [] then t else skipAll t

theorem leadHdr_core (lead : List CStr) (t : Hdr) : SameCore t (leadHdr lead t) := by
  unfold leadHdr
  split
  · rfl
  · exact SameCore.skipAll rfl

theorem lead_step {lead : List CStr} (hl : Lead lead) (t : Hdr) (m : Bool) (r : List CStr) (hh : ∀ w, IgnWord w → w ≠ c!"help") :
    parseFields t m (lead ++ r) = parseFieldsLoop r.length (leadHdr lead t) (m || !lead.isEmpty) lead.length r := by
  rcases hl with rfl | ⟨w, hw, rfl⟩
  · simp [parseFields, leadHdr]
  · simp only [parseFields, List.cons_append, List.nil_append, List.length_cons]
    conv => lhs; unfold parseFieldsLoop
    simp only
    rw [if_neg (hh w hw), if_pos ⟨(isIgn_iff w).2 hw, trivial⟩]
    simp [leadHdr]

theorem ign_not_help (w : CStr) (h : IgnWord w) : w ≠ c!"help" := by
  rcases h with rfl | rfl <;> decide

theorem argcFrame_asgn {pre : List CStr} {f0 : Frame} (hpre : argcFrame pre = .ok (some (pre.length, f0))) {t : Hdr}
    (ht : findTmpl t.name = some t) (hp : t.parser = .fields) (hw : t.name ≠ c!"help") (he : EndsLast f0 t.name)
    {lead : List CStr} (hl : Lead lead) {as : List (CStr × CStr)} {rest : List CStr}
    (hlen : (pre ++ t.name :: (lead ++ (asgnWords as ++ rest))).length ≤ frameStackMax) :
    (∀ r, argcFrame (pre ++ t.name :: (lead ++ (asgnWords as ++ rest))) = .ok (some r) → PlainFields t as →
      (∀ f ∈ t.fields, f.name ≠ c!"help") → ∀ a ∈ as, GoodAsgn t a) ∧
    ((∀ a ∈ as, GoodAsgn t a) → lead ≠ [] ∨ as ≠ [] → argcFrame (pre ++ t.name :: (lead ++ (asgnWords as ++ rest))) =
      afterAsgn f0 (assignAll (leadHdr lead t) as) rest >>= fun o =>
        .ok (liftA (pre.length + 1 + lead.length + 2 * as.length)
          (f0.hasMask || (!lead.isEmpty || as.any (fun a => isIgn a.2))) o)) := by
  have hl1 : ¬ (pre ++ t.name :: (lead ++ (asgnWords as ++ rest))).length > frameStackMax := by omega
  have hlp : ¬ pre.length > frameStackMax := by simp only [List.length_append] at hlen; omega
  unfold argcFrame at hpre
  rw [if_neg hlp] at hpre
  have hc := afl_cont (r := t.name :: (lead ++ (asgnWords as ++ rest)))
    (fuel' := (pre ++ t.name :: (lead ++ (asgnWords as ++ rest))).length) hpre (by simp) (Nat.le_refl _) (by simp)
    (by intro w tl e; cases e; exact he)
  have hstk : f0.stack.length < frameStackMax := by
    obtain ⟨_, _, _, _, hs, e1, e2⟩ := afl_mono hpre
    rw [e1]
    simp only [List.nil_append, List.length_append, List.length_cons] at hlen ⊢
    omega
  have hpush : pushHdr frameStackMax f0 t = .ok { f0 with stack := f0.stack ++ [hdrCopy t] } := by
    unfold pushHdr; rw [if_pos hstk]
  have hmain : argcFrame (pre ++ t.name :: (lead ++ (asgnWords as ++ rest))) =
      parseFieldsLoop (asgnWords as ++ rest).length (leadHdr lead t) (f0.hasMask || !lead.isEmpty) lead.length (asgnWords as ++ rest) >>= fun o =>
        match o with
        | none => .ok none
        | some (n, h, m) => argcFrameLoop frameStackMax (lead ++ (asgnWords as ++ rest)).length
            { stack := f0.stack ++ [h], padding := f0.padding, hasMask := m } (pre.length + 1 + n) ((lead ++ (asgnWords as ++ rest)).drop n) := by
    unfold argcFrame
    rw [if_neg hl1, hc, List.length_cons, afl_step, if_neg hw, ht]
    simp only
    rw [hpush, Out.ok_bind]
    unfold runHdrParser
    simp only [hp]
    rw [lead_step hl _ _ _ ign_not_help, bind_assoc]
    congr 1; funext o
    rcases o with _ | ⟨n, h, m⟩ <;> rfl
  rw [hmain]
  constructor
  · intro r hr hpl hh
    rw [Out.bind_eq_ok] at hr
    obtain ⟨o, h1, h2⟩ := hr
    cases o with
    | none => simp at h2
    | some x => exact pfl_words_good hpl hh (leadHdr_core lead t) (Nat.le_refl _) ⟨x, h1⟩
  · intro hg hne
    have hpos : 0 < lead.length + 2 * as.length := by
      rcases hne with hne | hne
      · have := List.length_pos_iff.mpr hne; omega
      · have := List.length_pos_iff.mpr hne; omega
    rw [pfl_words hg (leadHdr_core lead t) (Nat.le_refl _)]
    have e : lead.length + 2 * as.length = 1 + (lead.length + 2 * as.length - 1) := by omega
    rw [e, pfl_lift _ _ _ 1 _ rest (Or.inl (by omega))]
    unfold afterAsgn
    simp only [bind_assoc]
    have hmono := @pfl_mono rest.length (assignAll (leadHdr lead t) as)
    generalize hX : parseFieldsLoop rest.length (assignAll (leadHdr lead t) as) false 1 rest = X
    cases X with
    | ub u => rfl
    | abort => rfl
    | exit c => rfl
    | ok o =>
      rcases o with _ | ⟨n, h, m'⟩
      · simp [liftF, liftA]
      · have hn := (hmono hX).1
        simp only [Out.ok_bind, liftF, Option.map_some]
        have hdrop : (lead ++ (asgnWords as ++ rest)).drop (n + (lead.length + 2 * as.length - 1)) = rest.drop (n - 1) := by
          rw [← List.append_assoc, List.drop_append, List.drop_eq_nil_of_le (by
            simp only [List.length_append, words_length]; omega), List.nil_append]
          congr 1
          simp only [List.length_append, words_length]; omega
        have hpos' : pre.length + 1 + (n + (lead.length + 2 * as.length - 1)) =
            (n - 1) + (pre.length + 1 + lead.length + 2 * as.length) := by omega
        rw [hdrop, hpos']
        have l1 := afl_lift frameStackMax (lead ++ (asgnWords as ++ rest)).length { stack := f0.stack ++ [h], padding := f0.padding, hasMask := m' }
          (f0.hasMask || !lead.isEmpty || as.any (fun a => isIgn a.2) || m') (n - 1)
          (pre.length + 1 + lead.length + 2 * as.length) (rest.drop (n - 1))
        have l2 := afl_lift frameStackMax rest.length { stack := f0.stack ++ [h], padding := f0.padding, hasMask := m' } m' (n - 1) 0
          (rest.drop (n - 1))
        simp only [Nat.add_zero] at l1 l2
        rw [l1, l2, bind_assoc]
        rw [afl_fuel (fuel' := rest.length) (by simp only [List.length_append, List.length_drop]; omega)
          (by simp only [List.length_drop]; omega)]
        congr 1; funext o
        rw [Out.ok_bind, liftA_liftA, Nat.zero_add, Bool.or_assoc f0.hasMask]

/-! ## Behind the assignments -/

theorem pfl_stop {fuel : Nat} {h : Hdr} {m : Bool} {r : List CStr} {i : Nat} (hi : 0 < i)
    (hr : Starts (fun w => w ≠ c!"help" ∧ findField h w = none) r) : parseFieldsLoop fuel h m i r = .ok (some (i, h, m)) := by
  cases fuel with
  | zero => rfl
  | succ fuel =>
    cases r with
    | nil => rfl
    | cons w tl =>
      obtain ⟨h1, h2⟩ := hr w tl rfl
      unfold parseFieldsLoop
      simp only
      rw [if_neg h1, if_neg (by omega), h2]

/-! ## Where parsing stops -/

theorem pfl_stops {fuel : Nat} {h h' : Hdr} {m m' : Bool} {i n : Nat} {argv : List CStr} (hf : argv.length ≤ fuel)
    (hr : parseFieldsLoop fuel h m i argv = .ok (some (n, h', m'))) :
    ∀ w, argv[n - i]? = some w → w ≠ c!"help" ∧ findField h' w = none := by
  induction fuel generalizing h m i argv with
  | zero =>
    have : argv = [] := List.eq_nil_of_length_eq_zero (by omega)
    subst this; simp
  | succ fuel ih =>
    cases argv with
    | nil => simp
    | cons x rest =>
      have hmono : ∀ {fuel h m i argv}, parseFieldsLoop fuel h m i argv = .ok (some (n, h', m')) → i ≤ n := fun e => (pfl_mono e).1
      unfold parseFieldsLoop at hr
      simp only at hr
      simp only [List.length_cons] at hf
      split at hr
      · simp at hr
      · rename_i hx
        split at hr
        · have := hmono hr
          have h2 := ih (by omega) hr
          have e : n - i = n - (i + 1) + 1 := by omega
          rw [e]; simpa using h2
        · split at hr
          · rename_i hn
            simp only [Out.ok.injEq, Option.some.injEq, Prod.mk.injEq] at hr
            obtain ⟨rfl, rfl, rfl⟩ := hr
            simp only [Nat.sub_self, List.getElem?_cons_zero, Option.some.injEq]
            rintro w rfl
            exact ⟨hx, hn⟩
          · cases rest with
            | nil => simp at hr
            | cons v rest' =>
              simp only at hr
              simp only [List.length_cons] at hf
              split at hr
              · have := hmono hr
                have h2 := ih (by omega) hr
                have e : n - i = n - (i + 2) + 2 := by omega
                rw [e]; simpa using h2
              split at hr
              · simp at hr
              split at hr
              · rw [Out.bind_eq_ok] at hr; obtain ⟨⟨h2, cnt⟩, _, hr⟩ := hr
                simp only at hr
                split at hr
                · rename_i hc
                  have := hmono hr
                  have h3 := ih (by simp only [List.length_drop, List.length_cons]; omega) hr
                  have e : n - i = (n - (i + 1 + cnt) + cnt) + 1 := by omega
                  rw [e, List.getElem?_cons_succ]
                  rw [List.getElem?_drop] at h3
                  rw [Nat.add_comm]
                  exact h3
                · simp at hr
              · rw [Out.bind_eq_ok] at hr; obtain ⟨⟨h2, b⟩, _, hr⟩ := hr
                simp only at hr
                have := hmono hr
                have h2 := ih (by omega) hr
                have e : n - i = n - (i + 2) + 2 := by omega
                rw [e]; simpa using h2

theorem afl_stops {cap fuel : Nat} {f g : Frame} {i n : Nat} {argv : List CStr} (hf : argv.length ≤ fuel)
    (hl : ∀ h, f.stack.getLast? = some h → h.parser = .fields → ∀ w, argv[0]? = some w → findField h w = none)
    (hr : argcFrameLoop cap fuel f i argv = .ok (some (n, g))) :
    ∀ w, argv[n - i]? = some w → w ≠ c!"help" ∧ findTmpl w = none ∧
      ∀ h, g.stack.getLast? = some h → h.parser = .fields → findField h w = none := by
  induction fuel generalizing f i argv with
  | zero =>
    have : argv = [] := List.eq_nil_of_length_eq_zero (by omega)
    subst this; simp
  | succ fuel ih =>
    cases argv with
    | nil => simp
    | cons x rest =>
      simp only [List.length_cons] at hf
      rw [afl_step] at hr
      split at hr
      · simp at hr
      · rename_i hx
        split at hr
        · rename_i ht
          simp only [Out.ok.injEq, Option.some.injEq, Prod.mk.injEq] at hr
          obtain ⟨rfl, rfl⟩ := hr
          simp only [Nat.sub_self, List.getElem?_cons_zero, Option.some.injEq]
          rintro w rfl
          exact ⟨hx, ht, fun h e1 e2 => hl h e1 e2 x rfl⟩
        · rename_i t ht
          rw [Out.bind_eq_ok] at hr; obtain ⟨_, _, hr⟩ := hr
          rw [Out.bind_eq_ok] at hr; obtain ⟨o, h1, hr⟩ := hr
          cases o with
          | none => simp at hr
          | some p =>
            obtain ⟨k, hh, pad, m⟩ := p
            simp only at hr
            have hm := (afl_mono hr).1
            have := ih (f := ⟨f.stack ++ [hh], pad, m⟩) (by simp only [List.length_drop]; omega) (by
              intro h e1 e2 w hw
              simp only [List.getLast?_append, List.getLast?_singleton, Option.some_or, Option.some.injEq] at e1
              subst e1
              have hsp := sig_parser (runHdrParser_mono h1).2
              unfold runHdrParser at h1
              rw [hsp] at e2
              simp only [e2] at h1
              rw [Out.bind_eq_ok] at h1; obtain ⟨o, h1, h3⟩ := h1
              rcases o with _ | ⟨a, b, c⟩
              · simp at h3
              · simp only [Out.ok.injEq, Option.some.injEq, Prod.mk.injEq] at h3
                obtain ⟨rfl, rfl, _⟩ := h3
                refine (pfl_stops (Nat.le_refl _) h1 w ?_).2
                rw [List.getElem?_drop] at hw
                exact hw) hr
            have e : n - i = k + (n - (i + 1 + k)) + 1 := by omega
            rw [e, List.getElem?_cons_succ, ← List.getElem?_drop]
            exact this

/-! ## Capacity of the stack -/

theorem afl_cap {cap cap' fuel : Nat} {f : Frame} {i : Nat} {argv : List CStr} (h : f.stack.length + fuel ≤ cap)
    (h' : f.stack.length + fuel ≤ cap') : argcFrameLoop cap fuel f i argv = argcFrameLoop cap' fuel f i argv := by
  induction fuel generalizing f i argv with
  | zero => rfl
  | succ fuel ih =>
    cases argv with
    | nil => rw [afl_nil, afl_nil]
    | cons w rest =>
      rw [afl_step, afl_step]
      split
      · rfl
      · split
        · rfl
        · unfold pushHdr
          rw [if_pos (by omega), if_pos (by omega), Out.ok_bind, Out.ok_bind]
          congr 1; funext o
          rcases o with _ | ⟨n, h, pad, m⟩
          · rfl
          · exact ih (by simp only [List.length_append, List.length_cons, List.length_nil]; omega)
              (by simp only [List.length_append, List.length_cons, List.length_nil]; omega)

/-! ## Assigned fields by position -/

theorem updFirst_get {α : Type} (p : α → Bool) (g : α → α) (l : List α) (i : Nat) :
    (updFirst p g l)[i]? = l[i]?.map (fun x => if p x = true ∧ ∀ j < i, ∀ y, l[j]? = some y → p y = false then g x else x) := by
  induction l generalizing i with
  | nil => simp [updFirst]
  | cons a l ih =>
    by_cases hp : p a = true
    · rw [updFirst, if_pos hp]
      cases i with
      | zero => simp [hp]
      | succ i =>
        simp only [List.getElem?_cons_succ]
        cases hl : l[i]? with
        | none => rfl
        | some x =>
          simp only [Option.map_some, Option.some.injEq]
          rw [if_neg]
          rintro ⟨_, h⟩
          have := h 0 (by omega) a rfl
          rw [hp] at this; cases this
    · rw [updFirst, if_neg hp]
      cases i with
      | zero => simp [hp]
      | succ i =>
        simp only [List.getElem?_cons_succ]
        rw [ih]
        cases hl : l[i]? with
        | none => rfl
        | some x =>
          simp only [Option.map_some, Option.some.injEq]
          congr 1
          simp only [eq_iff_iff, and_congr_right_iff]
          intro _
          constructor
          · intro h j hj y hy
            cases j with
            | zero => simp at hy; subst hy; simpa using hp
            | succ j => exact h j (by omega) y (by simpa using hy)
          · intro h j hj y hy
            exact h (j + 1) (by omega) y (by simpa using hy)

/-- No earlier field of `h` has the name of field `i`. -/
def FirstAt (h : Hdr) (i : Nat) (n : CStr) : Prop := ∀ j < i, ∀ y, h.fields[j]? = some y → y.name ≠ n

theorem assign1_get (h : Hdr) (a : CStr × CStr) (i : Nat) (x : Field) (hx : h.fields[i]? = some x) :
    ((FirstAt h i x.name ∧ a.1 = x.name) → (assign1 h a).fields[i]? = some (setBy a.2 x)) ∧
    (¬ (FirstAt h i x.name ∧ a.1 = x.name) → (assign1 h a).fields[i]? = some x) := by
  unfold assign1 updField
  simp only
  rw [updFirst_get, hx, Option.map_some]
  constructor
  · rintro ⟨h1, h2⟩
    rw [if_pos]
    refine ⟨by simp [h2], fun j hj y hy => ?_⟩
    have := h1 j hj y hy
    simpa [h2] using this
  · intro h1
    rw [if_neg]
    rintro ⟨h2, h3⟩
    have h2' : x.name = a.1 := by simpa using h2
    refine h1 ⟨fun j hj y hy => ?_, h2'.symm⟩
    have := h3 j hj y hy
    rw [h2']
    simpa using this

theorem firstAt_assign1 (h : Hdr) (a : CStr × CStr) (i : Nat) (n : CStr) : FirstAt (assign1 h a) i n ↔ FirstAt h i n := by
  have key : ∀ j : Nat, ((assign1 h a).fields[j]?.map Field.name) = h.fields[j]?.map Field.name := by
    intro j
    cases hx : h.fields[j]? with
    | none =>
      unfold assign1 updField
      simp only
      rw [updFirst_get, hx]; rfl
    | some x =>
      by_cases hc : FirstAt h j x.name ∧ a.1 = x.name
      · rw [(assign1_get h a j x hx).1 hc]; rfl
      · rw [(assign1_get h a j x hx).2 hc]
  constructor
  · intro hf j hj y hy
    have := key j
    rw [hy] at this
    cases hz : (assign1 h a).fields[j]? with
    | none => rw [hz] at this; simp at this
    | some z =>
      rw [hz] at this
      simp only [Option.map_some, Option.some.injEq] at this
      rw [← this]; exact hf j hj z hz
  · intro hf j hj y hy
    have := key j
    rw [hy] at this
    cases hz : h.fields[j]? with
    | none => rw [hz] at this; simp at this
    | some z =>
      rw [hz] at this
      simp only [Option.map_some, Option.some.injEq] at this
      rw [this]; exact hf j hj z hz

theorem assignAll_get (as : List (CStr × CStr)) (h : Hdr) (i : Nat) (x : Field) (hx : h.fields[i]? = some x) :
    (assignAll h as).fields[i]? = some x ∧ (¬ FirstAt h i x.name ∨ lastOf as x.name = none) ∨
    FirstAt h i x.name ∧ ∃ v, lastOf as x.name = some v ∧ (assignAll h as).fields[i]? = some (setBy v x) := by
  induction as generalizing h x with
  | nil => exact Or.inl ⟨hx, Or.inr rfl⟩
  | cons a as ih =>
    rw [lastOf_cons]
    by_cases hc : FirstAt h i x.name ∧ a.1 = x.name
    · have e := (assign1_get h a i x hx).1 hc
      have e2 := ih (assign1 h a) (setBy a.2 x) e
      rw [show (setBy a.2 x).name = x.name from rfl, firstAt_assign1] at e2
      rcases e2 with ⟨e2, e3⟩ | ⟨e2, v, e3, e4⟩
      · rcases e3 with e3 | e3
        · exact absurd hc.1 e3
        · exact Or.inr ⟨hc.1, a.2, by rw [e3]; simp [hc.2], e2⟩
      · exact Or.inr ⟨hc.1, v, by rw [e3]; rfl, e4⟩
    · have e := (assign1_get h a i x hx).2 hc
      have e2 := ih (assign1 h a) x e
      rw [firstAt_assign1] at e2
      rcases e2 with ⟨e2, e3⟩ | ⟨e2, v, e3, e4⟩
      · refine Or.inl ⟨e2, ?_⟩
        by_cases hfi : FirstAt h i x.name
        · right
          rcases e3 with e3 | e3
          · exact absurd hfi e3
          · rw [e3, if_neg (fun q => hc ⟨hfi, q⟩)]; rfl
        · exact Or.inl hfi
      · exact Or.inr ⟨e2, v, by rw [e3]; rfl, e4⟩

/-! ## The mask flag stays -/

theorem pfl_flag {fuel : Nat} {h h' : Hdr} {m' : Bool} {i n : Nat} {argv : List CStr}
    (hr : parseFieldsLoop fuel h true i argv = .ok (some (n, h', m'))) : m' = true := by
  rw [← Nat.add_zero i, pfl_lift _ _ true i 0 argv (Or.inr rfl), Out.bind_eq_ok] at hr
  obtain ⟨o, _, h2⟩ := hr
  rcases o with _ | ⟨a, b, c⟩
  · simp [liftF] at h2
  · simp only [liftF, Option.map_some, Bool.true_or, Out.ok.injEq, Option.some.injEq, Prod.mk.injEq] at h2
    exact h2.2.2.symm

theorem afl_flag {cap fuel : Nat} {f g : Frame} {i n : Nat} {argv : List CStr} (hm : f.hasMask = true)
    (hr : argcFrameLoop cap fuel f i argv = .ok (some (n, g))) : g.hasMask = true := by
  have := afl_lift cap fuel f true i 0 argv
  have e : { f with hasMask := true } = f := by rw [← hm]
  rw [e, Nat.add_zero, hr] at this
  have := this.symm
  rw [Out.bind_eq_ok] at this
  obtain ⟨o, _, h2⟩ := this
  rcases o with _ | ⟨a, b⟩
  · simp [liftA] at h2
  · simp only [liftA, Option.map_some, Bool.true_or, Out.ok.injEq, Option.some.injEq, Prod.mk.injEq] at h2
    rw [← h2.2]

end Ef
