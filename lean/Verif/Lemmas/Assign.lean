import Verif.Lemmas.Local
import Verif.Spec.Assign

/-! # Plain field assignments -/

namespace Ef

open Spec

theorem isIgn_iff (w : CStr) : isIgn w = true ↔ IgnWord w := by
  unfold isIgn IgnWord; simp

theorem updField_collapse (h : Hdr) (n : CStr) (g1 g2 g : Field → Field) (hn : ∀ f, (g1 f).name = f.name)
    (hc : ∀ f, g2 (g1 f) = g f) : updField (updField h n g1) n g2 = updField h n g := by
  unfold updField
  simp only [Hdr.mk.injEq, true_and, and_true]
  induction h.fields with
  | nil => rfl
  | cons f fs ih =>
    by_cases hf : (f.name == n) = true
    · simp [updFirst, hf, hn, hc]
    · simp [updFirst, hf, ih]

theorem updField_comm (h : Hdr) {n1 n2 : CStr} (g1 g2 : Field → Field) (h1 : ∀ f, (g1 f).name = f.name)
    (h2 : ∀ f, (g2 f).name = f.name) (hne : n1 ≠ n2) :
    updField (updField h n1 g1) n2 g2 = updField (updField h n2 g2) n1 g1 := by
  unfold updField
  simp only [Hdr.mk.injEq, true_and, and_true]
  induction h.fields with
  | nil => rfl
  | cons f fs ih =>
    by_cases hf1 : f.name = n1
    · have hf2 : ¬ f.name = n2 := fun e => hne (hf1.symm.trans e)
      simp [updFirst, hf1, hne, h1]
    · by_cases hf2 : f.name = n2
      · have : ¬ n2 = n1 := fun e => hne e.symm
        simp [updFirst, hf2, this, h2]
      · simp [updFirst, hf1, hf2, ih]

/-- The value text of a plain field, parsed. -/
def parseVal (f : Field) (v : CStr) : Out (Option Buf) :=
  match f.parser with
  | .none => parseBytes v (bitToByte f.width)
  | .coapCode => .ok (coapParseCode v)
  | .opcUint16 => opcParseUint16 v
  | .fieldHex => parseFieldHex v (bitToByte f.width)
  | _ => .ok none

/-- The value text is accepted. -/
def GoodVal (f : Field) (v : CStr) : Prop := isIgn v = true ∨ (v ≠ c!"help" ∧ ∃ b, parseVal f v = .ok b)

/-- The value, or nothing. -/
def okVal (o : Out (Option Buf)) : Option Buf :=
  match o with
  | .ok b => b
  | _ => none

/-- Effect of an assignment on its field. -/
def setBy (v : CStr) (f : Field) : Field :=
  { f with val := if isIgn v then none else okVal (parseVal f v), rxSkip := isIgn v }

/-- Effect of an assignment. -/
def assign1 (h : Hdr) (a : CStr × CStr) : Hdr := updField h a.1 (setBy a.2)

/-- Effect of assignments. -/
def assignAll (h : Hdr) (as : List (CStr × CStr)) : Hdr := as.foldl assign1 h

theorem runFieldParser_plain {h : Hdr} {f : Field} {v : CStr} (h1 : f.parser ≠ .coapToken) (h2 : f.parser ≠ .profinetData) :
    runFieldParser h f v = parseVal f v >>= fun b => .ok (h, b) := by
  unfold runFieldParser parseVal
  cases hp : f.parser <;> simp_all <;> rfl

theorem pfl_assign_step {fuel : Nat} {h : Hdr} {m : Bool} {i : Nat} {n v : CStr} {rest : List CStr} {f : Field}
    (hh : n ≠ c!"help") (hi : isIgn n = false) (hf : findField h n = some f) (hmu : f.multi = .none)
    (h1 : f.parser ≠ .coapToken) (h2 : f.parser ≠ .profinetData) :
    (GoodVal f v → parseFieldsLoop (fuel + 1) h m i (n :: v :: rest) =
      parseFieldsLoop fuel (assign1 h (n, v)) (m || isIgn v) (i + 2) rest) ∧
    ((∃ x, parseFieldsLoop (fuel + 1) h m i (n :: v :: rest) = .ok (some x)) → GoodVal f v) := by
  have hstep : parseFieldsLoop (fuel + 1) h m i (n :: v :: rest) =
      if isIgn v then
        parseFieldsLoop fuel (updField (setVal h n none) n (fun f => { f with rxSkip := true })) true (i + 2) rest
      else if v = c!"help" then .ok none
      else parseVal f v >>= fun b =>
        parseFieldsLoop fuel (updField (setVal h n none) n (fun f => { f with val := b, rxSkip := false })) m (i + 2) rest := by
    conv => lhs; unfold parseFieldsLoop
    simp only [hf]
    rw [if_neg hh, if_neg (by simp [hi])]
    split
    · rfl
    · split
      · rfl
      · rw [if_neg (by simp [hmu]), runFieldParser_plain h1 h2, bind_assoc]
        cases parseVal f v <;> rfl
  have hupd : ∀ g2 : Field → Field, ∀ k : Hdr, (∀ f', f'.parser = f.parser → f'.width = f.width →
      g2 { f' with val := none } = setBy v f') → findField k n = some f →
      updField (setVal k n none) n g2 = updField k n (setBy v) := by
    intro g2 k hg hk
    unfold setVal updField
    simp only [Hdr.mk.injEq, true_and, and_true]
    unfold findField at hk
    revert hk
    induction k.fields with
    | nil => intro _; rfl
    | cons f' fs ih =>
      intro hk
      by_cases hf' : (f'.name == n) = true
      · rw [List.find?_cons, hf'] at hk
        simp only [Option.some.injEq] at hk
        have := hg f' (by rw [hk]) (by rw [hk])
        simp [updFirst, hf', this]
      · simp only [Bool.not_eq_true] at hf'
        rw [List.find?_cons, hf'] at hk
        simp [updFirst, hf', ih hk]
  constructor
  · intro hg
    rw [hstep]
    unfold assign1
    rcases hg with hg | ⟨hg1, b, hg2⟩
    · rw [if_pos hg, hupd _ h ?_ hf, hg, Bool.or_true]
      intro f' _ _
      simp [setBy, hg]
    · by_cases hv : isIgn v = true
      · rw [if_pos hv, hupd _ h ?_ hf, hv, Bool.or_true]
        intro f' _ _
        simp [setBy, hv]
      · rw [if_neg hv, if_neg hg1, hg2, Out.ok_bind, hupd _ h ?_ hf]
        · simp only [Bool.not_eq_true] at hv
          rw [hv, Bool.or_false]
        · intro f' e1 e2
          have : parseVal f' v = .ok b := by rw [← hg2]; unfold parseVal; rw [e1, e2]
          simp only [Bool.not_eq_true] at hv
          simp [setBy, hv, this, okVal]
  · rintro ⟨x, hx⟩
    rw [hstep] at hx
    split at hx
    · rename_i hv; exact Or.inl hv
    · split at hx
      · simp at hx
      · rename_i hv
        rw [Out.bind_eq_ok] at hx
        obtain ⟨b, hb, _⟩ := hx
        exact Or.inr ⟨hv, b, hb⟩

/-! ## Lists of assignments -/

/-- A field without value and skip mark. -/
def core (f : Field) : Field := { f with val := none, rxSkip := false }

/-- `h` is `t` with other values and marks. -/
def SameCore (t h : Hdr) : Prop := h.fields.map core = t.fields.map core

theorem SameCore.find {t h : Hdr} (hs : SameCore t h) {n : CStr} {f : Field} (hf : findField t n = some f) :
    ∃ g, findField h n = some g ∧ core g = core f := by
  unfold SameCore at hs
  unfold findField at *
  revert hs hf
  generalize h.fields = hs
  generalize t.fields = ts
  intro e hf
  induction ts generalizing hs with
  | nil => simp at hf
  | cons a ts ih =>
    cases hs with
    | nil => simp at e
    | cons b hs =>
      simp only [List.map_cons, List.cons.injEq] at e
      have hn : b.name = a.name := by have := congrArg Field.name e.1; exact this
      by_cases ha : (a.name == n) = true
      · rw [List.find?_cons, ha] at hf
        simp only [Option.some.injEq] at hf
        refine ⟨b, ?_, by rw [e.1, hf]⟩
        rw [List.find?_cons, hn, ha]
      · simp only [Bool.not_eq_true] at ha
        rw [List.find?_cons, ha] at hf
        rw [List.find?_cons, hn, ha]
        exact ih hs e.2 hf

theorem SameCore.upd {t h : Hdr} (hs : SameCore t h) (n : CStr) (g : Field → Field) (hg : ∀ f, core (g f) = core f) :
    SameCore t (updField h n g) := by
  unfold SameCore at *
  rw [← hs]
  unfold updField
  simp only
  induction h.fields with
  | nil => rfl
  | cons f fs ih =>
    unfold updFirst
    split
    · simp [hg]
    · simp [ih]

theorem SameCore.assign1 {t h : Hdr} (hs : SameCore t h) (a : CStr × CStr) : SameCore t (assign1 h a) :=
  hs.upd _ _ (fun _ => rfl)

theorem SameCore.assignAll {t h : Hdr} (hs : SameCore t h) (as : List (CStr × CStr)) : SameCore t (assignAll h as) := by
  induction as generalizing h with
  | nil => exact hs
  | cons a as ih => exact ih (hs.assign1 a)

theorem SameCore.skipAll {t h : Hdr} (hs : SameCore t h) : SameCore t (skipAll h) := by
  unfold SameCore Ef.skipAll at *
  rw [← hs]
  simp only [List.map_map]
  congr 1

/-- The assignment is accepted by headers made from `t`. -/
def GoodAsgn (t : Hdr) (a : CStr × CStr) : Prop :=
  a.1 ≠ c!"help" ∧ isIgn a.1 = false ∧ ∃ f, findField t a.1 = some f ∧ f.multi = .none ∧ f.parser ≠ .coapToken ∧
    f.parser ≠ .profinetData ∧ GoodVal f a.2

theorem goodVal_core {f g : Field} (e : core g = core f) {v : CStr} : GoodVal g v ↔ GoodVal f v := by
  have e1 : g.parser = f.parser := by have := congrArg Field.parser e; exact this
  have e2 : g.width = f.width := by have := congrArg Field.width e; exact this
  unfold GoodVal parseVal
  rw [e1, e2]

theorem words_length (as : List (CStr × CStr)) : (asgnWords as).length = 2 * as.length := by
  induction as with
  | nil => rfl
  | cons a as ih =>
    obtain ⟨n, v⟩ := a
    simp only [asgnWords, List.length_cons, ih]; omega

theorem pfl_fuel {h : Hdr} {m : Bool} {i : Nat} {argv : List CStr} {fuel fuel' : Nat} (hl : argv.length ≤ fuel)
    (hl' : argv.length ≤ fuel') : parseFieldsLoop fuel h m i argv = parseFieldsLoop fuel' h m i argv := by
  induction fuel generalizing fuel' h m i argv with
  | zero =>
    have : argv = [] := List.eq_nil_of_length_eq_zero (by omega)
    subst this
    cases fuel' <;> rfl
  | succ fuel ih =>
    cases argv with
    | nil => cases fuel' <;> rfl
    | cons w rest =>
      cases fuel' with
      | zero => simp at hl'
      | succ fuel' =>
        simp only [List.length_cons] at hl hl'
        unfold parseFieldsLoop
        simp only
        split
        · rfl
        split
        · exact ih (by omega) (by omega)
        split
        · rfl
        · cases rest with
          | nil => rfl
          | cons v rest =>
            simp only [List.length_cons] at hl hl'
            simp only
            split
            · exact ih (by omega) (by omega)
            split
            · rfl
            split
            · congr 1; funext p
              split
              · exact ih (by simp only [List.length_drop, List.length_cons]; omega)
                  (by simp only [List.length_drop, List.length_cons]; omega)
              · rfl
            · congr 1; funext p
              exact ih (by omega) (by omega)

/-- Accepted assignments are carried out one after the other. -/
theorem pfl_words {t : Hdr} {as : List (CStr × CStr)} (hg : ∀ a ∈ as, GoodAsgn t a) {h : Hdr} (hs : SameCore t h)
    {m : Bool} {i : Nat} {r : List CStr} {fuel : Nat} (hf : (asgnWords as ++ r).length ≤ fuel) :
    parseFieldsLoop fuel h m i (asgnWords as ++ r) =
      parseFieldsLoop r.length (assignAll h as) (m || as.any (fun a => isIgn a.2)) (i + 2 * as.length) r := by
  induction as generalizing h m i fuel with
  | nil =>
    simp only [asgnWords, List.nil_append, List.any_nil, Bool.or_false, List.length_nil, Nat.mul_zero, Nat.add_zero]
    exact pfl_fuel (by simpa [asgnWords] using hf) (by simp)
  | cons a as ih =>
    obtain ⟨n, v⟩ := a
    obtain ⟨g1, g2, f, g3, g4, g5, g6, g7⟩ := hg (n, v) (by simp)
    obtain ⟨g, q1, q2⟩ := hs.find g3
    have e1 : g.parser = f.parser := by have := congrArg Field.parser q2; exact this
    have e2 : g.multi = f.multi := by have := congrArg Field.multi q2; exact this
    cases fuel with
    | zero => simp [asgnWords] at hf
    | succ fuel =>
      simp only [asgnWords, List.cons_append]
      rw [(pfl_assign_step g1 g2 q1 (by rw [e2]; exact g4) (by rw [e1]; exact g5) (by rw [e1]; exact g6)).1
        ((goodVal_core q2).2 g7)]
      rw [ih (fun a ha => hg a (by simp [ha])) (hs.assign1 _) (by
        simp only [asgnWords, List.cons_append, List.length_cons] at hf; omega)]
      simp only [List.any_cons, Bool.or_assoc, List.length_cons]
      have : i + 2 + 2 * as.length = i + 2 * (as.length + 1) := by omega
      rw [this]
      rfl

/-- If parsing succeeds, all assignments were accepted. -/
theorem pfl_words_good {t : Hdr} {as : List (CStr × CStr)} (hp : PlainFields t as)
    (hh : ∀ f ∈ t.fields, f.name ≠ c!"help") {h : Hdr} (hs : SameCore t h) {m : Bool} {i : Nat} {r : List CStr}
    {fuel : Nat} (hf : (asgnWords as ++ r).length ≤ fuel)
    (hr : ∃ x, parseFieldsLoop fuel h m i (asgnWords as ++ r) = .ok (some x)) : ∀ a ∈ as, GoodAsgn t a := by
  induction as generalizing h m i fuel with
  | nil => simp
  | cons a as ih =>
    obtain ⟨n, v⟩ := a
    obtain ⟨g2, f, g3, g4, g5, g6⟩ := hp (n, v) (by simp)
    have g1 : n ≠ c!"help" := by
      obtain ⟨hm, hn⟩ := find_mem g3
      intro e
      exact hh f hm (by simpa [e] using hn)
    have g2' : isIgn n = false := by
      cases he : isIgn n with
      | false => rfl
      | true => exact absurd ((isIgn_iff n).1 he) g2
    obtain ⟨g, q1, q2⟩ := hs.find (f := f) (n := n) g3
    have e1 : g.parser = f.parser := by have := congrArg Field.parser q2; exact this
    have e2 : g.multi = f.multi := by have := congrArg Field.multi q2; exact this
    cases fuel with
    | zero => simp [asgnWords] at hf
    | succ fuel =>
      simp only [asgnWords, List.cons_append] at hr
      have hst := pfl_assign_step (fuel := fuel) (h := h) (m := m) (i := i) (v := v) (rest := asgnWords as ++ r) g1 g2' q1
        (by rw [e2]; exact g4) (by rw [e1]; exact g5) (by rw [e1]; exact g6)
      have hgv := hst.2 hr
      rw [hst.1 hgv] at hr
      have hrec := ih (fun a ha => hp a (by simp [ha])) (hs.assign1 (n, v)) (by
        simp only [asgnWords, List.cons_append, List.length_cons] at hf; omega) hr
      intro a ha
      rcases List.mem_cons.mp ha with rfl | ha
      · exact ⟨g1, g2', f, g3, g4, g5, g6, (goodVal_core q2).1 hgv⟩
      · exact hrec a ha

/-! ## Only the last assignment of a field matters -/

theorem assign1_same (h : Hdr) (n v1 v2 : CStr) : assign1 (assign1 h (n, v1)) (n, v2) = assign1 h (n, v2) :=
  updField_collapse h n _ _ _ (fun _ => rfl) (fun _ => rfl)

theorem assign1_comm (h : Hdr) (a b : CStr × CStr) (hne : a.1 ≠ b.1) :
    assign1 (assign1 h a) b = assign1 (assign1 h b) a :=
  updField_comm h _ _ (fun _ => rfl) (fun _ => rfl) hne

theorem assignAll_again (h : Hdr) (a : CStr × CStr) (as : List (CStr × CStr)) (ha : a.1 ∈ as.map (·.1)) :
    assignAll (assign1 h a) as = assignAll h as := by
  induction as generalizing h with
  | nil => simp at ha
  | cons b as ih =>
    obtain ⟨n, v⟩ := a
    obtain ⟨n', v'⟩ := b
    simp only [assignAll, List.foldl_cons]
    by_cases hb : n = n'
    · subst hb
      rw [assign1_same]
    · have := ih (assign1 h (n', v')) (by
        simp only [List.map_cons, List.mem_cons] at ha
        rcases ha with ha | ha
        · exact absurd ha hb
        · exact ha)
      simp only [assignAll] at this
      rw [assign1_comm h (n, v) (n', v') hb]
      exact this

theorem assignAll_keepLast (h : Hdr) (as : List (CStr × CStr)) : assignAll h (keepLast as) = assignAll h as := by
  induction as generalizing h with
  | nil => rfl
  | cons a as ih =>
    unfold keepLast
    split
    · rename_i ha
      rw [ih, ← assignAll_again h a as ha]; rfl
    · exact ih (assign1 h a)

theorem keepLast_sub {as : List (CStr × CStr)} {a : CStr × CStr} (h : a ∈ keepLast as) : a ∈ as := by
  induction as with
  | nil => simp [keepLast] at h
  | cons b as ih =>
    unfold keepLast at h
    split at h
    · exact List.mem_cons_of_mem _ (ih h)
    · rcases List.mem_cons.mp h with rfl | h
      · simp
      · exact List.mem_cons_of_mem _ (ih h)

theorem keepLast_nil {as : List (CStr × CStr)} (h : keepLast as = []) : as = [] := by
  induction as with
  | nil => rfl
  | cons b as ih =>
    unfold keepLast at h
    split at h
    · rename_i hb
      rw [ih h] at hb
      simp at hb
    · simp at h

theorem keepLast_length (as : List (CStr × CStr)) : (keepLast as).length ≤ as.length := by
  induction as with
  | nil => simp [keepLast]
  | cons b as ih =>
    unfold keepLast
    split <;> simp only [List.length_cons] <;> omega

theorem assignAll_append (h : Hdr) (as bs : List (CStr × CStr)) :
    assignAll h (as ++ bs) = assignAll (assignAll h as) bs := by simp [assignAll]

theorem assignAll_perm {as bs : List (CStr × CStr)} (hp : as.Perm bs) (hn : (as.map (·.1)).Nodup) (h : Hdr) :
    assignAll h as = assignAll h bs := by
  induction hp generalizing h with
  | nil => rfl
  | cons a _ ih =>
    simp only [List.map_cons, List.nodup_cons] at hn
    exact ih hn.2 (assign1 h a)
  | swap a b l =>
    simp only [List.map_cons, List.nodup_cons, List.mem_cons, not_or] at hn
    simp only [assignAll, List.foldl_cons]
    rw [assign1_comm h b a hn.1.1]
  | trans h1 _ ih1 ih2 =>
    rw [ih1 hn, ih2 ((h1.map _).nodup_iff.mp hn)]

/-! ## Marks -/

theorem find_updField (h : Hdr) (n m : CStr) (g : Field → Field) (hg : ∀ f, (g f).name = f.name) :
    findField (updField h n g) m = (findField h m).map (fun f => if m = n then g f else f) := by
  unfold findField updField
  simp only
  induction h.fields with
  | nil => rfl
  | cons f fs ih =>
    by_cases hf : (f.name == n) = true
    · rw [updFirst, if_pos hf, List.find?_cons, List.find?_cons, hg]
      have hfn : f.name = n := by simpa using hf
      by_cases hm : (f.name == m) = true
      · have : m = n := by rw [← hfn]; simpa using (by simpa using hm : f.name = m).symm
        rw [hm]; simp [this]
      · simp only [Bool.not_eq_true] at hm
        rw [hm]
        have : ¬ m = n := by intro e; rw [e, ← hfn] at hm; simp at hm
        simp only [this, if_false, Option.map_id']
    · rw [updFirst, if_neg hf, List.find?_cons, List.find?_cons]
      by_cases hm : (f.name == m) = true
      · rw [hm]
        have : ¬ m = n := by intro e; rw [e] at hm; exact hf hm
        simp [this]
      · simp only [Bool.not_eq_true] at hm
        rw [hm]
        exact ih

theorem lastOf_cons (a : CStr × CStr) (as : List (CStr × CStr)) (n : CStr) :
    lastOf (a :: as) n = (lastOf as n).or (if a.1 = n then some a.2 else none) := by
  unfold lastOf
  rw [List.reverse_cons, List.find?_append]
  cases h : as.reverse.find? (fun a => a.1 == n) with
  | some x => simp
  | none =>
    simp only [Option.none_or, Option.map_none, List.find?_cons, List.find?_nil]
    by_cases e : a.1 = n
    · simp [e]
    · have : (a.1 == n) = false := by simpa using e
      simp [e, this]

theorem assignAll_find (as : List (CStr × CStr)) (h : Hdr) (n : CStr) (g : Field) (hg : findField (assignAll h as) n = some g) :
    ∃ f, findField h n = some f ∧ core g = core f ∧
      (match lastOf as n with | some v => g = setBy v f | none => g = f) := by
  induction as generalizing h with
  | nil => exact ⟨g, hg, rfl, rfl⟩
  | cons a as ih =>
    obtain ⟨f1, e1, e2, e3⟩ := ih (assign1 h a) hg
    unfold assign1 at e1
    rw [find_updField] at e1
    · cases hf : findField h n with
      | none => rw [hf] at e1; simp at e1
      | some f =>
        rw [hf] at e1
        simp only [Option.map_some, Option.some.injEq] at e1
        refine ⟨f, rfl, ?_, ?_⟩
        · rw [e2, ← e1]; split <;> rfl
        · rw [lastOf_cons]
          cases hl : lastOf as n with
          | some v =>
            rw [hl] at e3
            simp only [Option.some_or] at e3 ⊢
            rw [e3, ← e1]
            split <;> rfl
          | none =>
            rw [hl] at e3
            simp only [Option.none_or] at e3 ⊢
            rw [e3, ← e1]
            by_cases ha : a.1 = n
            · simp [ha]
            · have : ¬ n = a.1 := fun e => ha e.symm
              simp [ha, this]
    · exact fun _ => rfl

end Ef
