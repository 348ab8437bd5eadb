import Verif.Spec.Relax
import Verif.Spec.Match
import Verif.Lemmas.Built
import Verif.Lemmas.Assign
import Verif.Lemmas.AssignFrame
import Verif.Lemmas.Shadow

/-! # Two frames whose words differ in ignored values -/

namespace Ef

open Spec

/-! ## Pointwise related lists -/

inductive All2 {α : Type} (R : α → α → Prop) : List α → List α → Prop
  | nil : All2 R [] []
  | cons {x y l k} : R x y → All2 R l k → All2 R (x :: l) (y :: k)

namespace All2

variable {α : Type} {R : α → α → Prop}

theorem length {l k : List α} (h : All2 R l k) : l.length = k.length := by
  induction h with
  | nil => rfl
  | cons _ _ ih => simp [ih]

theorem append {l k l' k' : List α} (h : All2 R l k) (h' : All2 R l' k') : All2 R (l ++ l') (k ++ k') := by
  induction h with
  | nil => exact h'
  | cons r _ ih => exact .cons r ih

theorem reverse {l k : List α} (h : All2 R l k) : All2 R l.reverse k.reverse := by
  induction h with
  | nil => exact .nil
  | cons r _ ih => simp only [List.reverse_cons]; exact ih.append (.cons r .nil)

theorem split {l k : List α} (h : All2 R l k) {p : List α} {y : α} {s : List α} (e : k = p ++ y :: s) :
    ∃ p' x s', l = p' ++ x :: s' ∧ All2 R p' p ∧ R x y ∧ All2 R s' s := by
  induction h generalizing p with
  | nil => simp at e
  | @cons x y' l k r _ ih =>
    cases p with
    | nil =>
      simp only [List.nil_append, List.cons.injEq] at e
      obtain ⟨rfl, rfl⟩ := e
      exact ⟨[], _, _, rfl, .nil, r, by assumption⟩
    | cons z p =>
      simp only [List.cons_append, List.cons.injEq] at e
      obtain ⟨rfl, e⟩ := e
      obtain ⟨p', x', s', e1, e2, e3, e4⟩ := ih e
      exact ⟨x :: p', x', s', by rw [e1]; rfl, .cons r e2, e3, e4⟩

theorem refl {l : List α} (h : ∀ x ∈ l, R x x) : All2 R l l := by
  induction l with
  | nil => exact .nil
  | cons x l ih => exact .cons (h x (by simp)) (ih fun y hy => h y (List.mem_cons_of_mem _ hy))

end All2

/-! ## Related fields and headers -/

/-- Fields of a sent frame and of an expectation. -/
structure RelF (p q : Field) : Prop where
  name : q.name = p.name
  width : q.width = p.width
  offset : q.offset = p.offset
  dflt : q.dflt = p.dflt
  parser : q.parser = p.parser
  multi : q.multi = p.multi
  val : q.rxSkip = false → q.val = p.val
  plain : p.multi = .none ∧ p.parser ≠ .coapToken ∧ p.parser ≠ .profinetData

/-- Headers of a sent frame and of an expectation. -/
structure RelH (x y : Hdr) : Prop where
  name : y.name = x.name
  type : y.type = x.type
  size : y.size = x.size
  fill : y.fill = x.fill
  parser : y.parser = x.parser
  fields : All2 RelF x.fields y.fields

theorem RelH.refl {x : Hdr} (h : ∀ p ∈ x.fields, p.multi = .none ∧ p.parser ≠ .coapToken ∧ p.parser ≠ .profinetData) :
    RelH x x :=
  ⟨rfl, rfl, rfl, rfl, rfl, All2.refl fun p hp => ⟨rfl, rfl, rfl, rfl, rfl, rfl, fun _ => rfl, h p hp⟩⟩

theorem relF_find {l k : List Field} (h : All2 RelF l k) (n : CStr) :
    (l.find? (fun f => f.name == n) = none ∧ k.find? (fun f => f.name == n) = none) ∨
    ∃ p q, l.find? (fun f => f.name == n) = some p ∧ k.find? (fun f => f.name == n) = some q ∧ RelF p q := by
  induction h with
  | nil => exact Or.inl ⟨rfl, rfl⟩
  | @cons p q l k r _ ih =>
    rw [List.find?_cons, List.find?_cons, r.name]
    cases p.name == n with
    | true => exact Or.inr ⟨p, q, rfl, rfl, r⟩
    | false => exact ih

theorem relH_find {x y : Hdr} (h : RelH x y) (n : CStr) :
    (findField x n = none ∧ findField y n = none) ∨
    ∃ p q, findField x n = some p ∧ findField y n = some q ∧ RelF p q := relF_find h.fields n

theorem relF_upd {l k : List Field} (h : All2 RelF l k) (n : CStr) (g g' : Field → Field)
    (hg : ∀ p q, l.find? (fun f => f.name == n) = some p → k.find? (fun f => f.name == n) = some q → RelF p q →
      RelF (g p) (g' q)) :
    All2 RelF (updFirst (fun f => f.name == n) g l) (updFirst (fun f => f.name == n) g' k) := by
  induction h with
  | nil => exact .nil
  | @cons p q l k r hlk ih =>
    unfold updFirst
    rw [List.find?_cons, List.find?_cons, r.name] at hg
    rw [r.name]
    cases hn : p.name == n with
    | true =>
      rw [hn] at hg
      simp only [if_true]
      exact .cons (hg p q rfl rfl r) hlk
    | false =>
      rw [hn] at hg
      simp only [Bool.false_eq_true, if_false]
      exact .cons r (ih hg)

theorem relH_upd {x y : Hdr} (h : RelH x y) (n : CStr) (g g' : Field → Field)
    (hg : ∀ p q, findField x n = some p → findField y n = some q → RelF p q → RelF (g p) (g' q)) :
    RelH (updField x n g) (updField y n g') :=
  ⟨h.name, h.type, h.size, h.fill, h.parser, relF_upd h.fields n g g' hg⟩

theorem relH_skipAll {x y : Hdr} (h : RelH x y) : RelH (skipAll x) (skipAll y) := by
  refine ⟨h.name, h.type, h.size, h.fill, h.parser, ?_⟩
  have key : ∀ {l k : List Field}, All2 RelF l k →
      All2 RelF (l.map (fun f => { f with rxSkip := true })) (k.map (fun f => { f with rxSkip := true })) := by
    intro l k h
    induction h with
    | nil => exact .nil
    | cons r _ ih =>
      exact .cons ⟨r.name, r.width, r.offset, r.dflt, r.parser, r.multi, fun e => by simp at e, r.plain⟩ ih
  exact key h.fields

theorem rfp_plain {h h1 : Hdr} {f : Field} {s : CStr} {b : Option Buf}
    (hp : f.parser ≠ .coapToken ∧ f.parser ≠ .profinetData) (e : runFieldParser h f s = .ok (h1, b)) :
    h1 = h ∧ ∀ (h' : Hdr) (q : Field), q.parser = f.parser → q.width = f.width → runFieldParser h' q s = .ok (h', b) := by
  unfold runFieldParser at e
  cases hf : f.parser with
  | none =>
    rw [hf] at e
    simp only at e
    rw [Out.bind_eq_ok] at e
    obtain ⟨v, e1, e2⟩ := e
    simp only [Out.ok.injEq, Prod.mk.injEq] at e2
    obtain ⟨rfl, rfl⟩ := e2
    refine ⟨rfl, fun h' q hq hw => ?_⟩
    unfold runFieldParser
    rw [hq, hw]
    simp only
    rw [e1]; rfl
  | coapCode =>
    rw [hf] at e
    simp only [Out.ok.injEq, Prod.mk.injEq] at e
    obtain ⟨rfl, rfl⟩ := e
    refine ⟨rfl, fun h' q hq hw => ?_⟩
    unfold runFieldParser
    rw [hq]
  | coapToken => exact absurd hf hp.1
  | profinetData => exact absurd hf hp.2
  | opcUint16 =>
    rw [hf] at e
    simp only at e
    rw [Out.bind_eq_ok] at e
    obtain ⟨v, e1, e2⟩ := e
    simp only [Out.ok.injEq, Prod.mk.injEq] at e2
    obtain ⟨rfl, rfl⟩ := e2
    refine ⟨rfl, fun h' q hq hw => ?_⟩
    unfold runFieldParser
    rw [hq]
    simp only
    rw [e1]; rfl
  | fieldHex =>
    rw [hf] at e
    simp only at e
    rw [Out.bind_eq_ok] at e
    obtain ⟨v, e1, e2⟩ := e
    simp only [Out.ok.injEq, Prod.mk.injEq] at e2
    obtain ⟨rfl, rfl⟩ := e2
    refine ⟨rfl, fun h' q hq hw => ?_⟩
    unfold runFieldParser
    rw [hq, hw]
    simp only
    rw [e1]; rfl

/-! ## Parsing in step -/

/-- Nothing, or the name of a header. -/
def HeadOk (ws : List CStr) : Prop := ∀ w tl, ws = w :: tl → ∃ t ∈ hdrTmpls, t.name = w

theorem HeadOk.cons {w : CStr} {tl : List CStr} (h : HeadOk (w :: tl)) (hw : ∀ t ∈ hdrTmpls, t.name ≠ w) : False := by
  obtain ⟨t, ht, e⟩ := h w tl rfl
  exact hw t ht e

theorem ign_no_tmpl : ∀ t ∈ hdrTmpls, t.name ≠ c!"ign" := by decide +kernel

theorem ign_no_field : ∀ t ∈ hdrTmpls, ∀ f ∈ t.fields, f.name ≠ c!"ign" := by decide +kernel

/-- Names of the fields of a header come from some template. -/
def Known (h : Hdr) : Prop := ∀ f ∈ h.fields, ∃ t ∈ hdrTmpls, ∃ g ∈ t.fields, g.name = f.name

theorem findField_unknown {h : Hdr} {n : CStr} (hk : Known h) (hn : ∀ t ∈ hdrTmpls, ∀ f ∈ t.fields, f.name ≠ n) :
    findField h n = none := by
  unfold findField
  rw [List.find?_eq_none]
  intro f hf e
  obtain ⟨t, ht, g, hg, e1⟩ := hk f hf
  exact hn t ht g hg (by rw [e1]; simpa using e)

theorem known_upd {h : Hdr} (n : CStr) (g : Field → Field) (hg : ∀ f, (g f).name = f.name) (hk : Known h) :
    Known (updField h n g) := by
  have key : ∀ l : List Field, ∀ f ∈ updFirst (fun f => f.name == n) g l, ∃ f0 ∈ l, f0.name = f.name := by
    intro l
    induction l with
    | nil => intro f hf; simp [updFirst] at hf
    | cons x l ih =>
      intro f hf
      unfold updFirst at hf
      split at hf
      · rw [List.mem_cons] at hf
        rcases hf with rfl | hf
        · exact ⟨x, by simp, (hg x).symm⟩
        · exact ⟨f, by simp [hf], rfl⟩
      · rw [List.mem_cons] at hf
        rcases hf with rfl | hf
        · exact ⟨f, by simp, rfl⟩
        · obtain ⟨f0, h0, e0⟩ := ih f hf
          exact ⟨f0, by simp [h0], e0⟩
  intro f hf
  obtain ⟨f0, h0, e0⟩ := key h.fields f hf
  rw [← e0]
  exact hk f0 h0

theorem known_skipAll {h : Hdr} (hk : Known h) : Known (skipAll h) := by
  intro f hf
  unfold skipAll at hf
  simp only [List.mem_map] at hf
  obtain ⟨f0, h0, rfl⟩ := hf
  exact hk f0 h0

theorem known_rel {x y : Hdr} (h : RelH x y) (hk : Known x) : Known y := by
  have key : ∀ {l k : List Field}, All2 RelF l k → ∀ q ∈ k, ∃ p ∈ l, p.name = q.name := by
    intro l k h
    induction h with
    | nil => simp
    | @cons p q l k r _ ih =>
      intro q' hq
      rw [List.mem_cons] at hq
      rcases hq with rfl | hq
      · exact ⟨p, by simp, r.name.symm⟩
      · obtain ⟨p', hp, e⟩ := ih q' hq
        exact ⟨p', by simp [hp], e⟩
  intro q hq
  obtain ⟨p, hp, e⟩ := key h.fields q hq
  rw [← e]
  exact hk p hp

theorem segment_help : c!"help" ∈ segmentWords := by decide

/-- One step of field parsing at a field with a plain parser. -/
theorem pfl_field {fuel : Nat} {h : Hdr} {m : Bool} {i : Nat} {w v : CStr} {rest : List CStr} {f : Field}
    (hh : w ≠ c!"help") (hi : ¬ (isIgn w = true ∧ i = 0)) (hf : findField h w = some f) (hm : f.multi = .none) :
    parseFieldsLoop (fuel + 1) h m i (w :: v :: rest) =
      if isIgn v then
        parseFieldsLoop fuel (updField (setVal h w none) w (fun f => { f with rxSkip := true })) true (i + 2) rest
      else if v = c!"help" then .ok none
      else runFieldParser (setVal h w none) f v >>= fun r =>
        parseFieldsLoop fuel (updField r.1 w (fun f => { f with val := r.2, rxSkip := false })) m (i + 2) rest := by
  conv => lhs; unfold parseFieldsLoop
  simp only [if_neg hh, if_neg hi, hf, hm]
  split
  · rfl
  · split
    · rfl
    · simp

theorem lock_fields (fuel' : Nat) : ∀ (fuel : Nat) (h h' : Hdr) (m m' : Bool) (i i' : Nat) (ws ws' : List CStr)
    (n n' : Nat) (h1 h1' : Hdr) (m1 m1' : Bool), Relaxed ws ws' → RelH h h' → Known h → (i' = 0 → i = 0) →
    ws.length ≤ fuel → ws'.length ≤ fuel' →
    parseFieldsLoop fuel h m i ws = .ok (some (n, h1, m1)) →
    parseFieldsLoop fuel' h' m' i' ws' = .ok (some (n', h1', m1')) →
    HeadOk (ws.drop (n - i)) → HeadOk (ws'.drop (n' - i')) →
    Relaxed (ws.drop (n - i)) (ws'.drop (n' - i')) ∧ RelH h1 h1' := by
  induction fuel' with
  | zero =>
    intro fuel h h' m m' i i' ws ws' n n' h1 h1' m1 m1' hr hR hk hi hf hf' e e' o o'
    have hw' : ws' = [] := List.eq_nil_of_length_eq_zero (by omega)
    subst hw'
    cases hr
    have := pfl_mono e
    have h2 := pfl_mono e'
    simp only [List.length_nil] at this h2
    have e1 : n = i := by omega
    have e2 : n' = i' := by omega
    subst e1 e2
    rw [(this.2.2.2 rfl).1, (h2.2.2.2 rfl).1]
    exact ⟨by simpa using Relaxed.nil, hR⟩
  | succ fuel' ih =>
    intro fuel h h' m m' i i' ws ws' n n' h1 h1' m1 m1' hr hR hk hi hf hf' e e' o o'
    cases hr with
    | nil =>
      have := pfl_mono e
      have h2 := pfl_mono e'
      simp only [List.length_nil] at this h2
      have e1 : n = i := by omega
      have e2 : n' = i' := by omega
      subst e1 e2
      rw [(this.2.2.2 rfl).1, (h2.2.2.2 rfl).1]
      exact ⟨by simpa using Relaxed.nil, hR⟩
    | @extra a b nn hn hr =>
      -- the expectation has an additional pair `nn ign`
      simp only [List.length_cons] at hf'
      have hh : nn ≠ c!"help" := by rintro rfl; exact hn.2.1 segment_help
      have hni : findField h' nn = none → False := by
        intro hnone
        by_cases hii : isIgn nn = true ∧ i' = 0
        · -- `ign ign` is not possible: the second word would end the header
          unfold parseFieldsLoop at e'
          simp only [if_neg hh, if_pos hii] at e'
          cases fuel' with
          | zero => omega
          | succ fuel' =>
            unfold parseFieldsLoop at e'
            have hk' : Known (skipAll h') := known_skipAll (known_rel hR hk)
            have hx : findField (skipAll h') c!"ign" = none := findField_unknown hk' ign_no_field
            simp only [hx] at e'
            rw [if_neg (by decide), if_neg (by omega)] at e'
            simp only [Out.ok.injEq, Option.some.injEq, Prod.mk.injEq] at e'
            obtain ⟨rfl, _, _⟩ := e'
            have : (i' + 1 - i') = 1 := by omega
            rw [this] at o'
            exact o'.cons ign_no_tmpl
        · unfold parseFieldsLoop at e'
          simp only [if_neg hh, if_neg hii, hnone] at e'
          simp only [Out.ok.injEq, Option.some.injEq, Prod.mk.injEq] at e'
          obtain ⟨rfl, _, _⟩ := e'
          rw [Nat.sub_self] at o'
          exact o'.cons hn.1
      rcases relH_find hR nn with ⟨_, hnone⟩ | ⟨p, q, hp, hq, hpq⟩
      · exact absurd (hni hnone) id
      · by_cases hii : isIgn nn = true ∧ i' = 0
        · exfalso
          have : nn = c!"ign" ∨ nn = c!"ignore" := by
            have := hii.1
            unfold isIgn at this
            simpa using this
          unfold parseFieldsLoop at e'
          simp only [if_neg hh, if_pos hii] at e'
          cases fuel' with
          | zero => omega
          | succ fuel' =>
            unfold parseFieldsLoop at e'
            have hk' : Known (skipAll h') := known_skipAll (known_rel hR hk)
            have hx : findField (skipAll h') c!"ign" = none := findField_unknown hk' ign_no_field
            simp only [hx] at e'
            rw [if_neg (by decide), if_neg (by omega)] at e'
            simp only [Out.ok.injEq, Option.some.injEq, Prod.mk.injEq] at e'
            obtain ⟨rfl, _, _⟩ := e'
            have : (i' + 1 - i') = 1 := by omega
            rw [this] at o'
            exact o'.cons ign_no_tmpl
        · rw [pfl_field hh hii hq (by rw [hpq.multi, hpq.plain.1]), if_pos (by decide)] at e'
          have hm := (pfl_mono e').1
          have ed : (nn :: c!"ign" :: b).drop (n' - i') = b.drop (n' - (i' + 2)) := by
            have : n' - i' = n' - (i' + 2) + 2 := by omega
            rw [this]; rfl
          rw [ed] at o' ⊢
          refine ih fuel h _ m _ i (i' + 2) ws b n n' h1 h1' m1 m1' hr ?_ hk (by omega) hf (by omega) e e' o o'
          have hR0 := relH_upd (relH_upd hR nn id (fun f => { f with val := none, rxSkip := true }) (fun p q _ _ r =>
            ⟨r.name, r.width, r.offset, r.dflt, r.parser, r.multi, fun e => by simp at e, r.plain⟩)) nn id id
            (fun p q _ _ r => r)
          have i1 : updField h nn id = h := by
            unfold updField
            have : ∀ l : List Field, updFirst (fun f => f.name == nn) id l = l := by
              intro l
              induction l with
              | nil => rfl
              | cons x l ih => unfold updFirst; split <;> simp [ih]
            rw [this]
          have i2 : ∀ l : List Field, updFirst (fun f => f.name == nn) id l = l := by
            intro l
            induction l with
            | nil => rfl
            | cons x l ih => unfold updFirst; split <;> simp [ih]
          have i3 : ∀ l : List Field, updFirst (fun f => f.name == nn) (fun f => { f with rxSkip := true })
              (updFirst (fun f => f.name == nn) (fun f => { f with val := none }) l) =
              updFirst (fun f => f.name == nn) (fun f => { f with val := none, rxSkip := true }) l := by
            intro l
            induction l with
            | nil => rfl
            | cons x l ih =>
              by_cases hx : (x.name == nn) = true
              · simp [updFirst, hx]
              · simp [updFirst, hx, ih]
          rw [i1, i1] at hR0
          unfold setVal
          unfold updField at hR0 ⊢
          simp only [i2] at hR0
          simp only [i3]
          exact hR0
    | @value a b nn v hn hv hr =>
      simp only [List.length_cons] at hf hf'
      have hh : nn ≠ c!"help" := by rintro rfl; exact hn.2.1 segment_help
      cases fuel with
      | zero => omega
      | succ fuel =>
      have noign : isIgn nn = true → i' = 0 → False := by
        intro h0 hii
        unfold parseFieldsLoop at e'
        simp only [if_neg hh, if_pos (And.intro h0 hii)] at e'
        cases fuel' with
        | zero => omega
        | succ fuel' =>
          unfold parseFieldsLoop at e'
          have hk' : Known (skipAll h') := known_skipAll (known_rel hR hk)
          have hx : findField (skipAll h') c!"ign" = none := findField_unknown hk' ign_no_field
          simp only [hx] at e'
          rw [if_neg (by decide), if_neg (by omega)] at e'
          simp only [Out.ok.injEq, Option.some.injEq, Prod.mk.injEq] at e'
          obtain ⟨rfl, _, _⟩ := e'
          have : (i' + 1 - i') = 1 := by omega
          rw [this] at o'
          exact o'.cons ign_no_tmpl
      have hii : ¬ (isIgn nn = true ∧ i' = 0) := fun c => noign c.1 c.2
      rcases relH_find hR nn with ⟨_, hnone⟩ | ⟨p, q, hp, hq, hpq⟩
      · exfalso
        unfold parseFieldsLoop at e'
        simp only [if_neg hh, if_neg hii, hnone] at e'
        simp only [Out.ok.injEq, Option.some.injEq, Prod.mk.injEq] at e'
        obtain ⟨rfl, _, _⟩ := e'
        rw [Nat.sub_self] at o'
        exact o'.cons hn.1
      · have hni : ¬ (isIgn nn = true ∧ i = 0) := by
          rintro ⟨c1, c2⟩
          have : nn = c!"ign" ∨ nn = c!"ignore" := by
            unfold isIgn at c1
            simpa using c1
          -- no field is called like that
          have hf0 : findField h nn = none := by
            refine findField_unknown hk ?_
            rcases this with rfl | rfl
            · exact ign_no_field
            · exact absurd rfl hn.2.2
          rw [hf0] at hp; simp at hp
        rw [pfl_field hh hii hq (by rw [hpq.multi, hpq.plain.1]), if_pos (by decide)] at e'
        rw [pfl_field hh hni hp hpq.plain.1] at e
        have hm' := (pfl_mono e').1
        have ed' : (nn :: c!"ign" :: b).drop (n' - i') = b.drop (n' - (i' + 2)) := by
          have : n' - i' = n' - (i' + 2) + 2 := by omega
          rw [this]; rfl
        rw [ed'] at o' ⊢
        split at e
        · have hm := (pfl_mono e).1
          have ed : (nn :: v :: a).drop (n - i) = a.drop (n - (i + 2)) := by
            have : n - i = n - (i + 2) + 2 := by omega
            rw [this]; rfl
          rw [ed] at o ⊢
          refine ih fuel _ _ _ _ (i + 2) (i' + 2) a b n n' h1 h1' m1 m1' hr ?_ ?_ (by omega) (by omega) (by omega) e e' o o'
          · refine relH_upd (relH_upd hR nn _ _ ?_) nn _ _ ?_
            · intro p q _ _ r
              exact ⟨r.name, r.width, r.offset, r.dflt, r.parser, r.multi, fun _ => rfl, r.plain⟩
            · intro p q _ _ r
              exact ⟨r.name, r.width, r.offset, r.dflt, r.parser, r.multi, fun c => by simp at c, r.plain⟩
          · exact known_upd _ _ (fun _ => rfl) (known_upd _ _ (fun _ => rfl) hk)
        split at e
        · simp at e
        · rw [Out.bind_eq_ok] at e
          obtain ⟨⟨h2, bv⟩, e1, e⟩ := e
          simp only at e
          obtain ⟨rfl, _⟩ := rfp_plain hpq.plain.2 e1
          have hm := (pfl_mono e).1
          have ed : (nn :: v :: a).drop (n - i) = a.drop (n - (i + 2)) := by
            have : n - i = n - (i + 2) + 2 := by omega
            rw [this]; rfl
          rw [ed] at o ⊢
          refine ih fuel _ _ _ _ (i + 2) (i' + 2) a b n n' h1 h1' m1 m1' hr ?_ ?_ (by omega) (by omega) (by omega) e e' o o'
          · refine relH_upd (relH_upd hR nn _ _ ?_) nn _ _ ?_
            · intro p q _ _ r
              exact ⟨r.name, r.width, r.offset, r.dflt, r.parser, r.multi, fun _ => rfl, r.plain⟩
            · intro p q _ _ r
              exact ⟨r.name, r.width, r.offset, r.dflt, r.parser, r.multi, fun c => by simp at c, r.plain⟩
          · exact known_upd _ _ (fun _ => rfl) (known_upd _ _ (fun _ => rfl) hk)
    | @word a b w hwi hr =>
      simp only [List.length_cons] at hf hf'
      cases fuel with
      | zero => omega
      | succ fuel =>
      by_cases hh : w = c!"help"
      · unfold parseFieldsLoop at e
        simp [hh] at e
      by_cases hii' : isIgn w = true ∧ i' = 0
      · have hii : isIgn w = true ∧ i = 0 := ⟨hii'.1, hi hii'.2⟩
        unfold parseFieldsLoop at e e'
        simp only [if_neg hh, if_pos hii, if_pos hii'] at e e'
        have hm := (pfl_mono e).1
        have hm' := (pfl_mono e').1
        have ed : (w :: a).drop (n - i) = a.drop (n - (i + 1)) := by
          have : n - i = n - (i + 1) + 1 := by omega
          rw [this]; rfl
        have ed' : (w :: b).drop (n' - i') = b.drop (n' - (i' + 1)) := by
          have : n' - i' = n' - (i' + 1) + 1 := by omega
          rw [this]; rfl
        rw [ed] at o ⊢
        rw [ed'] at o' ⊢
        exact ih fuel _ _ _ _ _ _ a b n n' h1 h1' m1 m1' hr (relH_skipAll hR) (known_skipAll hk) (by omega) (by omega) (by omega)
          e e' o o'
      rcases relH_find hR w with ⟨hn1, hn2⟩ | ⟨p, q, hp, hq, hpq⟩
      · -- the receiver's header ends here
        unfold parseFieldsLoop at e'
        simp only [if_neg hh, if_neg hii', hn2, Out.ok.injEq, Option.some.injEq, Prod.mk.injEq] at e'
        obtain ⟨rfl, rfl, rfl⟩ := e'
        rw [Nat.sub_self] at o' ⊢
        by_cases hii : isIgn w = true ∧ i = 0
        · exfalso
          have : w = c!"ign" ∨ w = c!"ignore" := by
            have := hii.1
            unfold isIgn at this
            simpa using this
          rcases this with rfl | rfl
          · exact o'.cons ign_no_tmpl
          · exact absurd rfl hwi
        · unfold parseFieldsLoop at e
          simp only [if_neg hh, if_neg hii, hn1, Out.ok.injEq, Option.some.injEq, Prod.mk.injEq] at e
          obtain ⟨rfl, rfl, rfl⟩ := e
          rw [Nat.sub_self]
          exact ⟨.word w hwi hr, hR⟩
      · have hii : ¬ (isIgn w = true ∧ i = 0) := by
          rintro ⟨c1, c2⟩
          have : w = c!"ign" ∨ w = c!"ignore" := by
            unfold isIgn at c1
            simpa using c1
          have hf0 : findField h w = none := by
            refine findField_unknown hk ?_
            rcases this with rfl | rfl
            · exact ign_no_field
            · exact absurd rfl hwi
          rw [hf0] at hp; simp at hp
        -- the value
        cases hr with
        | nil =>
          unfold parseFieldsLoop at e
          simp [if_neg hii, hp] at e
        | @extra a b nn hn hr =>
          exfalso
          simp only [List.length_cons] at hf'
          rw [pfl_field hh hii' hq (by rw [hpq.multi, hpq.plain.1])] at e'
          have stop : ∀ (hx : Hdr) (mx : Bool) (hkx : Known hx),
              parseFieldsLoop fuel' hx mx (i' + 2) (c!"ign" :: b) = .ok (some (n', h1', m1')) → False := by
            intro hx mx hkx ex
            cases fuel' with
            | zero => omega
            | succ fuel' =>
              unfold parseFieldsLoop at ex
              simp only [findField_unknown hkx ign_no_field] at ex
              rw [if_neg (by decide), if_neg (by omega)] at ex
              simp only [Out.ok.injEq, Option.some.injEq, Prod.mk.injEq] at ex
              obtain ⟨rfl, _, _⟩ := ex
              have : (i' + 2 - i') = 2 := by omega
              rw [this] at o'
              exact o'.cons ign_no_tmpl
          have hk' := known_rel hR hk
          split at e'
          · exact stop _ _ (by unfold setVal; exact known_upd _ _ (fun _ => rfl) (known_upd _ _ (fun _ => rfl) hk')) e'
          split at e'
          · simp at e'
          · rw [Out.bind_eq_ok] at e'
            obtain ⟨⟨h2, bv⟩, e1, e'⟩ := e'
            simp only at e'
            obtain ⟨rfl, _⟩ := rfp_plain (by rw [hpq.parser]; exact hpq.plain.2) e1
            exact stop _ _ (by unfold setVal; exact known_upd _ _ (fun _ => rfl) (known_upd _ _ (fun _ => rfl) hk')) e'
        | @value a b nn v hn hv hr =>
          exfalso
          simp only [List.length_cons] at hf
          rw [pfl_field hh hii hp hpq.plain.1] at e
          have stop : ∀ (hx : Hdr) (mx : Bool) (hkx : Known hx),
              parseFieldsLoop fuel hx mx (i + 2) (v :: a) = .ok (some (n, h1, m1)) → False := by
            intro hx mx hkx ex
            cases fuel with
            | zero => omega
            | succ fuel =>
              unfold parseFieldsLoop at ex
              simp only [findField_unknown hkx hv.2] at ex
              rw [if_neg (by rintro rfl; exact hv.1.2.1 segment_help), if_neg (by omega)] at ex
              simp only [Out.ok.injEq, Option.some.injEq, Prod.mk.injEq] at ex
              obtain ⟨rfl, _, _⟩ := ex
              have : (i + 2 - i) = 2 := by omega
              rw [this] at o
              exact o.cons hv.1.1
          split at e
          · exact stop _ _ (by unfold setVal; exact known_upd _ _ (fun _ => rfl) (known_upd _ _ (fun _ => rfl) hk)) e
          split at e
          · simp at e
          · rw [Out.bind_eq_ok] at e
            obtain ⟨⟨h2, bv⟩, e1, e⟩ := e
            simp only at e
            obtain ⟨rfl, _⟩ := rfp_plain hpq.plain.2 e1
            exact stop _ _ (by unfold setVal; exact known_upd _ _ (fun _ => rfl) (known_upd _ _ (fun _ => rfl) hk)) e
        | @word a b v _ hr =>
          simp only [List.length_cons] at hf hf'
          rw [pfl_field hh hii' hq (by rw [hpq.multi, hpq.plain.1])] at e'
          rw [pfl_field hh hii hp hpq.plain.1] at e
          have go : ∀ (hx hx' : Hdr) (mx mx' : Bool), RelH hx hx' → Known hx →
              parseFieldsLoop fuel hx mx (i + 2) a = .ok (some (n, h1, m1)) →
              parseFieldsLoop fuel' hx' mx' (i' + 2) b = .ok (some (n', h1', m1')) →
              Relaxed ((w :: v :: a).drop (n - i)) ((w :: v :: b).drop (n' - i')) ∧ RelH h1 h1' := by
            intro hx hx' mx mx' hRx hkx ex ex'
            have hm := (pfl_mono ex).1
            have hm' := (pfl_mono ex').1
            have ed : (w :: v :: a).drop (n - i) = a.drop (n - (i + 2)) := by
              have : n - i = n - (i + 2) + 2 := by omega
              rw [this]; rfl
            have ed' : (w :: v :: b).drop (n' - i') = b.drop (n' - (i' + 2)) := by
              have : n' - i' = n' - (i' + 2) + 2 := by omega
              rw [this]; rfl
            rw [ed] at o ⊢
            rw [ed'] at o' ⊢
            exact ih fuel _ _ _ _ _ _ a b n n' h1 h1' m1 m1' hr hRx hkx (by omega) (by omega) (by omega) ex ex' o o'
          have hR1 : RelH (setVal h w none) (setVal h' w none) := relH_upd hR w _ _ (fun p q _ _ r =>
            ⟨r.name, r.width, r.offset, r.dflt, r.parser, r.multi, fun _ => rfl, r.plain⟩)
          have hk1 : Known (setVal h w none) := known_upd _ _ (fun _ => rfl) hk
          split at e
          · rename_i hv
            rw [if_pos hv] at e'
            refine go _ _ _ _ ?_ ?_ e e'
            · exact relH_upd hR1 w _ _ (fun p q _ _ r =>
                ⟨r.name, r.width, r.offset, r.dflt, r.parser, r.multi, fun c => by simp at c, r.plain⟩)
            · exact known_upd _ _ (fun _ => rfl) hk1
          rename_i hv
          rw [if_neg hv] at e'
          split at e
          · simp at e
          rename_i hv2
          rw [if_neg hv2, Out.bind_eq_ok] at e'
          rw [Out.bind_eq_ok] at e
          obtain ⟨⟨h2, bv⟩, e1, e⟩ := e
          obtain ⟨⟨h2', bv'⟩, e1', e'⟩ := e'
          simp only at e e'
          obtain ⟨rfl, hsame⟩ := rfp_plain hpq.plain.2 e1
          rw [hsame _ q hpq.parser hpq.width] at e1'
          simp only [Out.ok.injEq, Prod.mk.injEq] at e1'
          obtain ⟨rfl, rfl⟩ := e1'
          refine go _ _ _ _ ?_ ?_ e e'
          · exact relH_upd hR1 w _ _ (fun p q _ _ r =>
              ⟨r.name, r.width, r.offset, r.dflt, r.parser, r.multi, fun _ => rfl, r.plain⟩)
          · exact known_upd _ _ (fun _ => rfl) hk1

/-! ### Payload -/

theorem pvb1_stops {w : CStr} {tl : List CStr} (h : w ∉ segmentWords) : parseVarBytes1 (w :: tl) = .ok .stop := by
  unfold segmentWords at h
  simp only [List.mem_cons, List.not_mem_nil, not_or, or_false] at h
  unfold parseVarBytes1
  simp [h]

theorem pvb1_hex (x : CStr) (a : List CStr) :
    parseVarBytes1 (c!"hex" :: x :: a) = parseVarBytesHex x 0 >>= fun o => .ok (Seg.ofOpt 2 o) := by
  unfold parseVarBytes1
  simp only
  rw [if_neg (by decide), if_pos trivial]

theorem pvb1_repeat (x y : CStr) (a : List CStr) :
    parseVarBytes1 (c!"repeat" :: x :: y :: a) = parseVarBytesRepeat x y >>= fun o => .ok (Seg.ofOpt 3 o) := by
  unfold parseVarBytes1
  simp only
  rw [if_neg (by decide), if_neg (by decide), if_neg (by decide), if_neg (by decide), if_pos trivial]

theorem pvb1_pattern (x y : CStr) (a : List CStr) :
    parseVarBytes1 (c!"pattern" :: x :: y :: a) = parseVarBytesPattern x y >>= fun o => .ok (Seg.ofOpt 3 o) := by
  unfold parseVarBytes1
  simp only
  rw [if_neg (by decide), if_neg (by decide), if_neg (by decide), if_neg (by decide), if_neg (by decide), if_pos trivial]

theorem pvb_stop {fuel : Nat} {w : CStr} {tl : List CStr} {i n : Nat} {acc r : Option Buf} (h : w ∉ segmentWords)
    (e : parseVarBytesLoop fuel (w :: tl) i acc = .ok (some (n, r))) : n = i ∧ r = acc := by
  cases fuel with
  | zero => simp [parseVarBytesLoop] at e; exact ⟨e.1.symm, e.2.symm⟩
  | succ fuel =>
    unfold parseVarBytesLoop at e
    rw [if_neg (by simp), pvb1_stops h, Out.ok_bind] at e
    simp only [Out.ok.injEq, Option.some.injEq, Prod.mk.injEq] at e
    exact ⟨e.1.symm, e.2.symm⟩

theorem ign_no_segment : c!"ign" ∉ segmentWords := by decide

/-- A segment is the same in both lists, or one of them stops behind it. -/
theorem lock_segment {ws ws' : List CStr} (hr : Relaxed ws ws') {b b' : Buf} {u u' : Nat}
    (e : parseVarBytes1 ws = .ok (.seg b u)) (e' : parseVarBytes1 ws' = .ok (.seg b' u')) :
    (u = u' ∧ b = b' ∧ Relaxed (ws.drop u) (ws'.drop u') ∧ 1 ≤ u) ∨
    (∃ v tl, ws.drop u = v :: tl ∧ FieldWord v) ∨ (∃ tl, ws'.drop u' = c!"ign" :: tl) := by
  cases hr with
  | nil => simp [parseVarBytes1] at e
  | extra hn _ => rw [pvb1_stops hn.2.1] at e'; simp at e'
  | value hn _ _ => rw [pvb1_stops hn.2.1] at e; simp at e
  | @word a c w _ hr =>
    by_cases h1 : w ∈ [c!"hex", c!"ascii", c!"ascii0"]
    · cases hr with
      | nil =>
        simp only [List.mem_cons, List.not_mem_nil, or_false] at h1
        rcases h1 with rfl | rfl | rfl <;> simp [parseVarBytes1] at e
      | @word a c x _ hr =>
        have h2 : parseVarBytes1 (w :: x :: a) = parseVarBytes1 (w :: x :: c) := by
          simp only [List.mem_cons, List.not_mem_nil, or_false] at h1
          rcases h1 with rfl | rfl | rfl <;> simp [parseVarBytes1]
        have hu : u = 2 := by
          simp only [List.mem_cons, List.not_mem_nil, or_false] at h1
          rcases h1 with rfl | rfl | rfl
          · rw [pvb1_hex, Out.bind_eq_ok] at e
            obtain ⟨o, _, e⟩ := e
            cases o <;> simp [Seg.ofOpt] at e
            exact e.2.symm
          · simp [parseVarBytes1] at e; exact e.2.symm
          · simp [parseVarBytes1] at e; exact e.2.symm
        rw [← h2, e] at e'
        simp only [Out.ok.injEq, Seg.seg.injEq] at e'
        obtain ⟨rfl, rfl⟩ := e'
        subst hu
        exact Or.inl ⟨rfl, rfl, hr, by omega⟩
      | @value a c x v hn hv hr =>
        have hu : u = 2 := by
          simp only [List.mem_cons, List.not_mem_nil, or_false] at h1
          rcases h1 with rfl | rfl | rfl
          · rw [pvb1_hex, Out.bind_eq_ok] at e
            obtain ⟨o, _, e⟩ := e
            cases o <;> simp [Seg.ofOpt] at e
            exact e.2.symm
          · simp [parseVarBytes1] at e; exact e.2.symm
          · simp [parseVarBytes1] at e; exact e.2.symm
        subst hu
        exact Or.inr (Or.inl ⟨v, _, rfl, hv.1⟩)
      | @extra _ c x hn hr =>
        have hu : u' = 2 := by
          simp only [List.mem_cons, List.not_mem_nil, or_false] at h1
          rcases h1 with rfl | rfl | rfl
          · rw [pvb1_hex, Out.bind_eq_ok] at e'
            obtain ⟨o, _, e'⟩ := e'
            cases o <;> simp [Seg.ofOpt] at e'
            exact e'.2.symm
          · simp [parseVarBytes1] at e'; exact e'.2.symm
          · simp [parseVarBytes1] at e'; exact e'.2.symm
        subst hu
        exact Or.inr (Or.inr ⟨_, rfl⟩)
    · by_cases h2 : w = c!"repeat" ∨ w = c!"pattern"
      · have hu : ∀ {x y : CStr} {tl : List CStr} {b : Buf} {u : Nat},
            parseVarBytes1 (w :: x :: y :: tl) = .ok (.seg b u) → u = 3 := by
          intro x y tl b u e
          rcases h2 with rfl | rfl
          · rw [pvb1_repeat, Out.bind_eq_ok] at e
            obtain ⟨o, _, e⟩ := e
            cases o <;> simp [Seg.ofOpt] at e
            exact e.2.symm
          · rw [pvb1_pattern, Out.bind_eq_ok] at e
            obtain ⟨o, _, e⟩ := e
            cases o <;> simp [Seg.ofOpt] at e
            exact e.2.symm
        have hbad : ∀ {x : CStr} {tl : List CStr} {b : Buf} {u : Nat},
            parseVarBytes1 (w :: x :: c!"ign" :: tl) = .ok (.seg b u) → False := by
          intro x tl b u e
          have i1 : parseUint32 c!"ign" = .ok none := by decide +kernel
          have i2 : parseUint8 c!"ign" = .ok none := by decide +kernel
          rcases h2 with rfl | rfl
          · rw [pvb1_repeat, Out.bind_eq_ok] at e
            obtain ⟨o, e1, e⟩ := e
            unfold parseVarBytesRepeat at e1
            rw [Out.bind_eq_ok] at e1
            obtain ⟨o1, _, e1⟩ := e1
            cases o1 with
            | none => simp only [Out.ok.injEq] at e1; subst e1; simp [Seg.ofOpt] at e
            | some k =>
              simp only at e1
              rw [i2, Out.ok_bind] at e1
              simp only [Out.ok.injEq] at e1
              subst e1; simp [Seg.ofOpt] at e
          · rw [pvb1_pattern, Out.bind_eq_ok] at e
            obtain ⟨o, e1, e⟩ := e
            unfold parseVarBytesPattern at e1
            rw [i1, Out.ok_bind] at e1
            simp only [Out.ok.injEq] at e1
            subst e1; simp [Seg.ofOpt] at e
        have hshort : ∀ {x : List CStr} {b : Buf} {u : Nat}, x.length ≤ 1 → parseVarBytes1 (w :: x) = .ok (.seg b u) → False := by
          intro x b u hl e
          match x, hl with
          | [], _ => rcases h2 with rfl | rfl <;> simp [parseVarBytes1] at e
          | [_], _ => rcases h2 with rfl | rfl <;> simp [parseVarBytes1] at e
        cases hr with
        | nil => exact absurd (hshort (by simp) e) id
        | value _ _ _ => exact absurd (hbad e') id
        | extra _ _ => exact absurd (hbad e') id
        | @word a c x _ hr =>
          cases hr with
          | nil => exact absurd (hshort (by simp) e) id
          | @word a c y _ hr =>
            have h3 : parseVarBytes1 (w :: x :: y :: a) = parseVarBytes1 (w :: x :: y :: c) := by
              rcases h2 with rfl | rfl <;> simp [parseVarBytes1]
            rw [← h3, e] at e'
            simp only [Out.ok.injEq, Seg.seg.injEq] at e'
            obtain ⟨rfl, rfl⟩ := e'
            have := hu e
            subst this
            exact Or.inl ⟨rfl, rfl, hr, by omega⟩
          | @value a c y v hn hv hr =>
            have := hu e
            subst this
            exact Or.inr (Or.inl ⟨v, _, rfl, hv.1⟩)
          | @extra _ c y hn hr =>
            have := hu e'
            subst this
            exact Or.inr (Or.inr ⟨_, rfl⟩)
      · exfalso
        unfold parseVarBytes1 at e
        simp only [List.mem_cons, List.not_mem_nil, or_false, not_or] at h1 h2
        simp only [h1, h2, if_false] at e
        split at e <;> simp at e

theorem lock_payload (fuel : Nat) : ∀ (fuel' : Nat) (i : Nat) (acc : Option Buf) (ws ws' : List CStr) (n n' : Nat)
    (r r' : Option Buf), Relaxed ws ws' → ws.length ≤ fuel → ws'.length ≤ fuel' →
    parseVarBytesLoop fuel ws i acc = .ok (some (n, r)) → parseVarBytesLoop fuel' ws' i acc = .ok (some (n', r')) →
    HeadOk (ws.drop (n - i)) → HeadOk (ws'.drop (n' - i)) →
    n = n' ∧ r = r' ∧ Relaxed (ws.drop (n - i)) (ws'.drop (n' - i)) := by
  induction fuel with
  | zero =>
    intro fuel' i acc ws ws' n n' r r' hr hf hf' e e' o o'
    have : ws = [] := List.eq_nil_of_length_eq_zero (by omega)
    subst this
    cases hr with
    | nil =>
      simp only [parseVarBytesLoop, Out.ok.injEq, Option.some.injEq, Prod.mk.injEq] at e
      obtain ⟨rfl, rfl⟩ := e
      have : n' = i ∧ r' = acc := by
        cases fuel' with
        | zero => simp [parseVarBytesLoop] at e'; exact ⟨e'.1.symm, e'.2.symm⟩
        | succ fuel' => simp [parseVarBytesLoop] at e'; exact ⟨e'.1.symm, e'.2.symm⟩
      obtain ⟨rfl, rfl⟩ := this
      exact ⟨rfl, rfl, by simpa using Relaxed.nil⟩
    | extra hn hr =>
      obtain ⟨rfl, rfl⟩ := pvb_stop hn.2.1 e'
      rw [Nat.sub_self] at o'
      exact absurd (o'.cons hn.1) id
  | succ fuel ih =>
    intro fuel' i acc ws ws' n n' r r' hr hf hf' e e' o o'
    have hmono : ∀ {fuel i acc ws n r}, parseVarBytesLoop fuel ws i acc = .ok (some (n, r)) → i ≤ n := by
      intro fuel i acc ws n r h
      exact pvbLoop_mono h
    have hr0 := hr
    cases hr with
    | nil =>
      simp [parseVarBytesLoop] at e
      obtain ⟨rfl, rfl⟩ := e
      have : n' = i ∧ r' = acc := by
        cases fuel' with
        | zero => simp [parseVarBytesLoop] at e'; exact ⟨e'.1.symm, e'.2.symm⟩
        | succ fuel' => simp [parseVarBytesLoop] at e'; exact ⟨e'.1.symm, e'.2.symm⟩
      obtain ⟨rfl, rfl⟩ := this
      exact ⟨rfl, rfl, by simpa using Relaxed.nil⟩
    | extra hn hr =>
      obtain ⟨rfl, rfl⟩ := pvb_stop hn.2.1 e'
      rw [Nat.sub_self] at o'
      exact absurd (o'.cons hn.1) id
    | value hn hv hr =>
      obtain ⟨rfl, rfl⟩ := pvb_stop hn.2.1 e
      rw [Nat.sub_self] at o
      exact absurd (o.cons hn.1) id
    | @word a b w hwi hr =>
      by_cases hw : w ∈ segmentWords
      · cases fuel' with
        | zero => simp at hf'
        | succ fuel' =>
        unfold parseVarBytesLoop at e e'
        rw [if_neg (by simp), Out.bind_eq_ok] at e e'
        obtain ⟨s, e1, e⟩ := e
        obtain ⟨s', e1', e'⟩ := e'
        have nostop : ∀ {x : List CStr}, parseVarBytes1 (w :: x) ≠ .ok .stop := by
          intro x hx
          unfold segmentWords at hw
          simp only [List.mem_cons, List.not_mem_nil, or_false] at hw
          rcases hw with rfl | rfl | rfl | rfl | rfl | rfl
          · cases x with
            | nil => simp [parseVarBytes1] at hx
            | cons y x =>
              rw [pvb1_hex, Out.bind_eq_ok] at hx
              obtain ⟨o, _, hx⟩ := hx
              cases o <;> simp [Seg.ofOpt] at hx
          · cases x <;> simp [parseVarBytes1] at hx
          · cases x <;> simp [parseVarBytes1] at hx
          · match x with
            | [] => simp [parseVarBytes1] at hx
            | [_] => simp [parseVarBytes1] at hx
            | y :: z :: x =>
              rw [pvb1_repeat, Out.bind_eq_ok] at hx
              obtain ⟨o, _, hx⟩ := hx
              cases o <;> simp [Seg.ofOpt] at hx
          · match x with
            | [] => simp [parseVarBytes1] at hx
            | [_] => simp [parseVarBytes1] at hx
            | y :: z :: x =>
              rw [pvb1_pattern, Out.bind_eq_ok] at hx
              obtain ⟨o, _, hx⟩ := hx
              cases o <;> simp [Seg.ofOpt] at hx
          · simp [parseVarBytes1] at hx
        cases s with
        | err => simp at e
        | stop => exact absurd e1 nostop
        | seg b1 u =>
        cases s' with
        | err => simp at e'
        | stop => exact absurd e1' nostop
        | seg b1' u' =>
        simp only at e e'
        have hm := hmono e
        have hm' := hmono e'
        have hu := pvb1_used e1
        have hu' := pvb1_used e1'
        have ed : ∀ {x : List CStr} {n u : Nat}, i + u ≤ n → x.drop (n - i) = (x.drop u).drop (n - (i + u)) := by
          intro x n u h
          rw [List.drop_drop]; congr 1; omega
        rcases lock_segment hr0 e1 e1' with ⟨rfl, rfl, hr2, hu1⟩ | ⟨v, tl, ev, hv⟩ | ⟨tl, ev⟩
        · rw [ed hm] at o ⊢
          rw [ed hm'] at o' ⊢
          exact ih fuel' (i + u) _ _ _ n n' r r' hr2 (by simp only [List.length_drop, List.length_cons] at hf ⊢; omega)
            (by simp only [List.length_drop, List.length_cons] at hf' ⊢; omega) e e' o o'
        · rw [ev] at e
          obtain ⟨rfl, _⟩ := pvb_stop hv.2.1 e
          rw [show i + u - i = u by omega, ev] at o
          exact absurd (o.cons hv.1) id
        · rw [ev] at e'
          obtain ⟨rfl, _⟩ := pvb_stop ign_no_segment e'
          rw [show i + u' - i = u' by omega, ev] at o'
          exact absurd (o'.cons ign_no_tmpl) id
      · obtain ⟨rfl, rfl⟩ := pvb_stop hw e
        obtain ⟨rfl, rfl⟩ := pvb_stop hw e'
        rw [Nat.sub_self]
        exact ⟨rfl, rfl, hr0⟩

/-! ### Headers and frames -/

theorem afl_all {cap fuel : Nat} {f g : Frame} {i : Nat} {ws : List CStr} (hf : ws.length ≤ fuel)
    (h : argcFrameLoop cap fuel f i ws = .ok (some (i + ws.length, g))) : HeadOk ws := by
  rintro w tl rfl
  cases fuel with
  | zero => simp at hf
  | succ fuel =>
    rw [afl_step] at h
    split at h
    · simp at h
    split at h
    · simp at h
    · rename_i t ht
      unfold findTmpl at ht
      exact ⟨t, List.mem_of_find?_eq_some ht, by simpa using List.find?_some ht⟩

theorem plain_tmpls : ∀ t ∈ hdrTmpls, t.name ∉ flexible →
    ∀ p ∈ t.fields, p.multi = .none ∧ p.parser ≠ .coapToken ∧ p.parser ≠ .profinetData := by decide +kernel

theorem lock_header {t h h' : Hdr} (ht : t ∈ hdrTmpls) (hfl : t.name ∉ flexible) {a b : List CStr} (hr : Relaxed a b)
    {p p' q q' : Int} {m m' m1 m1' : Bool} {n n' : Nat}
    (e : runHdrParser t p m a = .ok (some (n, h, q, m1))) (e' : runHdrParser t p' m' b = .ok (some (n', h', q', m1')))
    (o : HeadOk (a.drop n)) (o' : HeadOk (b.drop n')) : Relaxed (a.drop n) (b.drop n') ∧ RelH h h' := by
  have hpl := plain_tmpls t ht hfl
  unfold runHdrParser at e e'
  cases hp : t.parser with
  | fields =>
    rw [hp] at e e'
    simp only at e e'
    rw [Out.bind_eq_ok] at e e'
    obtain ⟨s, e1, e⟩ := e
    obtain ⟨s', e1', e'⟩ := e'
    rcases s with _ | ⟨k, x, mx⟩
    · simp at e
    rcases s' with _ | ⟨k', x', mx'⟩
    · simp at e'
    simp only [Out.ok.injEq, Option.some.injEq, Prod.mk.injEq] at e e'
    obtain ⟨rfl, rfl, _, _⟩ := e
    obtain ⟨rfl, rfl, _, _⟩ := e'
    exact lock_fields b.length a.length t t m m' 0 0 a b k k' x x' mx mx' hr (RelH.refl hpl) (fun f hf => ⟨t, ht, f, hf, rfl⟩)
      (fun h => h) (Nat.le_refl _) (Nat.le_refl _) e1 e1' o o'
  | payload =>
    rw [hp] at e e'
    simp only at e e'
    rw [Out.bind_eq_ok] at e e'
    obtain ⟨s, e1, e⟩ := e
    obtain ⟨s', e1', e'⟩ := e'
    rcases s with _ | ⟨k, x⟩
    · simp at e
    rcases s' with _ | ⟨k', x'⟩
    · simp at e'
    simp only [Out.ok.injEq, Option.some.injEq, Prod.mk.injEq] at e e'
    obtain ⟨rfl, rfl, _, _⟩ := e
    obtain ⟨rfl, rfl, _, _⟩ := e'
    unfold payloadParser at e1 e1'
    rw [Out.bind_eq_ok] at e1 e1'
    obtain ⟨s, e2, e1⟩ := e1
    obtain ⟨s', e2', e1'⟩ := e1'
    rcases s with _ | ⟨res, bo⟩
    · simp at e1
    rcases s' with _ | ⟨res', bo'⟩
    · simp at e1'
    have hk : k = res := by
      simp only at e1
      split at e1
      · simp only [Out.ok.injEq, Option.some.injEq, Prod.mk.injEq] at e1; omega
      · cases bo with
        | none => simp at e1
        | some bo => simp only [Out.ok.injEq, Option.some.injEq, Prod.mk.injEq] at e1; omega
    have hk' : k' = res' := by
      simp only at e1'
      split at e1'
      · simp only [Out.ok.injEq, Option.some.injEq, Prod.mk.injEq] at e1'; omega
      · cases bo' with
        | none => simp at e1'
        | some bo' => simp only [Out.ok.injEq, Option.some.injEq, Prod.mk.injEq] at e1'; omega
    subst hk hk'
    unfold parseVarBytes at e2 e2'
    obtain ⟨rfl, rfl, hr2⟩ := lock_payload a.length b.length 0 none a b k k' bo bo' hr (Nat.le_refl _) (Nat.le_refl _) e2 e2' o o'
    refine ⟨hr2, ?_⟩
    rw [e1] at e1'
    simp only [Out.ok.injEq, Option.some.injEq, Prod.mk.injEq, true_and] at e1'
    subst e1'
    apply RelH.refl
    simp only at e1
    split at e1
    · simp only [Out.ok.injEq, Option.some.injEq, Prod.mk.injEq] at e1
      rw [← e1.2]; exact hpl
    · cases bo with
      | none => simp at e1
      | some bo =>
        simp only [Out.ok.injEq, Option.some.injEq, Prod.mk.injEq] at e1
        rw [← e1.2]
        intro f hf
        simp only at hf
        cases hfs : t.fields with
        | nil => rw [hfs] at hf; simp at hf
        | cons f0 fs =>
          rw [hfs] at hf hpl
          simp only [List.modify_zero_cons, List.mem_cons] at hf
          rcases hf with rfl | hf
          · exact hpl f0 (by simp)
          · exact hpl f (by simp [hf])
  | padding =>
    rw [hp] at e e'
    simp only at e e'
    rw [Out.bind_eq_ok] at e e'
    obtain ⟨s, e1, e⟩ := e
    obtain ⟨s', e1', e'⟩ := e'
    rcases s with _ | x
    · simp at e
    rcases s' with _ | x'
    · simp at e'
    simp only [Out.ok.injEq, Option.some.injEq, Prod.mk.injEq] at e e'
    obtain ⟨rfl, rfl, _, _⟩ := e
    obtain ⟨rfl, rfl, _, _⟩ := e'
    refine ⟨?_, RelH.refl hpl⟩
    cases hr with
    | nil => exact .nil
    | word w hwi hr => exact hr
    | value hn hv hr => exact absurd (o.cons hv.1.1) id
    | extra hn hr => exact absurd (o'.cons ign_no_tmpl) id

theorem lock_frame (cap fuel : Nat) : ∀ (fuel' : Nat) (F G f g : Frame) (i i' : Nat) (ws ws' : List CStr),
    Relaxed ws ws' → ws.length ≤ fuel → ws'.length ≤ fuel' → All2 RelH F.stack G.stack →
    argcFrameLoop cap fuel F i ws = .ok (some (i + ws.length, f)) →
    argcFrameLoop cap fuel' G i' ws' = .ok (some (i' + ws'.length, g)) →
    (∀ x ∈ g.stack, x.name ∉ flexible) → All2 RelH f.stack g.stack := by
  induction fuel with
  | zero =>
    intro fuel' F G f g i i' ws ws' hr hf hf' hFG e e' hfl
    have : ws = [] := List.eq_nil_of_length_eq_zero (by omega)
    subst this
    cases hr with
    | nil =>
      rw [afl_nil] at e e'
      simp only [Out.ok.injEq, Option.some.injEq, Prod.mk.injEq] at e e'
      rw [← e.2, ← e'.2]; exact hFG
    | extra hn hr => exact absurd ((afl_all hf' e').cons hn.1) id
  | succ fuel ih =>
    intro fuel' F G f g i i' ws ws' hr hf hf' hFG e e' hfl
    have o := afl_all hf e
    have o' := afl_all hf' e'
    cases hr with
    | nil =>
      rw [afl_nil] at e e'
      simp only [Out.ok.injEq, Option.some.injEq, Prod.mk.injEq] at e e'
      rw [← e.2, ← e'.2]; exact hFG
    | extra hn hr => exact absurd (o'.cons hn.1) id
    | value hn hv hr => exact absurd (o.cons hn.1) id
    | @word a b w _ hr =>
      simp only [List.length_cons] at hf hf' e e'
      cases fuel' with
      | zero => omega
      | succ fuel' =>
      rw [afl_step] at e e'
      split at e
      · simp at e
      rename_i hh
      rw [if_neg hh] at e'
      cases ht : findTmpl w with
      | none => rw [ht] at e; simp at e
      | some t =>
        rw [ht] at e e'
        simp only at e e'
        rw [Out.bind_eq_ok] at e e'
        obtain ⟨_, _, e⟩ := e
        obtain ⟨_, _, e'⟩ := e'
        rw [Out.bind_eq_ok] at e e'
        obtain ⟨s, e1, e⟩ := e
        obtain ⟨s', e1', e'⟩ := e'
        rcases s with _ | ⟨n, h, pad, m⟩
        · simp at e
        rcases s' with _ | ⟨n', h', pad', m'⟩
        · simp at e'
        simp only at e e'
        have hn := (runHdrParser_mono e1).1
        obtain ⟨hn', hs'⟩ := runHdrParser_mono e1'
        have ei : i + (a.length + 1) = i + 1 + n + (a.drop n).length := by rw [List.length_drop]; omega
        have ei' : i' + (b.length + 1) = i' + 1 + n' + (b.drop n').length := by rw [List.length_drop]; omega
        rw [ei] at e
        rw [ei'] at e'
        have hl : (a.drop n).length ≤ fuel := by rw [List.length_drop]; omega
        have hl' : (b.drop n').length ≤ fuel' := by rw [List.length_drop]; omega
        have htm : t ∈ hdrTmpls := List.mem_of_find?_eq_some ht
        have hname : t.name ∉ flexible := by
          obtain ⟨_, _, _, _, hs, q, _⟩ := afl_mono e'
          have := hfl h' (by rw [q]; simp)
          rw [runHdrParser_name e1'] at this
          exact this
        obtain ⟨hr2, hR⟩ := lock_header htm hname hr e1 e1' (afl_all hl e) (afl_all hl' e')
        exact ih fuel' _ _ f g _ _ _ _ hr2 hl hl' (hFG.append (.cons hR .nil)) e e' hfl

end Ef
