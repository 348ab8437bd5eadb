import Verif.Lemmas.InstParse
import Verif.Props.Serialise

/-! # Default computation on instances of the templates: general lemmas -/

namespace Ef

open Spec

/-! ## Values of fields by name -/

theorem given_eq (h : Hdr) (n : CStr) : given h n = (findField h n).bind (·.val) := rfl

theorem find_updFirst_same {fs : List Field} {n : CStr} {f : Field} (g : Field → Field)
    (hg : ∀ f : Field, (g f).name = f.name) (h : fs.find? (fun f : Field => f.name == n) = some f) :
    (updFirst (fun f : Field => f.name == n) g fs).find? (fun f : Field => f.name == n) = some (g f) := by
  induction fs with
  | nil => simp at h
  | cons a fs ih =>
    unfold updFirst
    by_cases ha : (a.name == n) = true
    · rw [if_pos ha]
      rw [find_pos _ ha] at h
      cases h
      rw [find_pos _ (by rw [hg]; exact ha)]
    · rw [if_neg ha, find_neg _ ha]
      rw [find_neg _ ha] at h
      exact ih h

theorem find_updFirst_other {fs : List Field} {n m : CStr} (g : Field → Field)
    (hg : ∀ f : Field, (g f).name = f.name) (hnm : m ≠ n) :
    (updFirst (fun f : Field => f.name == n) g fs).find? (fun f : Field => f.name == m) =
      fs.find? (fun f : Field => f.name == m) := by
  induction fs with
  | nil => rfl
  | cons a fs ih =>
    unfold updFirst
    by_cases ha : (a.name == n) = true
    · rw [if_pos ha]
      have hm : ¬ (a.name == m) = true := by
        intro hc
        rw [beq_iff_eq] at ha hc
        exact hnm (hc.symm.trans ha)
      rw [find_neg _ hm, find_neg _ (by rw [hg]; exact hm)]
    · rw [if_neg ha]
      by_cases hm : (a.name == m) = true
      · rw [find_pos _ hm, find_pos _ hm]
      · rw [find_neg _ hm, find_neg _ hm, ih]

theorem findField_setVal {h : Hdr} {n : CStr} {f : Field} (hf : findField h n = some f) (v : Option Buf) :
    findField (setVal h n v) n = some { f with val := v } :=
  find_updFirst_same (fun f => { f with val := v }) (fun _ => rfl) hf

theorem findField_setVal_other {h : Hdr} {n m : CStr} (v : Option Buf) (hnm : m ≠ n) :
    findField (setVal h n v) m = findField h m :=
  find_updFirst_other (fun f => { f with val := v }) (fun _ => rfl) hnm

theorem given_setVal {h : Hdr} {n : CStr} {f : Field} (hf : findField h n = some f) (v : Option Buf) :
    given (setVal h n v) n = v := by
  rw [given_eq, findField_setVal hf]; rfl

theorem given_setVal_other (h : Hdr) {n m : CStr} (v : Option Buf) (hnm : m ≠ n) :
    given (setVal h n v) m = given h m := by
  rw [given_eq, findField_setVal_other v hnm]; rfl

/-- Set a field unless it has a value already. -/
def setDefault (h : Hdr) (n : CStr) (v : Option Buf) : Hdr := if (given h n).isSome then h else setVal h n v

theorem given_setDefault {h : Hdr} {n : CStr} {f : Field} (hf : findField h n = some f) (v : Option Buf) :
    given (setDefault h n v) n = (given h n).or v := by
  unfold setDefault
  cases hg : given h n with
  | none => simp; exact given_setVal hf v
  | some x => simpa using hg

theorem given_setDefault_other (h : Hdr) {n m : CStr} (v : Option Buf) (hnm : m ≠ n) :
    given (setDefault h n v) m = given h m := by
  unfold setDefault
  split
  · rfl
  · exact given_setVal_other h v hnm

theorem setDefault_size (h : Hdr) (n : CStr) (v : Option Buf) : (setDefault h n v).size = h.size := by
  unfold setDefault; split <;> rfl

theorem setDefault_type (h : Hdr) (n : CStr) (v : Option Buf) : (setDefault h n v).type = h.type := by
  unfold setDefault; split <;> rfl

theorem setDefault_name (h : Hdr) (n : CStr) (v : Option Buf) : (setDefault h n v).name = h.name := by
  unfold setDefault; split <;> rfl

theorem setDefault_fill (h : Hdr) (n : CStr) (v : Option Buf) : (setDefault h n v).fill = h.fill := by
  unfold setDefault; split <;> rfl

theorem Inst.setDefault {t h : Hdr} {n : CStr} {ft : Field} (hi : Inst t h) (hf : findField t n = some ft)
    {v : Option Buf} (hv : ∀ x, v = some x → ft.width ≤ 8 * x.length ∧ 8 * x.length ≤ ft.width + 7 + 128 * (1 - ft.width - varLen ft)) :
    Inst t (setDefault h n v) := by
  unfold Ef.setDefault
  split
  · exact hi
  · refine hi.updFind n _ (fun ft' g hg hgi => ?_)
    rw [hf] at hg
    cases hg
    exact hgi.setVal' v hv

theorem Inst.getField {t h : Hdr} {n : CStr} {ft : Field} (hi : Inst t h) (hf : findField t n = some ft) :
    ∃ fh, Ef.getField h n = .ok fh ∧ findField h n = some fh ∧ FieldInst ft fh ∧ fh.val = given h n := by
  obtain ⟨fh, h1, h2⟩ := hi.find' hf
  refine ⟨fh, by unfold Ef.getField; rw [h1], h1, h2, ?_⟩
  rw [given_eq, h1]; rfl

/-- The common form of the default computations: compute and set unless given. -/
theorem fill_one {t h : Hdr} {n : CStr} {ft : Field} {v : Option Buf} {P : Out (Option Buf)} (hi : Inst t h)
    (hf : findField t n = some ft) (hP : given h n = none → P = .ok v) :
    (Ef.getField h n >>= fun f => if f.val.isSome then .ok h else P >>= fun v => .ok (setVal h n v)) =
      .ok (setDefault h n v) := by
  obtain ⟨fh, h1, _, _, h4⟩ := hi.getField hf
  rw [h1, Out.ok_bind, h4]
  unfold Ef.setDefault
  split
  · rfl
  · rename_i hg
    rw [hP (by simpa using hg)]
    rfl

/-! ## Fitting into the header -/

/-- All fields of the template lie inside it and its defaults are wide enough. -/
def tfitsB (t : Hdr) : Bool :=
  (decide (0 < t.size) || t.fields.all (fun f => f.width == 0 && f.offset == 0)) &&
    t.fields.all (fun f => decide (f.offset + f.width ≤ 8 * t.size) && decide (f.width < 2 ^ 58) &&
      match f.dflt with
      | some d => decide (f.width ≤ 8 * d.length ∧ 8 * d.length < 2 ^ 64)
      | none => true)

/-- All fields of the template lie inside it and its defaults are wide enough. -/
structure TFits (t : Hdr) : Prop where
  pos : 0 < t.size ∨ ∀ f ∈ t.fields, f.width = 0 ∧ f.offset = 0
  inside : ∀ f ∈ t.fields, f.offset + f.width ≤ 8 * t.size ∧ f.width < 2 ^ 58
  dflt : ∀ f ∈ t.fields, ∀ d, f.dflt = some d → f.width ≤ 8 * d.length ∧ 8 * d.length < 2 ^ 64

theorem tfitsB_iff {t : Hdr} (h : tfitsB t = true) : TFits t := by
  unfold tfitsB at h
  simp only [Bool.and_eq_true, Bool.or_eq_true, List.all_eq_true, decide_eq_true_eq, beq_iff_eq] at h
  refine ⟨h.1, fun f hf => (h.2 f hf).1, fun f hf d hd => ?_⟩
  have := (h.2 f hf).2
  rw [hd] at this
  simpa using this

theorem tmpls_fit : ∀ t ∈ hdrTmpls, TFits t := by
  have : ∀ t ∈ hdrTmpls, tfitsB t = true := by decide +kernel
  exact fun t ht => tfitsB_iff (this t ht)

theorem Variant.fits {B : Nat} {t t' : Hdr} (ht : t ∈ hdrTmpls) (hv : Variant B t t') : TFits t' := by
  cases hv with
  | same => exact tmpls_fit t ht
  | coap k hk =>
    refine ⟨Or.inl (by simp [coapShape]; omega), ?_, ?_⟩
    · simp [coapShape]; omega
    · simp [coapShape]
  | pnet k hk =>
    unfold maxVar at hk
    refine ⟨Or.inl (by simp [pnetShape]), ?_, ?_⟩
    · simp [pnetShape]; omega
    · simp [pnetShape]
  | opt k m hkm hk hB =>
    unfold maxVar at hk
    refine ⟨Or.inl (by simp [optShape]; omega), ?_, ?_⟩
    · simp [optShape]; omega
    · simp [optShape]
  | parms k hk =>
    unfold maxVar at hk
    refine ⟨Or.inl (by simp [parmsShape]; omega), ?_, ?_⟩
    · simp [parmsShape]; omega
    · simp [parmsShape]
  | data k hk =>
    unfold maxVar at hk
    refine ⟨?_, ?_, ?_⟩
    · simp [dataShape]; omega
    · simp [dataShape]; omega
    · simp [dataShape]

theorem allRel_right {R : Field → Field → Prop} {as bs : List Field} (h : AllRel R as bs) :
    ∀ b ∈ bs, ∃ a ∈ as, R a b := by
  induction h with
  | nil => simp
  | cons hr _ ih =>
    intro b hb
    rcases List.mem_cons.mp hb with rfl | hb
    · exact ⟨_, by simp, hr⟩
    · obtain ⟨a, ha, hab⟩ := ih b hb
      exact ⟨a, by simp [ha], hab⟩

theorem Inst.fieldInside {t h : Hdr} (hi : Inst t h) (ht : TFits t) {f : Field} (hf : f ∈ h.fields) :
    f.offset + f.width ≤ 8 * h.size ∧ f.width < 2 ^ 58 ∧ ∀ v, fieldValue f = some v → Inside h.size f v := by
  obtain ⟨ft, hm, hr⟩ := allRel_right hi.fields f hf
  have h1 := ht.inside ft hm
  rw [hr.offset, hr.width, hi.size]
  refine ⟨h1.1, h1.2, fun v hv => ?_⟩
  unfold Inside
  rw [hr.offset, hr.width]
  refine ⟨h1.1, ?_⟩
  unfold fieldValue at hv
  split at hv
  · rename_i x hx
    cases hv
    have := hr.len v hx
    omega
  · rw [hr.dflt] at hv
    exact ht.dflt ft hm v hv

theorem Inst.hdrFits {t h : Hdr} (hi : Inst t h) (ht : TFits t) : HdrFits h := by
  by_cases hs : 0 < h.size
  · refine Or.inr ⟨hs, fun f hf => ?_⟩
    obtain ⟨h1, _, h3⟩ := hi.fieldInside ht hf
    exact ⟨by omega, h3⟩
  · refine Or.inl ⟨by omega, fun f hf => ?_⟩
    obtain ⟨h1, _, _⟩ := hi.fieldInside ht hf
    omega

theorem Inst.hdrFitsMask {t h : Hdr} (hi : Inst t h) (ht : TFits t) : HdrFitsMask h := by
  by_cases hs : 0 < h.size
  · refine Or.inr ⟨hs, fun f hf => ?_⟩
    obtain ⟨h1, h2, _⟩ := hi.fieldInside ht hf
    exact ⟨by omega, fun _ => by omega, by omega⟩
  · refine Or.inl ⟨by omega, fun f hf => ?_⟩
    obtain ⟨h1, _, _⟩ := hi.fieldInside ht hf
    omega

/-! ## Reading a field of a header -/

/-- The fields do not share bits. -/
def disjB (t : Hdr) : Bool :=
  let rec go : List Field → Bool
    | [] => true
    | f :: fs => fs.all (fun g => decide (f.offset + f.width ≤ g.offset)) && go fs
  go t.fields

/-- Each field ends before all later ones start. -/
def Ordered : List Field → Prop
  | [] => True
  | f :: fs => (∀ g ∈ fs, f.offset + f.width ≤ g.offset) ∧ Ordered fs

theorem disjB_iff {t : Hdr} (h : disjB t = true) : Ordered t.fields := by
  unfold disjB at h
  have : ∀ fs, disjB.go fs = true → Ordered fs := by
    intro fs
    induction fs with
    | nil => intro _; trivial
    | cons f fs ih =>
      intro h
      unfold disjB.go at h
      simp only [Bool.and_eq_true, List.all_eq_true, decide_eq_true_eq] at h
      exact ⟨h.1, ih h.2⟩
  exact this _ h

theorem ordered_inst {ts hs : List Field} (h : AllRel FieldInst ts hs) (ho : Ordered ts) : Ordered hs := by
  induction h with
  | nil => trivial
  | cons hr hrest ih =>
    refine ⟨fun g hg => ?_, ih ho.2⟩
    obtain ⟨a, ha, hab⟩ := allRel_right hrest g hg
    rw [hr.offset, hr.width, hab.offset]
    exact ho.1 a ha

theorem ordered_split {l1 l2 : List Field} {g : Field} (h : Ordered (l1 ++ g :: l2)) :
    (∀ k ∈ l1, k.offset + k.width ≤ g.offset) ∧ ∀ k ∈ l2, g.offset + g.width ≤ k.offset := by
  induction l1 with
  | nil => exact ⟨by simp, h.1⟩
  | cons a l1 ih =>
    obtain ⟨h1, h2⟩ := h
    obtain ⟨i1, i2⟩ := ih h2
    refine ⟨fun k hk => ?_, i2⟩
    rcases List.mem_cons.mp hk with rfl | hk
    · exact h1 g (by simp)
    · exact i1 k hk

/-- A field of a header in the frame, for headers without overlays. -/
theorem frame_field {f f' : Frame} {b : Buf} (h : frameToBuf f = .ok (f', b))
    {pre post : List Hdr} {x t : Hdr} (hs : f'.stack = pre ++ x :: post) (hi : Inst t x) (ht : TFits t)
    (hd : disjB t = true) {n : CStr} {ft : Field} (hft : findField t n = some ft) :
    (∀ v, given x n = some v → numAt b (8 * totalSize pre + ft.offset) ft.width = beNat v % 2 ^ ft.width) ∧
    (given x n = none → ∀ d, ft.dflt = some d →
      numAt b (8 * totalSize pre + ft.offset) ft.width = beNat d % 2 ^ ft.width) ∧
    ((∀ y ∈ pre, HdrFits y) → given x n = none → ft.dflt = none →
      numAt b (8 * totalSize pre + ft.offset) ft.width = 0) := by
  obtain ⟨g, _, hg, hgi, hgv⟩ := hi.getField hft
  obtain ⟨_, l1, l2, hx, _⟩ := List.find?_eq_some_iff_append.mp hg
  have hord : Ordered x.fields := ordered_inst hi.fields (disjB_iff hd)
  rw [hx] at hord
  obtain ⟨o1, o2⟩ := ordered_split hord
  obtain ⟨c1, c2⟩ := Props.C17_values_appear f f' b h pre post x hs (hi.hdrFits ht) l1 l2 g hx
  have hin := hi.fieldInside ht (f := g) (by rw [hx]; simp)
  rw [← hgi.offset, ← hgi.width, ← hgi.dflt]
  have d1 : ∀ k ∈ l2, (fieldValue k).isSome → ∀ i, ¬ (covers g i ∧ covers k i) := by
    intro k hk _ i hc
    have := o2 k hk
    unfold covers at hc
    omega
  refine ⟨fun v hv => c1 v ?_ d1, fun hv d hd' => c1 d ?_ d1, fun hpre hv hd' => c2 hpre ?_ hin.1 ?_⟩
  · unfold fieldValue; rw [hgv, hv]
  · unfold fieldValue; rw [hgv, hv]; exact hd'
  · unfold fieldValue; rw [hgv, hv]; exact hd'
  · intro k hk hks i hc
    rw [hx] at hk
    rcases List.mem_append.mp hk with hk | hk
    · have := o1 k hk
      unfold covers at hc
      omega
    · rcases List.mem_cons.mp hk with rfl | hk
      · have : fieldValue k = none := by unfold fieldValue; rw [hgv, hv]; exact hd'
        rw [this] at hks; simp at hks
      · have := o2 k hk
        unfold covers at hc
        omega

/-! ## The stack -/

theorem fillStack_append {below hs hs' : List Hdr} (h : fillStack below hs = .ok hs') {pre post : List Hdr} {x : Hdr}
    (hs0 : hs = pre ++ x :: post) :
    ∃ pre' x' post', hs' = pre' ++ x' :: post' ∧ pre'.length = pre.length ∧ post'.length = post.length ∧
      fillStack (below ++ pre ++ [x]) post = .ok post' ∧ fillHdr (below ++ pre) x post' = .ok x' := by
  induction pre generalizing below hs hs' with
  | nil =>
    subst hs0
    simp only [List.nil_append, fillStack] at h
    rw [Out.bind_eq_ok] at h
    obtain ⟨p, h1, h⟩ := h
    rw [Out.bind_eq_ok] at h
    obtain ⟨x', h2, h⟩ := h
    simp only [Out.ok.injEq] at h
    have hlen : ∀ (hs : List Hdr) (below : List Hdr) (hs' : List Hdr), fillStack below hs = .ok hs' → hs'.length = hs.length := by
      intro hs
      induction hs with
      | nil => intro below hs' h; simp [fillStack] at h; rw [← h]
      | cons a l ih =>
        intro below hs' h
        unfold fillStack at h
        rw [Out.bind_eq_ok] at h
        obtain ⟨p, h1, h⟩ := h
        rw [Out.bind_eq_ok] at h
        obtain ⟨x', h2, h⟩ := h
        simp only [Out.ok.injEq] at h
        rw [← h]; simp [ih _ _ h1]
    exact ⟨[], x', p, by rw [← h]; rfl, rfl, hlen _ _ _ h1, by simpa using h1, by simpa using h2⟩
  | cons a pre ih =>
    subst hs0
    rw [List.cons_append, fillStack, Out.bind_eq_ok] at h
    obtain ⟨p, h1, h⟩ := h
    rw [Out.bind_eq_ok] at h
    obtain ⟨a', h2, h⟩ := h
    simp only [Out.ok.injEq] at h
    obtain ⟨pre', x', post', e1, e2, e3, e4, e5⟩ := ih h1 rfl
    refine ⟨a' :: pre', x', post', by rw [← h, e1]; rfl, by simp [e2], e3, ?_, ?_⟩
    · simpa [List.append_assoc] using e4
    · simpa [List.append_assoc] using e5

theorem frameToBuf_stack {f f' : Frame} {b : Buf} (h : frameToBuf f = .ok (f', b)) :
    fillStack [] f.stack = .ok f'.stack ∧ f'.padding = f.padding ∧ f'.hasMask = f.hasMask := by
  unfold frameToBuf at h
  rw [Out.bind_eq_ok] at h
  obtain ⟨st, h1, h2⟩ := h
  rw [Out.bind_eq_ok] at h2
  obtain ⟨b1, h2, h3⟩ := h2
  simp only [Out.ok.injEq, Prod.mk.injEq] at h3
  obtain ⟨rfl, rfl⟩ := h3
  exact ⟨h1, rfl, rfl⟩

end Ef
