import Verif.Lemmas.FillPseudo

/-! # IGMP, MLD, CoAP, PTP: default computation on instances -/

namespace Ef

open Spec

/-! ## Splitting instances -/

theorem allRel_split {R : Field → Field → Prop} {l1 l2 hs : List Field} {ft : Field}
    (h : AllRel R (l1 ++ ft :: l2) hs) :
    ∃ m1 g m2, hs = m1 ++ g :: m2 ∧ AllRel R l1 m1 ∧ R ft g ∧ AllRel R l2 m2 := by
  induction l1 generalizing hs with
  | nil =>
    cases h with
    | cons hr hrest => exact ⟨[], _, _, rfl, AllRel.nil, hr, hrest⟩
  | cons a l1 ih =>
    cases h with
    | cons hr hrest =>
      obtain ⟨m1, g, m2, e, h1, h2, h3⟩ := ih hrest
      exact ⟨_ :: m1, g, m2, by rw [e]; rfl, AllRel.cons hr h1, h2, h3⟩

/-- The template field `ft` called `n`, the fields before it end before it starts, those after it start after it ends. -/
structure Sep (t : Hdr) (n : CStr) (ft : Field) (l1 l2 : List Field) : Prop where
  split : t.fields = l1 ++ ft :: l2
  name : ft.name = n
  fresh : ∀ k ∈ l1, k.name ≠ n
  before : ∀ k ∈ l1, k.offset + k.width ≤ ft.offset
  after : ∀ k ∈ l2, ft.offset + ft.width ≤ k.offset

theorem find_of_split {l1 l2 : List Field} {g : Field} {n : CStr} (hn : g.name = n) (hf : ∀ k ∈ l1, k.name ≠ n) :
    (l1 ++ g :: l2).find? (fun f : Field => f.name == n) = some g := by
  induction l1 with
  | nil => exact find_pos _ (by simpa using hn)
  | cons a l1 ih =>
    rw [List.cons_append, find_neg _ (by simpa using hf a (by simp))]
    exact ih (fun k hk => hf k (by simp [hk]))

theorem Sep.find {t : Hdr} {n : CStr} {ft : Field} {l1 l2 : List Field} (hs : Sep t n ft l1 l2) :
    findField t n = some ft := by
  unfold findField; rw [hs.split]; exact find_of_split hs.name hs.fresh

theorem Sep.inst {t x : Hdr} {n : CStr} {ft : Field} {l1 l2 : List Field} (hs : Sep t n ft l1 l2) (hi : Inst t x) :
    ∃ m1 g m2, x.fields = m1 ++ g :: m2 ∧ FieldInst ft g ∧ findField x n = some g ∧ (∀ k ∈ m1, k.name ≠ n) ∧
      (∀ k ∈ m1, k.offset + k.width ≤ ft.offset) ∧ (∀ k ∈ m2, ft.offset + ft.width ≤ k.offset) := by
  have hf := hi.fields
  rw [hs.split] at hf
  obtain ⟨m1, g, m2, e, r1, r2, r3⟩ := allRel_split hf
  have hfr : ∀ k ∈ m1, k.name ≠ n := by
    intro k hk
    obtain ⟨a, ha, hak⟩ := allRel_right r1 k hk
    rw [hak.name]; exact hs.fresh a ha
  refine ⟨m1, g, m2, e, r2, ?_, hfr, ?_, ?_⟩
  · unfold findField; rw [e]; exact find_of_split (r2.name.trans hs.name) hfr
  · intro k hk
    obtain ⟨a, ha, hak⟩ := allRel_right r1 k hk
    rw [hak.offset, hak.width]; exact hs.before a ha
  · intro k hk
    obtain ⟨a, ha, hak⟩ := allRel_right r3 k hk
    rw [hak.offset]; exact hs.after a ha

/-- The number in a field that is separated from the others. -/
theorem Sep.num {t x : Hdr} {n : CStr} {ft : Field} {l1 l2 : List Field} (hs : Sep t n ft l1 l2) (hi : Inst t x)
    (hin : ft.offset + ft.width ≤ 8 * t.size) (hd : ft.dflt = none) :
    numAt (hdrBytes x) ft.offset ft.width = numOf ft (given x n) := by
  obtain ⟨m1, g, m2, e, r, hfind, _, hb, ha⟩ := hs.inst hi
  have hgv : given x n = g.val := by rw [given_eq, hfind]; rfl
  have := hdr_field e (by rw [r.offset, r.width, hi.size]; exact hin) (fun v hv => by
    unfold fieldValue at hv
    rw [r.dflt, hd] at hv
    cases hg : g.val with
    | none => rw [hg] at hv; simp at hv
    | some w =>
      rw [hg] at hv
      simp only [Option.some.injEq] at hv
      rw [← hv, r.width]; exact (r.len w hg).1) (by rw [r.offset]; exact hb) (by rw [r.offset, r.width]; exact ha)
  rw [r.offset, r.width] at this
  rw [this]
  unfold fieldNum numOf fieldValue
  rw [hgv, r.width, r.dflt]
  cases g.val <;> rfl

/-! ## Placing a value in a separated field -/

theorem wireBit_skip {l1 l2 : List Field} {g g' : Field} {i : Nat} (h : ¬ covers g i) (h' : ¬ covers g' i) :
    wireBit (l1 ++ g :: l2) i = wireBit (l1 ++ g' :: l2) i := by
  unfold wireBit
  have : ∀ a : Field, ¬ covers a i →
      List.find? (fun f => decide (covers f i) && (fieldValue f).isSome) (l1 ++ a :: l2).reverse =
      List.find? (fun f => decide (covers f i) && (fieldValue f).isSome) (l2.reverse ++ l1.reverse) := by
    intro a ha
    have hz : List.find? (fun f => decide (covers f i) && (fieldValue f).isSome) [a] = none := by simp [ha]
    rw [List.reverse_append, List.reverse_cons, List.append_assoc, List.find?_append, List.find?_append, hz,
      List.find?_append]
    rfl
  rw [this g h, this g' h']

theorem updFirst_split {l1 l2 : List Field} {g : Field} {n : CStr} (G : Field → Field) (hn : g.name = n)
    (hf : ∀ k ∈ l1, k.name ≠ n) :
    updFirst (fun f : Field => f.name == n) G (l1 ++ g :: l2) = l1 ++ G g :: l2 := by
  induction l1 with
  | nil => simp [updFirst, hn]
  | cons a l1 ih =>
    rw [List.cons_append, updFirst, if_neg (by simpa using hf a (by simp)), ih (fun k hk => hf k (by simp [hk]))]
    rfl

theorem take_slice (b : Buf) (k : Nat) : b.take k = slice b 0 k := by simp [slice]

theorem bit_beyond {b : Buf} {i : Nat} (h : 8 * b.length ≤ i) : bit b i = false := bit_of_ge b i h

theorem bit_slice (b : Buf) (k m i : Nat) (hi : i < 8 * m) : bit (slice b k m) i = bit b (8 * k + i) :=
  bit_take_drop b k m i hi

/-- Bytes of a header when a byte-aligned separated field of `m` bytes is set: only these bytes change; before they
were zero. -/
theorem Sep.place {t x : Hdr} {n : CStr} {ft : Field} {l1 l2 : List Field} (hs : Sep t n ft l1 l2) (hi : Inst t x)
    {k m : Nat} (hk : ft.offset = 8 * k) (hm : ft.width = 8 * m) (hin : k + m ≤ t.size) (hd : ft.dflt = none)
    (hg : given x n = none) (c : Nat) (_hm8 : m ≤ 8) :
    hdrBytes (setVal x n (some (beBytes m c))) = (hdrBytes x).take k ++ beBytes m c ++ (hdrBytes x).drop (k + m) ∧
      hdrBytes x = (hdrBytes x).take k ++ zeros m ++ (hdrBytes x).drop (k + m) := by
  obtain ⟨m1, g, m2, e, r, hfind, hfr, hb, ha⟩ := hs.inst hi
  have hgv : g.val = none := by rw [given_eq, hfind] at hg; simpa using hg
  have hxs : x.size = t.size := hi.size
  have hlx : (hdrBytes x).length = t.size := by rw [Props.hdrBytes_length, hxs]
  have htk : ((hdrBytes x).take k).length = k := by rw [List.length_take]; omega
  have hdl : ((hdrBytes x).drop (k + m)).length = t.size - (k + m) := by rw [List.length_drop]; omega
  have hset : (setVal x n (some (beBytes m c))).fields = m1 ++ { g with val := some (beBytes m c) } :: m2 := by
    unfold setVal updField
    simp only
    rw [e]
    exact updFirst_split _ (r.name.trans hs.name) hfr
  have bitdrop : ∀ j, bit ((hdrBytes x).drop (k + m)) j = bit (hdrBytes x) (8 * (k + m) + j) := by
    intro j
    unfold bit
    rw [List.getElem?_drop]
    have e1 : k + m + j / 8 = (8 * (k + m) + j) / 8 := by omega
    have e2 : j % 8 = (8 * (k + m) + j) % 8 := by omega
    rw [e1, e2]
  constructor
  · apply buf_ext
    · rw [Props.hdrBytes_length, List.length_append, List.length_append, htk, hdl, beBytes_length]
      show x.size = _
      omega
    · intro i hil
      rw [Props.hdrBytes_length] at hil
      have hil' : i < 8 * t.size := by
        have : (setVal x n (some (beBytes m c))).size = x.size := rfl
        omega
      rw [bit_hdrBytes _ _ hil, hset, List.append_assoc, bit_append, htk, bit_append, beBytes_length]
      by_cases h1 : i < 8 * k
      · rw [if_pos h1, take_slice, bit_slice _ _ _ _ h1, Nat.mul_zero, Nat.zero_add, bit_hdrBytes x i (by omega), e]
        exact (wireBit_skip (by unfold covers; rw [r.offset, r.width]; omega)
          (by unfold covers; simp only; rw [r.offset, r.width]; omega)).symm
      · rw [if_neg h1]
        by_cases h2 : i - 8 * k < 8 * m
        · rw [if_pos h2, wireBit_last (v := beBytes m c) (by unfold covers; simp only; rw [r.offset, r.width]; omega) rfl]
          · unfold valueBit
            simp only
            rw [beBytes_length, r.width, r.offset]
            congr 1
            omega
          · intro q hq hcq
            have := ha q hq
            unfold covers at hcq
            omega
        · rw [if_neg h2, bitdrop, bit_hdrBytes x _ (by omega), e]
          have : 8 * (k + m) + (i - 8 * k - 8 * m) = i := by omega
          rw [this]
          exact (wireBit_skip (by unfold covers; rw [r.offset, r.width]; omega)
            (by unfold covers; simp only; rw [r.offset, r.width]; omega)).symm
  · apply buf_ext
    · rw [hlx, List.length_append, List.length_append, htk, hdl]
      simp only [zeros, List.length_replicate]
      omega
    · intro i hil
      rw [hlx] at hil
      rw [List.append_assoc, bit_append, htk, bit_append]
      simp only [zeros, List.length_replicate]
      by_cases h1 : i < 8 * k
      · rw [if_pos h1, take_slice, bit_slice _ _ _ _ h1, Nat.mul_zero, Nat.zero_add]
      · rw [if_neg h1]
        by_cases h2 : i - 8 * k < 8 * m
        · rw [if_pos h2]
          have hz := bit_zeros m (i - 8 * k)
          unfold zeros at hz
          rw [hz, bit_hdrBytes x i (by omega), e]
          apply wireBit_none
          intro q hq hcq
          unfold covers at hcq
          rcases List.mem_append.mp hq with hq | hq
          · have := hb q hq; omega
          · rcases List.mem_cons.mp hq with rfl | hq
            · unfold fieldValue; rw [hgv, r.dflt]; exact hd
            · have := ha q hq; omega
        · rw [if_neg h2, bitdrop]
          congr 1; omega

/-! ## Headers with unused fields -/

theorem allRel_updBoth {ts hs : List Field} (h : AllRel FieldInst ts hs) (n : CStr) (g : Field → Field)
    (hg : ∀ ft f, ft ∈ ts → FieldInst ft f → FieldInst (g ft) (g f)) :
    AllRel FieldInst (updFirst (fun f : Field => f.name == n) g ts) (updFirst (fun f : Field => f.name == n) g hs) := by
  induction h with
  | nil => exact AllRel.nil
  | @cons a b as bs hr hrest ih =>
    have hn := hr.name
    unfold updFirst
    by_cases ha : (a.name == n) = true
    · rw [if_pos ha, if_pos (by rw [hn]; exact ha)]
      exact AllRel.cons (hg _ _ (by simp) hr) hrest
    · rw [if_neg ha, if_neg (by rw [hn]; exact ha)]
      exact AllRel.cons hr (ih (fun ft f hm => hg ft f (by simp [hm])))

theorem Inst.updBoth {t h : Hdr} (hi : Inst t h) (n : CStr) (g : Field → Field)
    (hg : ∀ ft f, ft ∈ t.fields → FieldInst ft f → FieldInst (g ft) (g f)) : Inst (updField t n g) (updField h n g) :=
  ⟨hi.name, hi.size, hi.fill, hi.parser, allRel_updBoth hi.fields n g hg⟩

theorem Inst.resize {t h : Hdr} (hi : Inst t h) (d : Nat) :
    Inst { t with size := u32Sub t.size d } { h with size := u32Sub h.size d } :=
  ⟨hi.name, by simp only [hi.size], hi.fill, hi.parser, hi.fields⟩

theorem FieldInst.zero {ft f : Field} (h : FieldInst ft f) (hw : ft.width ≤ 128 ∧ varLen ft = 0) :
    FieldInst { ft with width := 0 } { f with width := 0 } := by
  refine ⟨?_, fun v hv => ?_⟩
  · conv => lhs; rw [h.eq]
  · have := h.len v hv
    have e : varLen { ft with width := 0 } = varLen ft := rfl
    rw [e]
    simp only
    omega

theorem FieldInst.moveTo {ft f : Field} (h : FieldInst ft f) (o : Nat) :
    FieldInst { ft with offset := o } { f with offset := o } := by
  refine ⟨?_, h.len⟩
  conv => lhs; rw [h.eq]

theorem mem_updFirst {P : Field → Prop} {n : CStr} {g : Field → Field} {fs : List Field} (h : ∀ f ∈ fs, P f)
    (hg : ∀ f, P f → P (g f)) : ∀ f ∈ updFirst (fun f : Field => f.name == n) g fs, P f := by
  induction fs with
  | nil => simp [updFirst]
  | cons a fs ih =>
    unfold updFirst
    split
    · intro f hf
      rcases List.mem_cons.mp hf with rfl | hf
      · exact hg _ (h a (by simp))
      · exact h f (by simp [hf])
    · intro f hf
      rcases List.mem_cons.mp hf with rfl | hf
      · exact h f (by simp)
      · exact ih (fun k hk => h k (by simp [hk])) f hf

theorem Inst.zeroWidths {t h : Hdr} (hi : Inst t h) (hw : ∀ f ∈ t.fields, f.width ≤ 128 ∧ varLen f = 0) (ns : List CStr) :
    Inst (Ef.zeroWidths t ns) (Ef.zeroWidths h ns) := by
  induction ns generalizing t h with
  | nil => exact hi
  | cons n ns ih =>
    refine ih (hi.updBoth n _ (fun ft f hm hf => hf.zero (hw ft hm))) ?_
    exact mem_updFirst (P := fun f => f.width ≤ 128 ∧ varLen f = 0) hw (fun f hf => ⟨by simp, hf.2⟩)

theorem given_updField {h : Hdr} {n m : CStr} {g : Field → Field} (hn : ∀ f, (g f).name = f.name)
    (hv : ∀ f, (g f).val = f.val) : given (updField h n g) m = given h m := by
  by_cases hnm : m = n
  · subst hnm
    unfold given updField
    cases e : h.fields.find? (fun f : Field => f.name == m) with
    | none =>
      have : (updFirst (fun f : Field => f.name == m) g h.fields) = h.fields := by
        rw [List.find?_eq_none] at e
        clear hn hv
        generalize h.fields = fs at e
        induction fs with
        | nil => rfl
        | cons a fs ih =>
          unfold updFirst
          rw [if_neg (e a (by simp)), ih (fun k hk => e k (by simp [hk]))]
      simp only [this, e]
    | some f =>
      simp only [find_updFirst_same g hn e, Option.bind_some, hv]
  · unfold given updField
    simp only [find_updFirst_other g hn hnm]

theorem given_zeroWidths (h : Hdr) (ns : List CStr) (m : CStr) : given (zeroWidths h ns) m = given h m := by
  induction ns generalizing h with
  | nil => rfl
  | cons n ns ih =>
    unfold zeroWidths
    rw [ih]
    exact given_updField (fun _ => rfl) (fun _ => rfl)

theorem given_moveTo (h : Hdr) (n m : CStr) (o : Nat) :
    given (updField h n (fun f => { f with offset := o })) m = given h m :=
  given_updField (g := fun f => { f with offset := o }) (fun _ => rfl) (fun _ => rfl)

theorem given_resize (h : Hdr) (s : Nat) (m : CStr) : given { h with size := s } m = given h m := rfl

theorem find_of_nodup {fs : List Field} (hn : (fs.map (·.name)).Nodup) {f : Field} (hf : f ∈ fs) :
    fs.find? (fun g : Field => g.name == f.name) = some f := by
  obtain ⟨l1, l2, rfl⟩ := List.append_of_mem hf
  apply find_of_split rfl
  intro k hk hkn
  rw [List.map_append, List.nodup_append] at hn
  exact hn.2.2 _ (List.mem_map_of_mem hk) _ (List.mem_map_of_mem (List.mem_cons_self)) hkn

theorem allRel_names {ts hs : List Field} (h : AllRel FieldInst ts hs) : hs.map (·.name) = ts.map (·.name) := by
  induction h with
  | nil => rfl
  | cons hr _ ih => simp [hr.name, ih]

/-- Rendering a header with unused fields: these must have no value. -/
theorem Inst.hdrFits' {t h : Hdr} (hi : Inst t h) (hpos : 0 < t.size) (hn : (t.fields.map (·.name)).Nodup)
    (hf : ∀ ft ∈ t.fields, ft.width ≤ 8 * t.size ∧ ft.width ≤ 128 ∧ ft.dflt = none ∧
      (ft.offset + ft.width ≤ 8 * t.size ∨ given h ft.name = none)) : HdrFits h := by
  refine Or.inr ⟨by rw [hi.size]; exact hpos, fun f hfm => ?_⟩
  obtain ⟨ft, hm, hr⟩ := allRel_right hi.fields f hfm
  obtain ⟨h1, h2, h3, h4⟩ := hf ft hm
  rw [hr.width, hi.size]
  refine ⟨h1, fun v hv => ?_⟩
  unfold fieldValue at hv
  rw [hr.dflt, h3] at hv
  cases hfv : f.val with
  | none => rw [hfv] at hv; simp at hv
  | some w =>
    rw [hfv] at hv
    simp only [Option.some.injEq] at hv
    subst hv
    have hl := hr.len w hfv
    have hg : given h ft.name = some w := by
      rw [← hr.name, given_eq, findField, find_of_nodup (by rw [allRel_names hi.fields]; exact hn) hfm]
      exact hfv
    rcases h4 with h4 | h4
    · unfold Inside
      rw [hr.offset, hr.width]
      refine ⟨h4, hl.1, by omega⟩
    · rw [hg] at h4; simp at h4

/-! ## Which of the optional fields are given -/

theorem anyGiven_eq {t h : Hdr} (hi : Inst t h) (ns : List CStr)
    (hns : ∀ n ∈ ns, (findField t n).map (·.dflt) = some none) :
    anyGiven h ns = .ok (ns.any (fun n => (given h n).isSome)) := by
  induction ns with
  | nil => rfl
  | cons n ns ih =>
    have hn := hns n (by simp)
    cases e : findField t n with
    | none => rw [e] at hn; simp at hn
    | some ft =>
      have hd : ft.dflt = none := by rw [e] at hn; simpa using hn
      obtain ⟨fh, h1, _, h3, h4⟩ := hi.getField e
      unfold anyGiven
      rw [h1, Out.ok_bind, h4, h3.dflt, hd, ih (fun m hm => hns m (by simp [hm])), List.any_cons]
      cases (given h n).isSome <;> simp

theorem anyVal_eq {t h : Hdr} (hi : Inst t h) (ns : List CStr) (hns : ∀ n ∈ ns, (findField t n).isSome = true) :
    anyVal h ns = .ok (ns.any (fun n => (given h n).isSome)) := by
  induction ns with
  | nil => rfl
  | cons n ns ih =>
    obtain ⟨ft, e⟩ := look t n (hns n (by simp))
    obtain ⟨fh, h1, _, h3, h4⟩ := hi.getField e
    unfold anyVal
    rw [h1, Out.ok_bind, h4, ih (fun m hm => hns m (by simp [hm])), List.any_cons]
    cases (given h n).isSome <;> simp

/-- Is a query field given? -/
def queryGiven (h : Hdr) : Bool := queryFields.any (fun n => (given h n).isSome)

/-- Is a report field given? -/
def reportGiven (h : Hdr) : Bool := reportFields.any (fun n => (given h n).isSome)

/-- Shape after `adjustQuery`. -/
def shapeQ (q : Bool) (t : Hdr) : Hdr :=
  if q then t else zeroWidths { t with size := u32Sub t.size 4 } queryFields

/-- Shape after `adjustReportIgmp`. -/
def shapeRI (r : Bool) (t : Hdr) : Hdr :=
  if r then
    updField (updField (zeroWidths { t with size := u32Sub t.size 4 } [c!"ga"]) c!"rresv" (fun f => { f with offset := 32 }))
      c!"ng" (fun f => { f with offset := 48 })
  else zeroWidths { t with size := u32Sub t.size 4 } reportFields

/-- Shape after `adjustReportMld`. -/
def shapeRM (r : Bool) (t : Hdr) : Hdr :=
  if r then
    updField (updField (zeroWidths { t with size := u32Sub t.size 20 } [c!"ga", c!"max_resp", c!"rsv"]) c!"rresv"
      (fun f => { f with offset := 32 })) c!"ng" (fun f => { f with offset := 48 })
  else zeroWidths { t with size := u32Sub t.size 4 } reportFields

theorem adjustQuery_eq {t h : Hdr} (hi : Inst t h) (hw : ∀ f ∈ t.fields, f.width ≤ 128 ∧ varLen f = 0)
    (hns : ∀ n ∈ queryFields, (findField t n).map (·.dflt) = some none) :
    adjustQuery h = .ok (shapeQ (queryGiven h) h) ∧ Inst (shapeQ (queryGiven h) t) (shapeQ (queryGiven h) h) ∧
      ∀ m, given (shapeQ (queryGiven h) h) m = given h m := by
  unfold adjustQuery
  rw [anyGiven_eq hi _ hns, Out.ok_bind]
  unfold queryGiven
  cases queryFields.any (fun n => (given h n).isSome) with
  | true => exact ⟨rfl, hi, fun _ => rfl⟩
  | false => exact ⟨rfl, (hi.resize 4).zeroWidths hw _, fun m => by
    simp only [shapeQ, Bool.false_eq_true, if_false]
    rw [given_zeroWidths, given_resize]⟩

theorem adjustReportIgmp_eq {t h : Hdr} (hi : Inst t h) (hw : ∀ f ∈ t.fields, f.width ≤ 128 ∧ varLen f = 0)
    (hns : ∀ n ∈ reportFields, (findField t n).map (·.dflt) = some none) :
    adjustReportIgmp h = .ok (shapeRI (reportGiven h) h) ∧ Inst (shapeRI (reportGiven h) t) (shapeRI (reportGiven h) h) ∧
      ∀ m, given (shapeRI (reportGiven h) h) m = given h m := by
  unfold adjustReportIgmp
  rw [anyGiven_eq hi _ hns, Out.ok_bind]
  unfold reportGiven
  cases reportFields.any (fun n => (given h n).isSome) with
  | true =>
    refine ⟨rfl, ?_, fun m => ?_⟩
    · exact (((hi.resize 4).zeroWidths hw _).updBoth _ _ (fun _ _ _ hf => hf.moveTo 32)).updBoth _ _
        (fun _ _ _ hf => hf.moveTo 48)
    · unfold shapeRI
      simp only [if_true]
      rw [given_moveTo, given_moveTo, given_zeroWidths, given_resize]
  | false => exact ⟨rfl, (hi.resize 4).zeroWidths hw _, fun m => by
    simp only [shapeRI, Bool.false_eq_true, if_false]
    rw [given_zeroWidths, given_resize]⟩

theorem adjustReportMld_eq {t h : Hdr} (hi : Inst t h) (hw : ∀ f ∈ t.fields, f.width ≤ 128 ∧ varLen f = 0)
    (hns : ∀ n ∈ reportFields, (findField t n).map (·.dflt) = some none) :
    adjustReportMld h = .ok (shapeRM (reportGiven h) h) ∧ Inst (shapeRM (reportGiven h) t) (shapeRM (reportGiven h) h) ∧
      ∀ m, given (shapeRM (reportGiven h) h) m = given h m := by
  unfold adjustReportMld
  rw [anyGiven_eq hi _ hns, Out.ok_bind]
  unfold reportGiven
  cases reportFields.any (fun n => (given h n).isSome) with
  | true =>
    refine ⟨rfl, ?_, fun m => ?_⟩
    · exact (((hi.resize 20).zeroWidths hw _).updBoth _ _ (fun _ _ _ hf => hf.moveTo 32)).updBoth _ _
        (fun _ _ _ hf => hf.moveTo 48)
    · unfold shapeRM
      simp only [if_true]
      rw [given_moveTo, given_moveTo, given_zeroWidths, given_resize]
  | false => exact ⟨rfl, (hi.resize 4).zeroWidths hw _, fun m => by
    simp only [shapeRM, Bool.false_eq_true, if_false]
    rw [given_zeroWidths, given_resize]⟩

theorem shapeQ_given {h : Hdr} (hq : ∀ m, given (shapeQ (queryGiven h) h) m = given h m) :
    reportGiven (shapeQ (queryGiven h) h) = reportGiven h := by
  unfold reportGiven
  simp only [hq]

end Ef
