import Verif.Lemmas.Built
import Verif.Lemmas.Relax
import Verif.Props.Again

/-!
# One more value given

A frame whose headers are the same but for one field of one header, which has a value in the second frame and has the
same number in the completed headers of both.
-/

namespace Ef

open Spec Props

/-- The same header but for the value of the first field called `n`, which is `w` in `y`. -/
structure Near (n : CStr) (w : Buf) (x y : Hdr) : Prop where
  name : y.name = x.name
  type : y.type = x.type
  size : y.size = x.size
  fill : y.fill = x.fill
  split : ∃ l1 p q l2, x.fields = l1 ++ p :: l2 ∧ y.fields = l1 ++ q :: l2 ∧ p.name = n ∧ (∀ k ∈ l1, k.name ≠ n) ∧
    core q = core p ∧ q.val = some w

theorem core_parts {p q : Field} (h : core q = core p) : q.name = p.name ∧ q.width = p.width ∧ q.offset = p.offset ∧
    q.dflt = p.dflt := by
  refine ⟨?_, ?_, ?_, ?_⟩
  · have := congrArg Field.name h; exact this
  · have := congrArg Field.width h; exact this
  · have := congrArg Field.offset h; exact this
  · have := congrArg Field.dflt h; exact this

theorem find_split {l1 l2 : List Field} {p : Field} {n : CStr} (hp : p.name = n) (h : ∀ k ∈ l1, k.name ≠ n) :
    (l1 ++ p :: l2).find? (fun f => f.name == n) = some p := by
  rw [List.find?_append]
  have : l1.find? (fun f => f.name == n) = none := by
    rw [List.find?_eq_none]
    intro k hk
    simpa using h k hk
  rw [this, Option.none_or, List.find?_cons]
  simp [hp]

theorem find_split_other {l1 l2 : List Field} {p q : Field} {n m : CStr} (hp : p.name = n) (hq : q.name = n) (hm : m ≠ n) :
    (l1 ++ p :: l2).find? (fun f => f.name == m) = (l1 ++ q :: l2).find? (fun f => f.name == m) := by
  rw [List.find?_append, List.find?_append, List.find?_cons, List.find?_cons]
  have h1 : (p.name == m) = false := by rw [hp]; simpa using fun h => hm h.symm
  have h2 : (q.name == m) = false := by rw [hq]; simpa using fun h => hm h.symm
  rw [h1, h2]

theorem updFirst_mid {l1 l2 : List Field} {p : Field} {n : CStr} (g : Field → Field) (hp : p.name = n)
    (h : ∀ k ∈ l1, k.name ≠ n) :
    updFirst (fun f : Field => f.name == n) g (l1 ++ p :: l2) = l1 ++ g p :: l2 := by
  induction l1 with
  | nil => simp [updFirst, hp]
  | cons a l1 ih =>
    have := h a (by simp)
    simp only [List.cons_append, updFirst]
    rw [if_neg (by simpa using this), ih (fun k hk => h k (List.mem_cons_of_mem _ hk))]

/-- An update of another field hits the same field in both. -/
theorem updFirst_split_other {l1 l2 : List Field} {p q : Field} {n m : CStr} (g : Field → Field)
    (hg : ∀ f : Field, (g f).name = f.name) (hp : p.name = n) (hq : q.name = n) (hm : m ≠ n) (h : ∀ k ∈ l1, k.name ≠ n) :
    ∃ k1 k2, updFirst (fun f : Field => f.name == m) g (l1 ++ p :: l2) = k1 ++ p :: k2 ∧
      updFirst (fun f : Field => f.name == m) g (l1 ++ q :: l2) = k1 ++ q :: k2 ∧ ∀ k ∈ k1, k.name ≠ n := by
  induction l1 with
  | nil =>
    refine ⟨[], updFirst (fun f : Field => f.name == m) g l2, ?_, ?_, by simp⟩
    · simp only [List.nil_append, updFirst]
      rw [if_neg (by rw [hp]; simpa using fun h => hm h.symm)]
    · simp only [List.nil_append, updFirst]
      rw [if_neg (by rw [hq]; simpa using fun h => hm h.symm)]
  | cons a l1 ih =>
    simp only [List.cons_append, updFirst]
    have ha := h a (by simp)
    by_cases c : (a.name == m) = true
    · rw [if_pos c, if_pos c]
      refine ⟨g a :: l1, l2, rfl, rfl, ?_⟩
      intro k hk
      rcases List.mem_cons.mp hk with rfl | hk
      · rw [hg]; exact ha
      · exact h k (List.mem_cons_of_mem _ hk)
    · rw [if_neg c, if_neg c]
      obtain ⟨k1, k2, e1, e2, e3⟩ := ih (fun k hk => h k (List.mem_cons_of_mem _ hk))
      refine ⟨a :: k1, k2, by rw [e1]; rfl, by rw [e2]; rfl, ?_⟩
      intro k hk
      rcases List.mem_cons.mp hk with rfl | hk
      · exact ha
      · exact e3 k hk

namespace Near

variable {n m : CStr} {w : Buf} {x y : Hdr}

theorem given (h : Near n w x y) : Spec.given y n = some w := by
  obtain ⟨l1, p, q, l2, e1, e2, e3, e4, e5, e6⟩ := h.split
  have hq : q.name = n := by rw [(core_parts e5).1]; exact e3
  unfold Spec.given
  rw [e2, find_split hq e4]
  exact e6

theorem other (h : Near n w x y) (hm : m ≠ n) : findField y m = findField x m := by
  obtain ⟨l1, p, q, l2, e1, e2, e3, e4, e5, e6⟩ := h.split
  have hq : q.name = n := by rw [(core_parts e5).1]; exact e3
  unfold findField
  rw [e1, e2]
  exact find_split_other hq e3 hm

theorem given_other (h : Near n w x y) (hm : m ≠ n) : Spec.given y m = Spec.given x m := by
  rw [given_eq, given_eq, h.other hm]

theorem found (h : Near n w x y) : (findField x n).isSome ∧ (findField y n).isSome := by
  obtain ⟨l1, p, q, l2, e1, e2, e3, e4, e5, e6⟩ := h.split
  have hq : q.name = n := by rw [(core_parts e5).1]; exact e3
  unfold findField
  rw [e1, e2, find_split hq e4, find_split e3 e4]
  exact ⟨rfl, rfl⟩

theorem find_isSome (h : Near n w x y) (m : CStr) : (findField y m).isSome = (findField x m).isSome := by
  by_cases hm : m = n
  · subst hm; rw [h.found.1, h.found.2]
  · rw [h.other hm]

theorem set_other (h : Near n w x y) (hm : m ≠ n) (v : Option Buf) : Near n w (setVal x m v) (setVal y m v) := by
  obtain ⟨l1, p, q, l2, e1, e2, e3, e4, e5, e6⟩ := h.split
  have hq : q.name = n := by rw [(core_parts e5).1]; exact e3
  obtain ⟨k1, k2, a1, a2, a3⟩ := updFirst_split_other (l1 := l1) (l2 := l2) (m := m) (fun f => { f with val := v }) (fun _ => rfl) e3 hq hm e4
  refine ⟨h.name, h.type, h.size, h.fill, k1, p, q, k2, ?_, ?_, e3, a3, e5, e6⟩
  · show updFirst _ _ x.fields = _
    rw [e1]; exact a1
  · show updFirst _ _ y.fields = _
    rw [e2]; exact a2

theorem set_same (h : Near n w x y) (v : Option Buf) : Near n w (setVal x n v) y := by
  obtain ⟨l1, p, q, l2, e1, e2, e3, e4, e5, e6⟩ := h.split
  refine ⟨h.name, h.type, h.size, h.fill, l1, { p with val := v }, q, l2, ?_, e2, e3, e4, ?_, e6⟩
  · show updFirst _ _ x.fields = _
    rw [e1]; exact updFirst_mid _ e3 e4
  · rw [e5]; rfl

theorem set_default (h : Near n w x y) (m : CStr) (v : Option Buf) : Near n w (setDefault x m v) (setDefault y m v) := by
  by_cases hm : m = n
  · subst hm
    unfold setDefault
    rw [h.given]
    simp only [Option.isSome_some, if_true]
    split
    · exact h
    · exact h.set_same v
  · unfold setDefault
    rw [h.given_other hm]
    split
    · exact h
    · exact h.set_other hm v

theorem set_type (h : Near n w x y) (k : Nat) : Near n w { x with type := k } { y with type := k } :=
  ⟨h.name, rfl, h.size, h.fill, h.split⟩

end Near

/-! ## The same bytes -/

theorem bitsNat_inj : ∀ (k : Nat) (xs ys : List Bool), xs.length = k → ys.length = k → bitsNat xs = bitsNat ys → xs = ys := by
  intro k
  induction k with
  | zero => intro xs ys h1 h2 _; rw [List.eq_nil_of_length_eq_zero h1, List.eq_nil_of_length_eq_zero h2]
  | succ k ih =>
    intro xs ys h1 h2 h
    have n1 : xs ≠ [] := by rintro rfl; simp at h1
    have n2 : ys ≠ [] := by rintro rfl; simp at h2
    rw [← List.dropLast_concat_getLast n1, ← List.dropLast_concat_getLast n2] at h ⊢
    rw [bitsNat_append, bitsNat_append] at h
    generalize xs.getLast n1 = a at h ⊢
    generalize ys.getLast n2 = b at h ⊢
    have ea : ∀ c : Bool, bitsNat [c] = c.toNat := by intro c; cases c <;> rfl
    rw [ea, ea] at h
    have hr := ih xs.dropLast ys.dropLast (by simp; omega) (by simp; omega) (by
      have := Bool.toNat_lt a; have := Bool.toNat_lt b
      simp only [List.length_cons, List.length_nil, Nat.zero_add, Nat.pow_one] at h
      omega)
    rw [hr] at h ⊢
    have : a = b := by
      cases a <;> cases b <;> simp at h ⊢
    rw [this]

theorem bits_of_numAt {a b : Buf} {o o' w : Nat} (h : numAt a o w = numAt b o' w) : ∀ k < w, bit a (o + k) = bit b (o' + k) := by
  have := bitsNat_inj w _ _ (bitsAt_length a o w) (bitsAt_length b o' w) h
  intro k hk
  have h2 := congrArg (fun l => l[k]?) this
  simpa [bitsAt, List.getElem?_map, List.getElem?_range hk] using h2

/-- A field which shares no bits with the other fields decides its bits alone. -/
theorem wireBit_alone {l1 l2 : List Field} {g : Field} {i : Nat} (hc : covers g i)
    (hs : ∀ k ∈ l1 ++ l2, ∀ i, covers g i → ¬ covers k i) :
    wireBit (l1 ++ g :: l2) i = match fieldValue g with
      | some v => valueBit g v i
      | none => false := by
  cases hv : fieldValue g with
  | some v => exact wireBit_last hc hv (fun k hk hck => absurd hck (hs k (by simp [hk]) i hc))
  | none =>
    apply wireBit_none
    intro k hk hck
    rcases List.mem_append.mp hk with hk | hk
    · exact absurd hck (hs k (by simp [hk]) i hc)
    · rcases List.mem_cons.mp hk with rfl | hk
      · exact hv
      · exact absurd hck (hs k (by simp [hk]) i hc)

/-- The bit of a field is decided by its number. -/
theorem num_bit {p q : Field} (hc : core q = core p) (hp : ∀ v, fieldValue p = some v → p.width ≤ 8 * v.length)
    (hq : ∀ v, fieldValue q = some v → q.width ≤ 8 * v.length) (h : fieldNum p = fieldNum q) {i : Nat} (hi : covers p i) :
    (match fieldValue p with
      | some v => valueBit p v i
      | none => false) =
    (match fieldValue q with
      | some v => valueBit q v i
      | none => false) := by
  obtain ⟨_, c2, c3, _⟩ := core_parts hc
  have key : ∀ (r : Field), r.width = p.width → r.offset = p.offset → (∀ v, fieldValue r = some v → r.width ≤ 8 * v.length) →
      ∃ (b : Buf) (o : Nat), numAt b o p.width = fieldNum r ∧ (match fieldValue r with
        | some v => valueBit r v i
        | none => false) = bit b (o + (i - p.offset)) := by
    intro r r1 r2 r3
    cases hv : fieldValue r with
    | some v =>
      refine ⟨v, 8 * v.length - p.width, ?_, ?_⟩
      · unfold fieldNum
        rw [hv]
        simp only
        rw [r1, numAt_low v p.width (by rw [← r1]; exact r3 v hv)]
      · simp only [valueBit, r1, r2]
    | none =>
      refine ⟨[], 0, ?_, ?_⟩
      · unfold fieldNum
        rw [hv]
        exact numAt_zero (fun k _ => by simp [bit])
      · simp [bit]
  obtain ⟨b1, o1, a1, a2⟩ := key p rfl rfl hp
  obtain ⟨b2, o2, d1, d2⟩ := key q c2 c3 hq
  rw [a2, d2]
  refine bits_of_numAt (w := p.width) ?_ _ ?_
  · rw [a1, d1, h]
  · unfold covers at hi; omega

/-- The field called `n` of the template shares no bits with other fields. -/
def Alone (t : Hdr) (n : CStr) : Prop :=
  ∀ l1 p l2, t.fields = l1 ++ p :: l2 → p.name = n → (∀ k ∈ l1, k.name ≠ n) → ∀ k ∈ l1 ++ l2, ∀ i, covers p i → ¬ covers k i

theorem allRel_mid {ts l1 l2 : List Field} {p : Field} (h : AllRel FieldInst ts (l1 ++ p :: l2)) :
    ∃ k1 tp k2, ts = k1 ++ tp :: k2 ∧ AllRel FieldInst k1 l1 ∧ FieldInst tp p ∧ AllRel FieldInst k2 l2 := by
  induction l1 generalizing ts with
  | nil =>
    cases h with
    | cons h1 h2 => exact ⟨[], _, _, rfl, .nil, h1, h2⟩
  | cons a l1 ih =>
    cases h with
    | cons h1 h2 =>
      obtain ⟨k1, tp, k2, e, a1, a2, a3⟩ := ih h2
      exact ⟨_ :: k1, tp, k2, by rw [e]; rfl, .cons h1 a1, a2, a3⟩

theorem allRel_mem_left {ts hs : List Field} (h : AllRel FieldInst ts hs) : ∀ a ∈ ts, ∃ b ∈ hs, FieldInst a b := by
  induction h with
  | nil => simp
  | cons hr _ ih =>
    intro a ha
    rcases List.mem_cons.mp ha with rfl | ha
    · exact ⟨_, by simp, hr⟩
    · obtain ⟨b, hb, h2⟩ := ih a ha
      exact ⟨b, by simp [hb], h2⟩

theorem Near.inst_split {t x y : Hdr} {n : CStr} {w : Buf} (h : Near n w x y) (hi : Inst t x) (ha : Alone t n) :
    ∃ l1 p q l2, x.fields = l1 ++ p :: l2 ∧ y.fields = l1 ++ q :: l2 ∧ p.name = n ∧ (∀ k ∈ l1, k.name ≠ n) ∧
      core q = core p ∧ q.val = some w ∧ ∀ k ∈ l1 ++ l2, ∀ i, covers p i → ¬ covers k i := by
  obtain ⟨l1, p, q, l2, e1, e2, e3, e4, e5, e6⟩ := h.split
  refine ⟨l1, p, q, l2, e1, e2, e3, e4, e5, e6, ?_⟩
  have hf := hi.fields
  rw [e1] at hf
  obtain ⟨k1, tp, k2, f1, f2, f3, f4⟩ := allRel_mid hf
  intro k hk i hc hck
  have hn1 : ∀ k ∈ k1, k.name ≠ n := by
    intro a ha
    obtain ⟨b, hb, hr⟩ := allRel_mem_left f2 a ha
    rw [← hr.name]; exact e4 b hb
  have := ha k1 tp k2 f1 (by rw [← f3.name]; exact e3) hn1
  have hc' : covers tp i := by unfold covers at hc ⊢; rw [f3.offset, f3.width] at hc; exact hc
  obtain ⟨a, ha', hr⟩ : ∃ a ∈ k1 ++ k2, FieldInst a k := by
    rcases List.mem_append.mp hk with hk | hk
    · obtain ⟨a, h1, h2⟩ := allRel_right f2 k hk; exact ⟨a, by simp [h1], h2⟩
    · obtain ⟨a, h1, h2⟩ := allRel_right f4 k hk; exact ⟨a, by simp [h1], h2⟩
  refine this a ha' i hc' ?_
  unfold covers at hck ⊢
  rw [hr.offset, hr.width] at hck
  exact hck

/-- Where the numbers agree, so do the bytes. -/
theorem Near.bytes {t x y : Hdr} {n : CStr} {w : Buf} (h : Near n w x y) (hi : Inst t x) (hy : Inst t y) (ht : TFits t)
    (ha : Alone t n) {ft : Field} (hft : findField t n = some ft) (hn : numOf ft (Spec.given x n) = numOf ft (some w)) :
    hdrBytes x = hdrBytes y := by
  obtain ⟨l1, p, q, l2, e1, e2, e3, e4, e5, e6, e7⟩ := h.inst_split hi ha
  obtain ⟨c1, c2, c3, c4⟩ := core_parts e5
  obtain ⟨fx, g1, g2⟩ := hi.find' hft
  have hp : fx = p := by
    unfold findField at g1
    rw [e1, find_split e3 e4] at g1
    exact (Option.some.inj g1).symm
  subst hp
  have hgx : Spec.given x n = fx.val := by unfold Spec.given; rw [e1, find_split e3 e4]; rfl
  have hnum : fieldNum fx = fieldNum q := by
    rw [hgx] at hn
    unfold numOf at hn
    unfold fieldNum fieldValue
    rw [e6]
    rw [g2.dflt, g2.width, c2, g2.width]
    cases hv : fx.val with
    | none =>
      rw [hv] at hn
      simp only [Option.none_or, Option.some_or] at hn ⊢
      exact hn
    | some v =>
      rw [hv] at hn
      simp only [Option.some_or] at hn ⊢
      exact hn
  have hpv : ∀ v, fieldValue fx = some v → fx.width ≤ 8 * v.length :=
    fun v hv => ((hi.fieldInside ht (f := fx) (by rw [e1]; simp)).2.2 v hv).2.1
  have hqv : ∀ v, fieldValue q = some v → q.width ≤ 8 * v.length :=
    fun v hv => ((hy.fieldInside ht (f := q) (by rw [e2]; simp)).2.2 v hv).2.1
  unfold hdrBytes
  rw [h.size]
  congr 1
  funext i
  rw [e1, e2]
  by_cases hc : covers fx i
  · have hcq : covers q i := by unfold covers at hc ⊢; rw [c2, c3]; exact hc
    rw [wireBit_alone hc e7, wireBit_alone hcq (fun k hk j hj => e7 k hk j (by unfold covers at hj ⊢; rw [← c2, ← c3]; exact hj))]
    exact num_bit e5 hpv hqv hnum hc
  · exact wireBit_skip hc (by unfold covers at hc ⊢; rw [c2, c3]; exact hc)

/-! ## Completing the header with one more value -/

/-- Kinds of default computation which keep the shape of the header. -/
def plainFill (k : Fill) : Bool :=
  match k with
  | .igmp | .mld | .sv | .coap | .coapOpt => false
  | _ => true

theorem num_kept {ft : Field} {n m : CStr} {x : Hdr} {v : Option Buf} {k : Nat} (hm : n ≠ m)
    (h : numOf ft (Spec.given (setDefault x m v) n) = k) : numOf ft (Spec.given x n) = k := by
  rw [given_setDefault_other x v hm] at h; exact h

theorem near_fill {t x y x' : Hdr} {n : CStr} {w : Buf} {pre post : List Hdr} (ht : t ∈ hdrTmpls) (hpl : plainFill t.fill = true)
    (hi : Inst t x) (hy : Inst t y) (hty : x.type = t.type) (h : Near n w x y) (ha : Alone t n) (hb : ∀ z ∈ pre, IsInst z)
    (hg : Goods post) (hf : ∀ z ∈ post, HdrFits z) (hx' : fillHdr pre x post = .ok x') {ft : Field} (hft : findField t n = some ft)
    (hnum : numOf ft (Spec.given x' n) = numOf ft (some w)) (hic : t.fill = .icmp → n = c!"chksum" → ipv6Below pre = none) :
    ∃ y', fillHdr pre y post = .ok y' ∧ Near n w x' y' ∧ hdrBytes x' = hdrBytes y' ∧ Inst t y' := by
  have htf := tmpls_fit t ht
  have hfy : y.fill = t.fill := hy.fill
  have hsum : sumSizes (y :: post) = sumSizes (x :: post) := by simp [sumSizes, h.size]
  unfold fillHdr at hx' ⊢
  rw [hfy]
  rw [hi.fill] at hx'
  have hsx : x.size < 2 ^ 51 := by
    have : ∀ t ∈ hdrTmpls, t.size < 2 ^ 51 := by decide +kernel
    rw [hi.size]; exact this t ht
  have hsy : y.size < 2 ^ 51 := by rw [h.size]; exact hsx
  cases hk : t.fill with
  | none =>
    rw [hk] at hx'
    simp only [Out.ok.injEq] at hx' ⊢
    subst hx'
    exact ⟨y, rfl, h, h.bytes hi hy htf ha hft hnum, hy⟩
  | etherType =>
    rw [hk] at hx'
    simp only at hx' ⊢
    have h5 := et_tmpls t ht hk
    obtain ⟨fe, hfe⟩ : ∃ ft, findField t c!"et" = some ft := by
      cases e : findField t c!"et" with
      | none => rw [e] at h5; simp at h5
      | some f => exact ⟨f, rfl⟩
    have we : fe.width = 16 := width_of hfe h5
    rw [fillEtherType_eq hi hfe post hg] at hx'
    rw [fillEtherType_eq hy hfe post hg]
    cases post with
    | nil =>
      simp only [Out.ok.injEq] at hx'
      subst hx'
      exact ⟨y, rfl, h, h.bytes hi hy htf ha hft hnum, hy⟩
    | cons z post =>
      simp only [Out.ok.injEq] at hx'
      subst hx'
      have i1 := hi.setDefault (v := some (beBytes 2 z.type)) hfe (beBytes_len_ok (by rw [we]; omega))
      have i2 := hy.setDefault (v := some (beBytes 2 z.type)) hfe (beBytes_len_ok (by rw [we]; omega))
      exact ⟨_, rfl, h.set_default _ _, (h.set_default _ _).bytes i1 i2 htf ha hft hnum, i2⟩
  | ipv4 =>
    have : t = HDR_IPV4 := by
      have : ∀ t ∈ hdrTmpls, t.fill = .ipv4 → t = HDR_IPV4 := by decide +kernel
      exact this t ht hk
    subst this
    rw [hk] at hx'
    simp only at hx' ⊢
    rw [fillIpv4_eq hi post hg] at hx'
    rw [fillIpv4_eq hy post hg]
    simp only [Out.ok.injEq] at hx'
    subst hx'
    have n0 : Near n w (ipv4Filled0 x post) (ipv4Filled0 y post) := by
      unfold ipv4Filled0
      rw [hsum]
      exact (h.set_default _ _).set_default _ _
    have i0 := ipv4Filled0_inst hi post
    have j0 := ipv4Filled0_inst hy post
    obtain ⟨fc, hfc⟩ := look HDR_IPV4 c!"chksum" (by decide +kernel)
    have wfc : fc.width = 16 := width_of hfc (by decide +kernel)
    have i1 := fun v : Nat => i0.setDefault (v := some (beBytes 2 v)) hfc (beBytes_len_ok (by rw [wfc]; omega))
    have j1 := fun v : Nat => j0.setDefault (v := some (beBytes 2 v)) hfc (beBytes_len_ok (by rw [wfc]; omega))
    by_cases hm : n = c!"chksum"
    · have n1 : Near n w (setDefault (ipv4Filled0 x post) c!"chksum" (some (beBytes 2 (inetChksum 0 (hdrBytes (ipv4Filled0 x post))))))
          (setDefault (ipv4Filled0 y post) c!"chksum" (some (beBytes 2 (inetChksum 0 (hdrBytes (ipv4Filled0 y post)))))) := by
        have e : ∀ v, setDefault (ipv4Filled0 y post) c!"chksum" v = ipv4Filled0 y post := by
          intro v; unfold setDefault; rw [← hm, n0.given]; rfl
        rw [e]
        have := n0.set_default c!"chksum" (some (beBytes 2 (inetChksum 0 (hdrBytes (ipv4Filled0 x post)))))
        rw [e] at this
        exact this
      exact ⟨_, rfl, n1, n1.bytes (i1 _) (j1 _) htf ha hft hnum, j1 _⟩
    · have hb0 := n0.bytes i0 j0 htf ha hft (num_kept hm hnum)
      rw [← hb0]
      have n1 := n0.set_default c!"chksum" (some (beBytes 2 (inetChksum 0 (hdrBytes (ipv4Filled0 x post)))))
      exact ⟨_, rfl, n1, n1.bytes (i1 _) (j1 _) htf ha hft hnum, j1 _⟩
  | ipv6 =>
    have : t = HDR_IPV6 := by
      have : ∀ t ∈ hdrTmpls, t.fill = .ipv6 → t = HDR_IPV6 := by decide +kernel
      exact this t ht hk
    subst this
    rw [hk] at hx'
    simp only at hx' ⊢
    obtain ⟨e1, i1⟩ := fillIpv6_eq hi post hg
    obtain ⟨e2, j1⟩ := fillIpv6_eq hy post hg
    rw [e1] at hx'
    simp only [Out.ok.injEq] at hx'
    subst hx'
    have n1 : Near n w (ipv6Filled x post) (ipv6Filled y post) := by
      unfold ipv6Filled
      exact (h.set_default _ _).set_default _ _
    exact ⟨_, e2, n1, n1.bytes i1 j1 htf ha hft hnum, j1⟩
  | udpTcp =>
    rw [hk] at hx'
    simp only at hx' ⊢
    have h5 := (fill_names t ht).2.2.2.2.2.2 hk
    obtain ⟨e1, i1⟩ := fillUdpTcp_eq h5 hi hty pre post hb hg hf
    obtain ⟨e2, j1⟩ := fillUdpTcp_eq h5 hy (by rw [h.type]; exact hty) pre post hb hg hf
    have hw : ∀ ft, findField t c!"len" = some ft → ft.width = 16 := by
      intro ft hft
      rcases h5 with rfl | rfl
      · exact width_of hft (by decide +kernel)
      · have : findField HDR_TCP c!"len" = none := by decide +kernel
        rw [this] at hft; simp at hft
    have i0 := (fillUdpLen_eq hi hw hsx post hg).2
    have j0 := (fillUdpLen_eq hy hw hsy post hg).2
    rw [e1] at hx'
    simp only [Out.ok.injEq] at hx'
    subst hx'
    have n0 : Near n w (lenFilled x post) (lenFilled y post) := by
      unfold lenFilled
      have := h.find_isSome c!"len"
      cases hfx : findField x c!"len" with
      | none =>
        rw [hfx] at this
        cases hfy : findField y c!"len" with
        | none => exact h
        | some b => rw [hfy] at this; simp at this
      | some a =>
        rw [hfx] at this
        cases hfy : findField y c!"len" with
        | none => rw [hfy] at this; simp at this
        | some b =>
          simp only [hsum]
          exact h.set_default _ _
    have n1 : Near n w (udpFilled pre x post) (udpFilled pre y post) := by
      unfold udpFilled at hnum ⊢
      rw [hsum, h.type]
      cases hp : pseudoBytes pre x.type (sumSizes (x :: post)) with
      | none => exact n0
      | some pb =>
        rw [hp] at hnum
        simp only at hnum ⊢
        by_cases hm : n = c!"chksum"
        · have e : ∀ v, setDefault (lenFilled y post) c!"chksum" v = lenFilled y post := by
            intro v; unfold setDefault; rw [← hm, n0.given]; rfl
          rw [e]
          have := n0.set_default c!"chksum" (some (beBytes 2 (inetChksum 0 (pb ++ ((lenFilled x post :: post).map hdrBytes).flatten))))
          rw [e] at this
          exact this
        · have hb0 := n0.bytes i0 j0 htf ha hft (num_kept hm hnum)
          have e : (lenFilled y post :: post).map hdrBytes = (lenFilled x post :: post).map hdrBytes := by simp [hb0]
          rw [e]
          exact n0.set_default _ _
    exact ⟨_, e2, n1, n1.bytes i1 j1 htf ha hft hnum, j1⟩
  | icmp =>
    have : t = HDR_ICMP := by
      have : ∀ t ∈ hdrTmpls, t.fill = .icmp → t = HDR_ICMP := by decide +kernel
      exact this t ht hk
    subst this
    rw [hk] at hx'
    simp only at hx' ⊢
    obtain ⟨e1, i1⟩ := fillIcmp_eq hi pre post hb hg hf
    obtain ⟨e2, j1⟩ := fillIcmp_eq hy pre post hb hg hf
    rw [e1] at hx'
    simp only [Out.ok.injEq] at hx'
    subst hx'
    have n1 : Near n w (icmpFilled pre x post) (icmpFilled pre y post) := by
      by_cases hm : n = c!"chksum"
      · have h6 := hic hk hm
        have e : icmpFilled pre y post = y := by
          unfold icmpFilled; rw [← hm, h.given]; rfl
        rw [e]
        unfold icmpFilled
        split
        · exact h
        · rw [h6]
          subst hm
          exact h.set_same _
      · unfold icmpFilled at hnum ⊢
        rw [h.given_other (fun c => hm c.symm)]
        split
        · exact h
        · rename_i hc
          rw [if_neg hc] at hnum
          have hb0 : hdrBytes x = hdrBytes y := by
            refine h.bytes hi hy htf ha hft ?_
            rw [← hnum]
            cases ipv6Below pre with
            | none => simp only; rw [given_setVal_other _ _ hm]
            | some ll => simp only; rw [given_setVal_other _ _ hm]; rfl
          have e : (y :: post).map hdrBytes = (x :: post).map hdrBytes := by simp [hb0]
          rw [hsum, e]
          cases ipv6Below pre with
          | none => exact h.set_other (fun c => hm c.symm) _
          | some ll => exact (h.set_type 58).set_other (fun c => hm c.symm) _
    exact ⟨_, e2, n1, n1.bytes i1 j1 htf ha hft hnum, j1⟩
  | ptp =>
    rw [hk] at hx'
    simp only at hx' ⊢
    have h5 := ptp_tmpls t ht hk
    obtain ⟨e1, i1⟩ := fillPtp_eq hi (fun ft hft => width_of hft h5) hsx post hg
    obtain ⟨e2, j1⟩ := fillPtp_eq hy (fun ft hft => width_of hft h5) hsy post hg
    rw [e1] at hx'
    simp only [Out.ok.injEq] at hx'
    subst hx'
    have n1 : Near n w (ptpFilled x post) (ptpFilled y post) := by
      unfold ptpFilled
      have := h.find_isSome c!"hdr-messageLength"
      cases hfx : findField x c!"hdr-messageLength" with
      | none =>
        rw [hfx] at this
        cases hfy : findField y c!"hdr-messageLength" with
        | none => exact h
        | some b => rw [hfy] at this; simp at this
      | some a =>
        rw [hfx] at this
        cases hfy : findField y c!"hdr-messageLength" with
        | none => rw [hfy] at this; simp at this
        | some b =>
          simp only [hsum]
          exact h.set_default _ _
    exact ⟨_, e2, n1, n1.bytes i1 j1 htf ha hft hnum, j1⟩
  | ptpTlv =>
    rw [hk] at hx'
    simp only at hx' ⊢
    obtain ⟨h5, h6⟩ := tlv_tmpls t ht hk
    obtain ⟨e1, i1⟩ := fillPtpTlv_eq hi (fun ft hft => width_of hft h5) hsx h6 post hg
    obtain ⟨e2, j1⟩ := fillPtpTlv_eq hy (fun ft hft => width_of hft h5) hsy h6 post hg
    rw [e1] at hx'
    simp only [Out.ok.injEq] at hx'
    subst hx'
    have n1 : Near n w (tlvFilled x post) (tlvFilled y post) := by
      unfold tlvFilled
      have := h.find_isSome c!"tlv-length"
      cases hfx : findField x c!"tlv-length" with
      | none =>
        rw [hfx] at this
        cases hfy : findField y c!"tlv-length" with
        | none => exact h
        | some b => rw [hfy] at this; simp at this
      | some a =>
        rw [hfx] at this
        cases hfy : findField y c!"tlv-length" with
        | none => rw [hfy] at this; simp at this
        | some b =>
          simp only [hsum]
          exact h.set_default _ _
    exact ⟨_, e2, n1, n1.bytes i1 j1 htf ha hft hnum, j1⟩
  | igmp => rw [hk] at hpl; simp [plainFill] at hpl
  | mld => rw [hk] at hpl; simp [plainFill] at hpl
  | sv => rw [hk] at hpl; simp [plainFill] at hpl
  | coap => rw [hk] at hpl; simp [plainFill] at hpl
  | coapOpt => rw [hk] at hpl; simp [plainFill] at hpl

/-! ## The other headers -/

/-- Completed headers which look the same to the headers below. -/
structure Same (a b : Hdr) : Prop where
  size : b.size = a.size
  type : b.type = a.type
  bytes : hdrBytes b = hdrBytes a
  fits : HdrFits a ∧ HdrFits b
  good : Good b

theorem Same.refl {a : Hdr} (h1 : HdrFits a) (h2 : Good a) : Same a a := ⟨rfl, rfl, rfl, ⟨h1, h1⟩, h2⟩

theorem same_sizes {l k : List Hdr} (h : All2 Same l k) : sumSizes k = sumSizes l ∧ k.map hdrBytes = l.map hdrBytes ∧
    protoNum k = protoNum l ∧ k.length = l.length ∧ (∀ a ∈ k, HdrFits a ∧ Good a) ∧
    (k.map (·.type) = l.map (·.type)) := by
  induction h with
  | nil => simp
  | cons r _ ih =>
    obtain ⟨a1, a2, a3, a4, a5, a6⟩ := ih
    refine ⟨?_, ?_, r.type, by simp [a4], ?_, by simp [r.type, a6]⟩
    · simp [sumSizes, r.size] at *; omega
    · simp [r.bytes, a2]
    · intro a ha
      rcases List.mem_cons.mp ha with rfl | ha
      · exact ⟨r.fits.2, r.good⟩
      · exact a5 a ha

theorem same_above {below above above' : List Hdr} {x : Hdr} (hb : ∀ y ∈ below, IsInst y) (ha : Goods above)
    (hfa : ∀ y ∈ above, HdrFits y) (hx : IsInst x) (hnm : x.name ≠ c!"mld") (h : All2 Same above above') :
    fillHdr below x above' = fillHdr below x above := by
  obtain ⟨s1, s2, s3, s4, s5, s6⟩ := same_sizes h
  have ha' : Goods above' := ⟨fun z hz => (s5 z hz).2, by rw [s4]; exact ha.len⟩
  have hfa' : ∀ y ∈ above', HdrFits y := fun z hz => (s5 z hz).1
  have hg := inst_good hx
  have hs : sumSizes (x :: above') = sumSizes (x :: above) := by simp [sumSizes] at *; omega
  unfold fillHdr
  cases hf : x.fill with
  | none => rfl
  | etherType =>
    obtain ⟨t, h1, h2, h3, h4⟩ := inst_of_fill hx (by rw [hf]; decide)
    have h5 := et_tmpls t h1 (by rw [h2, hf])
    obtain ⟨ft, hft⟩ : ∃ ft, findField t c!"et" = some ft := by
      cases e : findField t c!"et" with
      | none => rw [e] at h5; simp at h5
      | some f => exact ⟨f, rfl⟩
    simp only
    rw [fillEtherType_eq h3 hft above ha, fillEtherType_eq h3 hft above' ha']
    cases h with
    | nil => rfl
    | cons r _ => simp only [r.type]
  | ipv4 =>
    obtain ⟨h3, h4⟩ := tmpl_of_fill hx .ipv4 HDR_IPV4 hf (by decide) (by decide +kernel)
    simp only
    rw [fillIpv4_eq h3 above ha, fillIpv4_eq h3 above' ha']
    unfold ipv4Filled0
    rw [hs, s3]
  | ipv6 =>
    obtain ⟨h3, h4⟩ := tmpl_of_fill hx .ipv6 HDR_IPV6 hf (by decide) (by decide +kernel)
    simp only
    rw [(fillIpv6_eq h3 above ha).1, (fillIpv6_eq h3 above' ha').1]
    unfold ipv6Filled
    rw [s1, s3]
  | udpTcp =>
    obtain ⟨t, h1, h2, h3, h4⟩ := inst_of_fill hx (by rw [hf]; decide)
    have h5 := (fill_names t h1).2.2.2.2.2.2 (by rw [h2, hf])
    simp only
    rw [(fillUdpTcp_eq h5 h3 h4 below above hb ha hfa).1, (fillUdpTcp_eq h5 h3 h4 below above' hb ha' hfa').1]
    have e : lenFilled x above' = lenFilled x above := by unfold lenFilled; rw [hs]
    unfold udpFilled
    rw [hs, e, List.map_cons, List.map_cons, s2]
  | icmp =>
    obtain ⟨h3, h4⟩ := tmpl_of_fill hx .icmp HDR_ICMP hf (by decide) (by decide +kernel)
    simp only
    rw [(fillIcmp_eq h3 below above hb ha hfa).1, (fillIcmp_eq h3 below above' hb ha' hfa').1]
    unfold icmpFilled
    rw [hs, List.map_cons, List.map_cons, s2]
  | igmp =>
    obtain ⟨h3, h4⟩ := tmpl_of_fill hx .igmp HDR_IGMP hf (by decide) (by decide +kernel)
    simp only
    rw [(fillIgmp_eq h3 above hfa).1, (fillIgmp_eq h3 above' hfa').1]
    unfold igmpFilled
    rw [List.map_cons, List.map_cons, s2]
  | mld =>
    obtain ⟨h3, h4⟩ := tmpl_of_fill hx .mld HDR_MLD hf (by decide) (by decide +kernel)
    exact absurd (by rw [h3.name]; decide +kernel) hnm
  | sv => rfl
  | coap => rfl
  | coapOpt => rfl
  | ptp =>
    obtain ⟨t, h1, h2, h3, h4⟩ := inst_of_fill hx (by rw [hf]; decide)
    have h5 := ptp_tmpls t h1 (by rw [h2, hf])
    simp only
    rw [(fillPtp_eq h3 (fun ft hft => width_of hft h5) hg.small above ha).1,
      (fillPtp_eq h3 (fun ft hft => width_of hft h5) hg.small above' ha').1]
    unfold ptpFilled
    rw [hs]
  | ptpTlv =>
    obtain ⟨t, h1, h2, h3, h4⟩ := inst_of_fill hx (by rw [hf]; decide)
    obtain ⟨h5, h6⟩ := tlv_tmpls t h1 (by rw [h2, hf])
    simp only
    rw [(fillPtpTlv_eq h3 (fun ft hft => width_of hft h5) hg.small h6 above ha).1,
      (fillPtpTlv_eq h3 (fun ft hft => width_of hft h5) hg.small h6 above' ha').1]
    unfold tlvFilled
    rw [hs]

/-- Headers below which give the same pseudo headers. -/
def SameBelow (below below' : List Hdr) : Prop :=
  (∀ p l, pseudoBytes below' p l = pseudoBytes below p l) ∧
  (ipv6Below below').isSome = (ipv6Below below).isSome

theorem icmp_pseudo (below : List Hdr) (x : Hdr) (above : List Hdr) : icmpFilled below x above =
    if (Spec.given x c!"chksum").isSome then x
    else
      match (ipv6Below below).isSome, pseudoBytes below 58 (sumSizes (x :: above)) with
      | true, some pb => setVal { x with type := 58 } c!"chksum" (some (beBytes 2 (inetChksum 0 (pb ++
          ((x :: above).map hdrBytes).flatten))))
      | _, _ => setVal x c!"chksum" (some (beBytes 2 (inetChksum 0 ((x :: above).map hdrBytes).flatten))) := by
  unfold icmpFilled
  split
  · rfl
  · unfold ipv6Below pseudoBytes
    cases below.getLast? with
    | none => rfl
    | some ll =>
      simp only
      by_cases h : ll.name = c!"ipv6"
      · have h4 : ¬ ll.name = c!"ipv4" := by rw [h]; decide
        rw [if_pos h, if_neg h4, if_pos h]
        rfl
      · rw [if_neg h]
        by_cases h4 : ll.name = c!"ipv4"
        · rw [if_pos h4]; rfl
        · rw [if_neg h4, if_neg h]; rfl

theorem same_below {below below' above : List Hdr} {x : Hdr} (hb : ∀ y ∈ below, IsInst y) (hb' : ∀ y ∈ below', IsInst y)
    (ha : Goods above) (hfa : ∀ y ∈ above, HdrFits y) (hx : IsInst x) (hnm : x.name ≠ c!"mld") (h : SameBelow below below') :
    fillHdr below' x above = fillHdr below x above := by
  unfold fillHdr
  cases hf : x.fill with
  | udpTcp =>
    obtain ⟨t, h1, h2, h3, h4⟩ := inst_of_fill hx (by rw [hf]; decide)
    have h5 := (fill_names t h1).2.2.2.2.2.2 (by rw [h2, hf])
    simp only
    rw [(fillUdpTcp_eq h5 h3 h4 below above hb ha hfa).1, (fillUdpTcp_eq h5 h3 h4 below' above hb' ha hfa).1]
    unfold udpFilled
    rw [h.1]
  | icmp =>
    obtain ⟨h3, h4⟩ := tmpl_of_fill hx .icmp HDR_ICMP hf (by decide) (by decide +kernel)
    simp only
    rw [(fillIcmp_eq h3 below above hb ha hfa).1, (fillIcmp_eq h3 below' above hb' ha hfa).1, icmp_pseudo, icmp_pseudo, h.1, h.2]
  | mld =>
    obtain ⟨h3, h4⟩ := tmpl_of_fill hx .mld HDR_MLD hf (by decide) (by decide +kernel)
    exact absurd (by rw [h3.name]; decide +kernel) hnm
  | none => rfl
  | etherType => rfl
  | ipv4 => rfl
  | ipv6 => rfl
  | igmp => rfl
  | sv => rfl
  | coap => rfl
  | coapOpt => rfl
  | ptp => rfl
  | ptpTlv => rfl

theorem SameBelow.of_last {below below' : List Hdr} (h : below'.getLast? = below.getLast?) : SameBelow below below' := by
  unfold SameBelow pseudoBytes ipv6Below
  rw [h]
  exact ⟨fun _ _ => rfl, rfl⟩

/-- The headers above do not notice. -/
theorem same_post {post : List Hdr} : ∀ {below below' post' : List Hdr}, (∀ y ∈ below, IsInst y) → (∀ y ∈ below', IsInst y) →
    (∀ y ∈ post, IsInst y ∧ Tame y ∧ y.name ≠ c!"mld") → post.length ≤ 1000 → SameBelow below below' →
    fillStack below post = .ok post' → fillStack below' post = .ok post' := by
  induction post with
  | nil => intro _ _ _ _ _ _ _ _ h; exact h
  | cons z post ih =>
    intro below below' post' hb hb' hp hl hs h
    have hz := hp z (by simp)
    simp only [fillStack, Out.bind_eq_ok, Out.ok.injEq] at h ⊢
    obtain ⟨ab, h1, z', h2, rfl⟩ := h
    have hb1 : ∀ y ∈ below ++ [z], IsInst y := by
      intro y hy
      rcases List.mem_append.mp hy with hy | hy
      · exact hb y hy
      · simp only [List.mem_singleton] at hy; subst hy; exact hz.1
    have hb1' : ∀ y ∈ below' ++ [z], IsInst y := by
      intro y hy
      rcases List.mem_append.mp hy with hy | hy
      · exact hb' y hy
      · simp only [List.mem_singleton] at hy; subst hy; exact hz.1
    simp only [List.length_cons] at hl
    refine ⟨ab, ih hb1 hb1' (fun y hy => hp y (by simp [hy])) (by omega) (.of_last (by simp)) h1, z', ?_, rfl⟩
    rcases fillStack_good hb1 (fun y hy => ⟨(hp y (by simp [hy])).1, (hp y (by simp [hy])).2.1⟩) (by omega : post.length ≤ 1000) with
      ⟨k, e1, e2, _⟩ | ⟨e, _⟩
    · rw [h1] at e1
      cases e1
      rw [same_below hb hb' e2.1 e2.2 hz.1 hz.2.2 hs]
      exact h2
    · rw [h1] at e; simp at e

/-- The headers below do not notice. -/
theorem same_pre {x y : Hdr} {post : List Hdr} : ∀ {pre below k : List Hdr}, (∀ z ∈ below ++ pre ++ x :: post, IsInst z) →
    (∀ z ∈ pre ++ x :: post, Tame z ∧ z.name ≠ c!"mld") → (pre ++ x :: post).length ≤ 1000 →
    (∀ k, fillStack (below ++ pre) (x :: post) = .ok k → ∃ k', fillStack (below ++ pre) (y :: post) = .ok k' ∧ All2 Same k k') →
    fillStack below (pre ++ x :: post) = .ok k →
    ∃ k', fillStack below (pre ++ y :: post) = .ok k' ∧ All2 Same k k' ∧ (∀ z ∈ k, HdrFits z) := by
  intro pre
  induction pre with
  | nil =>
    intro below k hi ht hl hm h
    simp only [List.append_nil, List.nil_append] at *
    obtain ⟨k', a1, a2⟩ := hm k h
    refine ⟨k', a1, a2, ?_⟩
    rcases fillStack_good (below := below) (hs := x :: post) (fun z hz => hi z (by simp [hz]))
      (fun z hz => ⟨hi z (List.mem_append_right _ hz), (ht z hz).1⟩) hl with
      ⟨k1, e1, e2, _⟩ | ⟨e, _⟩
    · rw [h] at e1; cases e1; exact e2.2
    · rw [h] at e; simp at e
  | cons z pre ih =>
    intro below k hi ht hl hm h
    have hall := h
    simp only [List.cons_append, fillStack, Out.bind_eq_ok, Out.ok.injEq] at h ⊢
    obtain ⟨ab, h1, z', h2, rfl⟩ := h
    have hz := ht z (by simp)
    have hiz := hi z (by simp)
    simp only [List.cons_append, List.length_cons] at hl
    obtain ⟨ab', b1, b2, b3⟩ := ih (below := below ++ [z]) (k := ab) (fun a ha => hi a (by simpa using ha))
      (fun a ha => ht a (by simp at ha ⊢; exact Or.inr ha)) (by omega)
      (fun k hk => by have := hm k (by simpa using hk); simpa using this) h1
    have hgood := fillStack_any (below := below ++ [z]) (fun a ha => hi a (by simp at ha ⊢; rcases ha with ha | ha <;> simp [ha]))
      (fun a ha => hi a (by simp at ha ⊢; exact Or.inr (Or.inr ha))) (by omega) h1
    have hbelow : ∀ a ∈ below, IsInst a := fun a ha => hi a (by simp [ha])
    have e := same_above hbelow hgood.1 b3 hiz hz.2 b2
    have hzz : HdrFits z' ∧ Good z' := by
      rcases fillStack_good hbelow (fun a ha => ⟨hi a (by rw [List.append_assoc]; exact List.mem_append_right _ ha), (ht a ha).1⟩)
        (by simpa using hl : (z :: pre ++ x :: post).length ≤ 1000) with ⟨k1, e1, e2, _⟩ | ⟨e, _⟩
      · rw [hall] at e1; cases e1
        exact ⟨e2.2 z' (by simp), e2.1.good z' (by simp)⟩
      · rw [hall] at e; simp at e
    refine ⟨z' :: ab', ⟨ab', b1, z', by rw [e]; exact h2, rfl⟩, .cons (.refl hzz.1 hzz.2) b2, ?_⟩
    intro a ha
    rcases List.mem_cons.mp ha with rfl | ha
    · exact hzz.1
    · exact b3 a ha

/-! ## The addresses -/

/-- The names of the addresses in IP headers. -/
def addrNames : List CStr := [c!"sip", c!"dip"]

theorem near_slice {t x y : Hdr} {n : CStr} {w : Buf} (h : Near n w x y) (hi : Inst t x) (ha : Alone t n)
    {o m : Nat} (hm : o + m ≤ t.size) (hout : ∀ ft ∈ t.fields, ft.name = n → ft.offset + ft.width ≤ 8 * o ∨ 8 * (o + m) ≤ ft.offset) :
    slice (hdrBytes x) o m = slice (hdrBytes y) o m := by
  obtain ⟨l1, p, q, l2, e1, e2, e3, e4, e5, e6, e7⟩ := h.inst_split hi ha
  obtain ⟨c1, c2, c3, c4⟩ := core_parts e5
  have hlx : (hdrBytes x).length = t.size := by rw [hdrBytes_length, hi.size]
  have hly : (hdrBytes y).length = t.size := by rw [hdrBytes_length, h.size, hi.size]
  have hsy : y.size = t.size := by rw [h.size, hi.size]
  apply buf_ext
  · rw [slice_length _ _ _ (by omega), slice_length _ _ _ (by omega)]
  · intro i hil
    rw [slice_length _ _ _ (by omega)] at hil
    rw [bit_slice _ _ _ _ hil, bit_slice _ _ _ _ hil, bit_hdrBytes x _ (by rw [hi.size]; omega), bit_hdrBytes y _ (by omega), e1, e2]
    obtain ⟨tp, hm1, hr⟩ := allRel_right hi.fields p (by rw [e1]; simp)
    have := hout tp hm1 (by rw [← hr.name]; exact e3)
    refine wireBit_skip ?_ ?_
    · unfold covers; rw [hr.offset, hr.width]; omega
    · unfold covers; rw [c2, c3, hr.offset, hr.width]; omega

theorem ip_only : ∀ t ∈ hdrTmpls, (t.name = c!"ipv4" → t = HDR_IPV4) ∧ (t.name = c!"ipv6" → t = HDR_IPV6) := by decide +kernel

theorem addr_out4 : ∀ ft ∈ HDR_IPV4.fields, ft.name ∉ addrNames → ft.offset + ft.width ≤ 96 ∨ 160 ≤ ft.offset := by decide +kernel
theorem addr_out6 : ∀ ft ∈ HDR_IPV6.fields, ft.name ∉ addrNames → ft.offset + ft.width ≤ 64 ∨ 320 ≤ ft.offset := by decide +kernel

theorem near_below {t x y x' : Hdr} {n : CStr} {w : Buf} {pre post : List Hdr} (ht : t ∈ hdrTmpls)
    (hi : Inst t x) (hy : Inst t y) (h : Near n w x y) (ha : Alone t n)
    (hg : Goods post) (hx' : fillHdr pre x post = .ok x') {ft : Field} (hft : findField t n = some ft)
    (hnum : numOf ft (Spec.given x' n) = numOf ft (some w)) : SameBelow (pre ++ [x]) (pre ++ [y]) := by
  have htf := tmpls_fit t ht
  unfold SameBelow pseudoBytes ipv6Below
  simp only [List.getLast?_append, List.getLast?_singleton, Option.some_or]
  rw [h.name]
  refine ⟨fun p l => ?_, by split <;> rfl⟩
  by_cases h4 : x.name = c!"ipv4"
  · rw [if_pos h4, if_pos h4]
    have := (ip_only t ht).1 (by rw [← hi.name]; exact h4)
    subst this
    by_cases hn : n ∈ addrNames
    · have hb : hdrBytes x = hdrBytes y := by
        refine h.bytes hi hy htf ha hft ?_
        rw [← hnum]
        have e := fillIpv4_eq hi post hg
        have hk : HDR_IPV4.fill = .ipv4 := by decide +kernel
        unfold fillHdr at hx'
        rw [hi.fill, hk] at hx'
        simp only at hx'
        rw [e] at hx'
        simp only [Out.ok.injEq] at hx'
        have n1 : n ≠ c!"chksum" := by intro c; subst c; exact absurd hn (by decide)
        have n2 : n ≠ c!"len" := by intro c; subst c; exact absurd hn (by decide)
        have n3 : n ≠ c!"proto" := by intro c; subst c; exact absurd hn (by decide)
        rw [← hx', given_setDefault_other _ _ n1]
        unfold ipv4Filled0
        rw [given_setDefault_other _ _ n2, given_setDefault_other _ _ n3]
      rw [hb]
    · have o : ∀ f ∈ HDR_IPV4.fields, f.name = n → f.offset + f.width ≤ 96 ∨ 160 ≤ f.offset :=
        fun f hf hfn => addr_out4 f hf (by rw [hfn]; exact hn)
      rw [near_slice h hi ha (o := 12) (m := 4) (by decide +kernel) (fun f hf hfn => by have := o f hf hfn; omega),
        near_slice h hi ha (o := 16) (m := 4) (by decide +kernel) (fun f hf hfn => by have := o f hf hfn; omega)]
  · rw [if_neg h4, if_neg h4]
    by_cases h6 : x.name = c!"ipv6"
    · rw [if_pos h6, if_pos h6]
      have := (ip_only t ht).2 (by rw [← hi.name]; exact h6)
      subst this
      by_cases hn : n ∈ addrNames
      · have hb : hdrBytes x = hdrBytes y := by
          refine h.bytes hi hy htf ha hft ?_
          rw [← hnum]
          have e := (fillIpv6_eq hi post hg).1
          have hk : HDR_IPV6.fill = .ipv6 := by decide +kernel
          unfold fillHdr at hx'
          rw [hi.fill, hk] at hx'
          simp only at hx'
          rw [e] at hx'
          simp only [Out.ok.injEq] at hx'
          have n2 : n ≠ c!"len" := by intro c; subst c; exact absurd hn (by decide)
          have n3 : n ≠ c!"next" := by intro c; subst c; exact absurd hn (by decide)
          rw [← hx']
          unfold ipv6Filled
          rw [given_setDefault_other _ _ n2, given_setDefault_other _ _ n3]
        rw [hb]
      · have o : ∀ f ∈ HDR_IPV6.fields, f.name = n → f.offset + f.width ≤ 64 ∨ 320 ≤ f.offset :=
          fun f hf hfn => addr_out6 f hf (by rw [hfn]; exact hn)
        rw [near_slice h hi ha (o := 8) (m := 16) (by decide +kernel) (fun f hf hfn => by have := o f hf hfn; omega),
          near_slice h hi ha (o := 24) (m := 16) (by decide +kernel) (fun f hf hfn => by have := o f hf hfn; omega)]
    · rw [if_neg h6, if_neg h6]

/-! ## The frame -/

/-- A frame in which one more value is written out that would be sent anyway. -/
theorem near_frame {argv : List CStr} {f f' g : Frame} {b : Buf} (hB : Built argv f f' b) {pre post pre' post' : List Hdr} {x x' y t : Hdr}
    (hat : At f f' pre x post pre' x' post') (hstk : g.stack = pre ++ y :: post)
    (hnm : ∀ z ∈ f.stack, z.name ≠ c!"mld") {n : CStr} {w : Buf} (ht : t ∈ hdrTmpls) (hpl : plainFill t.fill = true)
    (hi : Inst t x) (hy : Inst t y) (hty : x.type = t.type) (h : Near n w x y) (ha : Alone t n) {ft : Field}
    (hft : findField t n = some ft) (hnum : numOf ft (Spec.given x' n) = numOf ft (some w))
    (hic : t.fill = .icmp → n = c!"chksum" → ipv6Below pre = none) :
    ∃ g', frameToBuf g = .ok (g', b) := by
  have hinst := hB.inst
  have hlen : f.stack.length ≤ 1000 := by
    have := hB.goods.1.len
    have := hB.goods.2.1
    omega
  have hpre : ∀ z ∈ pre, IsInst z := fun z hz => hinst z (by rw [hat.before]; simp [hz])
  have hpost : ∀ z ∈ post, IsInst z ∧ Tame z ∧ z.name ≠ c!"mld" := fun z hz =>
    have : z ∈ f.stack := by rw [hat.before]; simp [hz]
    ⟨hinst z this, hB.tame z this, hnm z this⟩
  have hfs := (frameToBuf_stack hB.bytes).1
  rw [hat.before] at hfs hlen
  have hyty : y.type = t.type := by rw [h.type]; exact hty
  have hyi : IsInst y := ⟨t, ht, t, .same t, hy, hyty⟩
  have hstep : ∀ k, fillStack ([] ++ pre) (x :: post) = .ok k →
      ∃ k', fillStack ([] ++ pre) (y :: post) = .ok k' ∧ All2 Same k k' := by
    intro k hk
    obtain ⟨p1, z, q1, d1, d2, d3, d4, d5⟩ := fillStack_append hfs (pre := pre) (x := x) (post := post) rfl
    have hlp : p1.length = pre'.length := by rw [d2, hat.same]
    rw [hat.after] at d1
    obtain ⟨rfl, d6⟩ := List.append_inj d1 hlp.symm
    simp only [List.cons.injEq] at d6
    obtain ⟨rfl, rfl⟩ := d6
    simp only [List.nil_append, fillStack, Out.bind_eq_ok, Out.ok.injEq] at hk d4 d5 ⊢
    obtain ⟨ab, h1, z', h2, rfl⟩ := hk
    rw [d4] at h1
    cases h1
    rw [d5] at h2
    cases h2
    have hgp : Goods post' := ⟨fun z hz => hB.goods.1.good z (by rw [hat.after]; simp [hz]), by
      have := hB.goods.1.len; rw [hat.after] at this; simp at this; omega⟩
    have hfp := hB.fitsAfter hat
    obtain ⟨y', e1, e2, e3, e4⟩ := near_fill ht hpl hi hy hty h ha hpre hgp hfp d5 hft hnum hic
    have hbel := near_below ht hi hy h ha hgp d5 hft hnum
    have hb1 : ∀ a ∈ pre ++ [x], IsInst a := by
      intro a ha
      rcases List.mem_append.mp ha with ha | ha
      · exact hpre a ha
      · simp only [List.mem_singleton] at ha; subst ha; exact hinst _ (by rw [hat.before]; simp)
    have hb2 : ∀ a ∈ pre ++ [y], IsInst a := by
      intro a ha
      rcases List.mem_append.mp ha with ha | ha
      · exact hpre a ha
      · simp only [List.mem_singleton] at ha; subst ha; exact hyi
    have hps := same_post hb1 hb2 hpost (by simp at hlen; omega) hbel d4
    refine ⟨y' :: post', ⟨post', hps, y', e1, rfl⟩, .cons ?_ ?_⟩
    · have hgx : Good x' := hB.goods.1.good x' (by rw [hat.after]; simp)
      exact ⟨e2.size, e2.type, e3.symm, ⟨hB.fits x' (by rw [hat.after]; simp), e4.hdrFits (tmpls_fit t ht)⟩,
        ⟨by rw [e2.size]; exact hgx.small, by rw [e2.type]; exact hgx.type⟩⟩
    · have : ∀ l : List Hdr, (∀ a ∈ l, HdrFits a ∧ Good a) → All2 Same l l := by
        intro l
        induction l with
        | nil => intro _; exact .nil
        | cons a l ih => intro hl; exact .cons (.refl (hl a (by simp)).1 (hl a (by simp)).2) (ih (fun c hc => hl c (by simp [hc])))
      exact this post' (fun a ha => ⟨hfp a ha, hgp.good a ha⟩)
  obtain ⟨k', a1, a2, a3⟩ := same_pre (x := x) (y := y) (pre := pre) (below := []) (fun z hz => hinst z (by rw [hat.before]; simpa using hz))
    (fun z hz => ⟨hB.tame z (by rw [hat.before]; exact hz), hnm z (by rw [hat.before]; exact hz)⟩) hlen hstep hfs
  obtain ⟨s1, s2, s3, s4, s5, s6⟩ := same_sizes a2
  have c := C15_frame_bytes f f' b hB.bytes hB.fits
  refine ⟨{ g with stack := k' }, ?_⟩
  unfold frameToBuf
  rw [hstk, a1, Out.ok_bind]
  have key := copyHdrs_ok false k' [] (zeros (60 - sumSizes k')) (fun x hx => (s5 x hx).1.fits)
  simp only [List.nil_append, List.length_nil] at key
  have e : balloc (frameSize k') = zeros (sumSizes k') ++ zeros (60 - sumSizes k') := by
    rw [← zeros_append]
    unfold frameSize balloc zeros
    congr 1
    split <;> omega
  rw [e, key, Out.ok_bind]
  have e2 : k'.map (render false) = k'.map hdrBytes := by
    apply List.map_congr_left; intro x _; exact render_wire x
  rw [e2, s2, s1, c.1, totalSize_eq]

end Ef
