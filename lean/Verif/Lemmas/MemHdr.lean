import Verif.Lemmas.MemCore

/-! # Headers with pointers: values, blocks, copies, serialisation -/

namespace Ef

/-! ## Values -/

theorem find_erase (h : PHdr) (n : CStr) : findField h.erase n = (h.find n).map PField.erase := by
  unfold findField PHdr.find PHdr.erase
  simp only
  induction h.fields with
  | nil => rfl
  | cons f fs ih =>
    simp only [List.map_cons, List.find?_cons]
    have : (f.erase.name == n) = (f.base.name == n) := rfl
    rw [this]
    cases f.base.name == n
    · exact ih
    · rfl

theorem updFirst_map (fs : List PField) (n : CStr) (g : PField → PField) (g' : Field → Field)
    (hg : ∀ f, (g f).erase = g' f.erase) :
    (updFirst (fun f => f.base.name == n) g fs).map PField.erase =
      updFirst (fun f => f.name == n) g' (fs.map PField.erase) := by
  induction fs with
  | nil => rfl
  | cons f fs ih =>
    simp only [updFirst, List.map_cons]
    have : (f.erase.name == n) = (f.base.name == n) := rfl
    rw [this]
    by_cases hn : (f.base.name == n) = true
    · rw [if_pos hn, if_pos hn]
      simp [hg]
    · rw [if_neg hn, if_neg hn]
      simp [ih]

theorem upd_erase (h : PHdr) (n : CStr) (g : PField → PField) (g' : Field → Field)
    (hg : ∀ f, (g f).erase = g' f.erase) : (h.upd n g).erase = updField h.erase n g' := by
  unfold PHdr.upd updField PHdr.erase
  simp only
  rw [updFirst_map _ _ _ _ hg]

theorem setVal_erase (h : PHdr) (n : CStr) (v : Option PBuf) :
    (h.setVal n v).erase = setVal h.erase n (v.map (·.data)) :=
  upd_erase h n _ _ (fun _ => rfl)

theorem sumSizes_erase (hs : List PHdr) : sumSizesP hs = sumSizes (hs.map PHdr.erase) := by
  induction hs with
  | nil => rfl
  | cons h hs ih => simp [sumSizesP, sumSizes, ih]; rfl

/-! ## Blocks -/

theorem count_updFirst (fs : List PField) (q : PField → Bool) (g : PField → PField) (f : PField)
    (hf : fs.find? q = some f) (p : Ptr) :
    (ownFields (updFirst q g fs)).count p + f.own.count p = (ownFields fs).count p + (g f).own.count p := by
  induction fs with
  | nil => cases hf
  | cons x fs ih =>
    simp only [updFirst]
    rw [List.find?_cons] at hf
    cases hq : q x with
    | true =>
      rw [hq] at hf
      cases hf
      simp only [if_true, ownFields, List.count_append]
      omega
    | false =>
      rw [hq] at hf
      have := ih hf
      simp only [Bool.false_eq_true, if_false, ownFields, List.count_append] at this ⊢
      omega

theorem updFirst_own (fs : List PField) (q : PField → Bool) (g : PField → PField) (hg : ∀ f, (g f).own = f.own) :
    ownFields (updFirst q g fs) = ownFields fs := by
  induction fs with
  | nil => rfl
  | cons x fs ih =>
    simp only [updFirst]
    split
    · simp [ownFields, hg]
    · simp [ownFields, ih]

theorem count_upd (h : PHdr) (n : CStr) (g : PField → PField) (f : PField) (hf : h.find n = some f) (p : Ptr) :
    (h.upd n g).own.count p + f.own.count p = h.own.count p + (g f).own.count p := by
  have := count_updFirst h.fields _ g f hf p
  simp only [PHdr.upd, PHdr.own, List.count_append] at this ⊢
  omega

theorem upd_own (h : PHdr) (n : CStr) (g : PField → PField) (hg : ∀ f, (g f).own = f.own) :
    (h.upd n g).own = h.own := by
  simp only [PHdr.upd, PHdr.own]
  rw [updFirst_own _ _ _ hg]

/-- A value where there was none. -/
theorem count_setVal (h : PHdr) (n : CStr) (v : Option PBuf) (f : PField) (hf : h.find n = some f)
    (hv : f.val = none) (p : Ptr) : (h.setVal n v).own.count p = h.own.count p + (ownBuf v).count p := by
  have := count_upd h n (fun f => { f with val := v }) f hf p
  simp only [PField.own, hv, ownBuf_none, List.count_append, List.count_nil] at this
  show (h.upd n (fun f => { f with val := v })).own.count p = _
  omega

/-- The old value is taken away. -/
theorem count_setNone (h : PHdr) (n : CStr) (f : PField) (hf : h.find n = some f) (p : Ptr) :
    h.own.count p = (h.setVal n none).own.count p + (ownBuf f.val).count p := by
  have := count_upd h n (fun f => { f with val := none }) f hf p
  simp only [PField.own, ownBuf_none, List.count_append, List.count_nil] at this
  show _ = (h.upd n (fun f => { f with val := none })).own.count p + _
  omega

theorem find_upd (h : PHdr) (n m : CStr) (g : PField → PField) (hg : ∀ f, (g f).base.name = f.base.name) :
    (h.upd n g).find m = if n = m then (h.find m).map g else h.find m := by
  unfold PHdr.upd PHdr.find
  simp only
  induction h.fields with
  | nil => simp [updFirst]
  | cons f fs ih =>
    simp only [updFirst]
    by_cases hn : f.base.name = n
    · subst hn
      simp only [BEq.rfl, if_true, List.find?_cons, hg]
      by_cases hm : f.base.name = m
      · subst hm; simp
      · have : (f.base.name == m) = false := by simpa using hm
        simp [this, hm]
    · have hn' : (f.base.name == n) = false := by simpa using hn
      simp only [hn', Bool.false_eq_true, if_false, List.find?_cons]
      cases hm : f.base.name == m
      · exact ih
      · have hm : f.base.name = m := by simpa using hm
        have : n ≠ m := fun e => hn (hm.trans e.symm)
        simp [this]

theorem find_setValP (h : PHdr) (n m : CStr) (v : Option PBuf) :
    (h.setVal n v).find m = if n = m then (h.find m).map (fun f => { f with val := v }) else h.find m :=
  find_upd h n m _ (fun _ => rfl)

/-- A field's blocks are blocks of the header. -/
theorem own_find (h : PHdr) (n : CStr) (f : PField) (hf : h.find n = some f) : ∀ p ∈ f.own, p ∈ h.own := by
  have aux : ∀ fs : List PField, fs.find? (fun f => f.base.name == n) = some f → ∀ p ∈ f.own, p ∈ ownFields fs := by
    intro fs
    induction fs with
    | nil => intro h; cases h
    | cons x fs ih =>
      intro hf p hp
      rw [List.find?_cons] at hf
      simp only [ownFields, List.mem_append]
      split at hf
      · cases hf; exact .inl hp
      · exact .inr (ih hf p hp)
  intro p hp
  simp only [PHdr.own, List.mem_append]
  exact .inr (aux h.fields hf p hp)

theorem own_val (f : PField) : ∀ p ∈ ownBuf f.val, p ∈ f.own := by
  intro p hp
  simp [PField.own, hp]

theorem mem_ownHdrs {h : PHdr} {hs : List PHdr} (hm : h ∈ hs) : ∀ p ∈ h.own, p ∈ ownHdrs hs := by
  induction hs with
  | nil => cases hm
  | cons x hs ih =>
    intro p hp
    simp only [ownHdrs, List.mem_append]
    cases hm with
    | head => exact .inl hp
    | tail _ hm => exact .inr (ih hm p hp)

theorem ownHdrs_append (a b : List PHdr) : ownHdrs (a ++ b) = ownHdrs a ++ ownHdrs b := by
  induction a with
  | nil => rfl
  | cons x a ih => simp [ownHdrs, ih]

theorem ownCmds_append (a b : List PCmd) : ownCmds (a ++ b) = ownCmds a ++ ownCmds b := by
  induction a with
  | nil => rfl
  | cons x a ih => simp [ownCmds, ih]

theorem ownCaps_append (a b : List PCapture) : ownCaps (a ++ b) = ownCaps a ++ ownCaps b := by
  induction a with
  | nil => rfl
  | cons x a ih => simp [ownCaps, ih]

/-! ## Access to fields -/

theorem Tri.getFieldS {α' β' : Type} {L F : List Ptr} {h : PHdr} {n : CStr} {k : PField → Mem α'} {e' : α' → β'}
    {k' : Field → Out β'} {own' : α' → List Ptr}
    (hk : ∀ f, h.find n = some f → Tri L F (k f) e' (k' f.erase) own') :
    Tri L F (getFieldM h n >>= k) e' (getField h.erase n >>= k') own' := by
  unfold getFieldM getField
  rw [find_erase]
  cases hf : h.find n with
  | none => exact Tri.liftS (o := .ub .nullDeref) (k' := fun _ => .ub .nullDeref) (fun a ha => by cases ha)
  | some f => exact hk f hf

/-! ## Release -/

theorem tri_fieldsFree {F : List Ptr} (fs : List PField) :
    Tri (ownFields fs) F (fieldsFreeM fs) (fun _ => ()) (.ok ()) (fun _ => []) := by
  induction fs with
  | nil => exact Tri.pure rfl (by cnt)
  | cons f fs ih =>
    refine Tri.dropS (ownBuf f.dflt) (ownBuf f.val ++ ownFields fs) (tri_bfree _) (by cnt) ?_
    exact Tri.dropS (ownBuf f.val) (ownFields fs) (tri_bfree _) (by cnt) ih

theorem tri_hdrFree {F : List Ptr} (h : PHdr) :
    Tri h.own F (hdrFreeM h) (fun _ => ()) (.ok ()) (fun _ => []) := by
  refine Tri.useAllS (fun p hp => .inl (by simp only [PHdr.own, List.mem_append] at hp ⊢; exact .inl hp)) ?_
  refine Tri.dropS (ownFields h.fields) (h.arr.toList ++ h.self.toList) (tri_fieldsFree _)
    (by intro p; simp only [PHdr.own, List.count_append]; omega) ?_
  refine Tri.dropS h.arr.toList h.self.toList (Tri.freeAll _) (by intro p; simp [List.count_append]) ?_
  exact Tri.freeAll _

theorem tri_hdrsFree {F : List Ptr} (hs : List PHdr) :
    Tri (ownHdrs hs) F (hdrsFreeM hs) (fun _ => ()) (.ok ()) (fun _ => []) := by
  induction hs with
  | nil => exact Tri.pure rfl (by cnt)
  | cons h hs ih =>
    exact Tri.dropS h.own (ownHdrs hs) (tri_hdrFree h) (by intro p; simp [ownHdrs, List.count_append]) ih

theorem tri_frameFree {F : List Ptr} (f : PFrame) :
    Tri f.own F (frameFreeM f) (fun _ => ()) (.ok ()) (fun _ => []) := by
  refine Tri.useS (.inl (by simp [PFrame.own])) ?_
  refine Tri.dropS (ownHdrs f.stack) [f.self] (tri_hdrsFree _)
    (by intro p; simp only [PFrame.own, List.count_cons, List.count_nil]; omega) ?_
  exact Tri.free _

/-! ## Copies -/

theorem tri_fieldsCopy {F : List Ptr} (fs : List PField) (hb : ∀ p ∈ ownFields fs, p ∈ F) :
    Tri [] F (fieldsCopyM fs) (List.map PField.erase) (.ok (fs.map PField.erase)) ownFields := by
  induction fs generalizing F with
  | nil => exact Tri.pure rfl (by cnt)
  | cons f fs ih =>
    unfold fieldsCopyM
    simp only [ownFields, PField.own, List.mem_append] at hb
    refine Tri.stepV [] [] (tri_bclone f.val (fun p hp => by simp [hb p (.inl (.inr hp))])) (by cnt) (fun v hv => ?_)
    refine Tri.stepV [] (ownBuf v) (tri_bclone f.dflt (fun p hp => by simp [hb p (.inl (.inl hp))])) (by cnt)
      (fun d hd => ?_)
    refine Tri.stepV [] (ownBuf d ++ ownBuf v) (ih (fun p hp => by simp [hb p (.inr hp)])) (by cnt) (fun fs' hfs => ?_)
    refine Tri.pure ?_ (by cnt)
    simp [hfs, PField.erase, hv, hd]

theorem hdrCopy_same (h : Hdr) : hdrCopy h = h := by
  unfold hdrCopy
  have : h.fields.map fieldCopy = h.fields := by
    have : (fieldCopy : Field → Field) = id := by
      funext f
      simp only [fieldCopy, id]
      cases f with
      | mk n r w o d v p m => cases d <;> cases v <;> rfl
    rw [this]
    simp
  rw [this]

theorem frameCopy_same (f : Frame) : frameCopy f = f := by
  unfold frameCopy
  have : (hdrCopy : Hdr → Hdr) = id := by funext h; exact hdrCopy_same h
  rw [this]
  simp

theorem tri_hdrClone {F : List Ptr} (h : PHdr) (hb : ∀ p ∈ h.own, p ∈ F) :
    Tri [] F (hdrCloneM h) PHdr.erase (.ok h.erase) PHdr.own := by
  have hown := hb
  simp only [PHdr.own, List.mem_append] at hb
  unfold hdrCloneM
  refine Tri.useAllS (fun p hp => .inr (hb p (.inl (.inl hp)))) ?_
  refine Tri.allocS (fun s => ?_)
  have harr : Tri [] ([s] ++ F) (if h.fields = [] then Pure.pure none else do let a ← alloc; Pure.pure (some a))
      (fun _ => ()) (.ok ()) Option.toList := by
    split
    · exact Tri.pure rfl (by cnt)
    · exact Tri.allocS (fun _ => Tri.pure rfl (by cnt))
  refine Tri.step [] [s] harr (by cnt) (fun arr => ?_)
  refine Tri.useAllS (fun p hp => .inr (hb p (.inl (.inr hp)))) ?_
  refine Tri.stepV [] (arr.toList ++ [s]) (tri_fieldsCopy h.fields (fun p hp => by simp [hb p (.inr hp)])) (by cnt)
    (fun fs hfs => ?_)
  refine Tri.pure ?_ ?_
  · simp [PHdr.erase, hfs]
  · intro p
    simp only [PHdr.own, List.count_append, Option.toList, List.count_cons, List.count_nil]
    omega

theorem tri_hdrsClone {F : List Ptr} (hs : List PHdr) (hb : ∀ p ∈ ownHdrs hs, p ∈ F) :
    Tri [] F (hdrsCloneM hs) (List.map PHdr.erase) (.ok (hs.map PHdr.erase)) ownHdrs := by
  induction hs generalizing F with
  | nil => exact Tri.pure rfl (by cnt)
  | cons h hs ih =>
    simp only [ownHdrs, List.mem_append] at hb
    refine Tri.stepV [] [] (tri_hdrClone h (fun p hp => by simp [hb p (.inl hp)])) (by cnt) (fun h' hh => ?_)
    refine Tri.stepV [] h'.own (ih (fun p hp => by simp [hb p (.inr hp)])) (by cnt) (fun hs' hhs => ?_)
    refine Tri.pure (by simp [hh, hhs]) ?_
    intro p
    simp only [ownHdrs, List.count_append]
    omega

theorem tri_frameCloneOpt {F : List Ptr} (f : Option PFrame) (hb : ∀ p ∈ ownFrame f, p ∈ F) :
    Tri [] F (frameCloneOptM f) (Option.map PFrame.erase) (.ok (f.map PFrame.erase)) ownFrame := by
  cases f with
  | none => exact Tri.pure rfl (by simp [ownFrame])
  | some f =>
    simp only [ownFrame, PFrame.own, List.mem_cons] at hb
    unfold frameCloneOptM frameCloneM
    have h1 : Tri [] ([] ++ F) (frameCloneM f) PFrame.erase (.ok f.erase) PFrame.own := by
      unfold frameCloneM
      refine Tri.useS (.inr (by simp [hb f.self (.inl rfl)])) (Tri.allocS (fun s => ?_))
      refine Tri.stepV [] [s] (tri_hdrsClone f.stack (fun p hp => by simp [hb p (.inr hp)])) (by cnt) (fun st hst => ?_)
      refine Tri.pure (by simp [PFrame.erase, hst]) ?_
      intro p
      simp only [PFrame.own, List.count_append, List.count_cons, List.count_nil]
      omega
    refine Tri.stepV [] [] h1 (by cnt) (fun f' hf => Tri.pure (by simp [hf]) (by simp [ownFrame]))

/-! ## Serialisation -/

theorem tri_copyFields {F : List Ptr} (mask : Bool) (offset : Nat) (fs : List PField) (b : PBuf)
    (hb : ∀ p ∈ ownFields fs, p ∈ F) :
    Tri [b.ptr] F (copyFieldsM mask offset fs b) (·.data) (copyFields mask offset (fs.map PField.erase) b.data)
      (fun x => [x.ptr]) := by
  induction fs generalizing b with
  | nil => exact Tri.pure rfl (by cnt)
  | cons f fs ih =>
    simp only [ownFields, PField.own, List.mem_append] at hb
    have ih := fun b => ih b (fun p hp => hb p (.inr hp))
    unfold copyFieldsM copyFields
    refine Tri.useS (.inl (by simp)) ?_
    simp only [List.map_cons]
    have hw : f.erase.width = f.base.width := rfl
    rw [hw]
    split
    · exact Tri.pure rfl (by cnt)
    · cases mask with
      | true =>
        simp only [if_true, copyValue]
        have hs : f.erase.rxSkip = f.base.rxSkip := rfl
        rw [hs, hw]
        cases f.base.rxSkip with
        | true => exact ih b
        | false =>
          simp only [Bool.false_eq_true, if_false]
          refine Tri.stepV [] [b.ptr] (tri_balloc _) (by cnt) (fun m hm => ?_)
          rw [hm]
          exact Tri.liftS (fun d hd => Tri.freeS [b.ptr] (by cnt) (ih ⟨b.ptr, d⟩))
      | false =>
        simp only [Bool.false_eq_true, if_false, copyValue]
        cases hv : f.val with
        | some v =>
          have hv' : f.erase.val = some v.data := by simp [PField.erase, hv]
          rw [hv']
          exact Tri.useS (.inr (hb _ (.inl (.inr (by simp [hv, ownBuf])))))
            (Tri.liftS (fun d hd => ih ⟨b.ptr, d⟩))
        | none =>
          have hv' : f.erase.val = none := by simp [PField.erase, hv]
          rw [hv']
          cases hd : f.dflt with
          | some v =>
            have hd' : f.erase.dflt = some v.data := by simp [PField.erase, hd]
            rw [hd']
            exact Tri.useS (.inr (hb _ (.inl (.inl (by simp [hd, ownBuf])))))
              (Tri.liftS (fun d hd => ih ⟨b.ptr, d⟩))
          | none =>
            have hd' : f.erase.dflt = none := by simp [PField.erase, hd]
            rw [hd']
            exact ih b

theorem tri_copyHdr {F : List Ptr} (mask : Bool) (h : PHdr) (offset : Nat) (b : PBuf)
    (hb : ∀ p ∈ h.own, p ∈ F) :
    Tri [b.ptr] F (copyHdrM mask h offset b) (·.data) (copyHdr mask h.erase offset b.data) (fun x => [x.ptr]) := by
  simp only [PHdr.own, List.mem_append] at hb
  refine Tri.useAllS (fun p hp => .inr (hb p (.inl (by simpa using hp)))) ?_
  exact tri_copyFields mask offset h.fields b (fun p hp => hb p (.inr hp))

theorem tri_copyHdrs {F : List Ptr} (mask : Bool) (hs : List PHdr) (offset : Nat) (b : PBuf)
    (hb : ∀ p ∈ ownHdrs hs, p ∈ F) :
    Tri [b.ptr] F (copyHdrsM mask hs offset b) (·.data) (copyHdrs mask (hs.map PHdr.erase) offset b.data)
      (fun x => [x.ptr]) := by
  induction hs generalizing offset b with
  | nil => exact Tri.pure rfl (by cnt)
  | cons h hs ih =>
    simp only [ownHdrs, List.mem_append] at hb
    unfold copyHdrsM
    simp only [List.map_cons, copyHdrs]
    refine Tri.bind [b.ptr] [] (tri_copyHdr mask h offset b (fun p hp => by simp [hb p (.inl hp)])) (by cnt)
      (fun b' _ => ?_)
    exact (ih (offset + h.base.size) b' (fun p hp => hb p (.inr hp))).congr (by cnt) (fun _ _ => rfl)

end Ef
