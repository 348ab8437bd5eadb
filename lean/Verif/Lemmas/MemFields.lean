import Verif.Lemmas.MemHdr

/-! # Field and header parsers with pointers -/

namespace Ef

/-! ## What stays the same -/

/-- Name and pointers of a field. -/
def PField.sig (f : PField) : CStr × Option PBuf × Option PBuf := (f.base.name, f.dflt, f.val)

theorem ownFields_sig {fs fs' : List PField} (h : fs'.map PField.sig = fs.map PField.sig) :
    ownFields fs' = ownFields fs := by
  induction fs generalizing fs' with
  | nil => cases fs' with
    | nil => rfl
    | cons f fs' => simp at h
  | cons f fs ih => cases fs' with
    | nil => simp at h
    | cons f' fs' =>
      simp only [List.map_cons, List.cons.injEq, PField.sig, Prod.mk.injEq] at h
      obtain ⟨⟨_, h1, h2⟩, h3⟩ := h
      simp [ownFields, PField.own, h1, h2, ih h3]

theorem relayoutP_sig (fs : List PField) (off : Nat) : (relayoutP fs off).1.map PField.sig = fs.map PField.sig := by
  induction fs generalizing off with
  | nil => rfl
  | cons f fs ih =>
    simp only [relayoutP, List.map_cons, ih]
    rfl

theorem relayoutP_erase (fs : List PField) (off : Nat) :
    (relayoutP fs off).1.map PField.erase = (relayout (fs.map PField.erase) off).1 ∧
      (relayoutP fs off).2 = (relayout (fs.map PField.erase) off).2 := by
  induction fs generalizing off with
  | nil => exact ⟨rfl, rfl⟩
  | cons f fs ih =>
    obtain ⟨h1, h2⟩ := ih (off + f.base.width)
    simp only [relayoutP, relayout, List.map_cons]
    exact ⟨by rw [h1]; rfl, h2⟩

theorem relayoutHdrP_erase (h : PHdr) : (relayoutHdrP h).erase = relayoutHdr h.erase := by
  obtain ⟨h1, h2⟩ := relayoutP_erase h.fields 0
  unfold relayoutHdrP relayoutHdr PHdr.erase
  simp only
  rw [h1, h2]

theorem modify_map {fs : List PField} {g : PField → PField} {g' : Field → Field} (i : Nat)
    (hg : ∀ f, (g f).erase = g' f.erase) :
    (fs.modify i g).map PField.erase = (fs.map PField.erase).modify i g' := by
  induction fs generalizing i with
  | nil => cases i <;> rfl
  | cons f fs ih =>
    cases i with
    | zero => simp [hg]
    | succ i => simp [ih]

theorem modify_sig {fs : List PField} {g : PField → PField} (i : Nat) (hg : ∀ f, (g f).sig = f.sig) :
    (fs.modify i g).map PField.sig = fs.map PField.sig := by
  induction fs generalizing i with
  | nil => cases i <;> rfl
  | cons f fs ih =>
    cases i with
    | zero => simp [hg]
    | succ i => simp [ih]

/-- The header after the width of one field has changed and the offsets have been computed again. -/
theorem relayout_modify (h : PHdr) (i w : Nat) :
    (relayoutHdrP { h with fields := h.fields.modify i (PField.width w) }).erase =
      relayoutHdr { h.erase with fields := h.erase.fields.modify i (fun f => { f with width := w }) } ∧
    (relayoutHdrP { h with fields := h.fields.modify i (PField.width w) }).own = h.own := by
  constructor
  · rw [relayoutHdrP_erase]
    unfold PHdr.erase
    simp only
    rw [modify_map i (g' := fun f => { f with width := w }) (fun _ => rfl)]
  · unfold relayoutHdrP PHdr.own
    simp only
    rw [ownFields_sig (relayoutP_sig _ 0), ownFields_sig (modify_sig (g := PField.width w) i (fun _ => rfl))]

/-! ## Parsers of one word -/

/-- Result of a field parser as a value. -/
def eraseFP (x : PHdr × Option PBuf) : Hdr × Option Buf := (x.1.erase, x.2.map (·.data))

/-- Blocks of the result of a field parser. -/
def ownFP (x : PHdr × Option PBuf) : List Ptr := x.1.own ++ ownBuf x.2

theorem tri_pairFP {F : List Ptr} (h : PHdr) {m : Mem (Option PBuf)} {o : Out (Option Buf)}
    (hm : Tri [] (h.own ++ F) m (Option.map (·.data)) o ownBuf) :
    Tri h.own F (m >>= fun b => Pure.pure (h, b)) eraseFP (o >>= fun b => .ok (h.erase, b)) ownFP := by
  refine Tri.bind [] h.own hm (by cnt) (fun b _ => Tri.pure rfl ?_)
  intro p
  simp only [ownFP, List.count_append]
  omega

theorem tri_runFieldParser {F : List Ptr} (h : PHdr) (f : PField) (s : CStr) :
    Tri h.own F (runFieldParserM h f s) eraseFP (runFieldParser h.erase f.erase s) ownFP := by
  unfold runFieldParserM runFieldParser
  have hp : f.erase.parser = f.base.parser := rfl
  have hw : f.erase.width = f.base.width := rfl
  rw [hp, hw]
  cases f.base.parser with
  | none => exact tri_pairFP h (tri_parseBytes _ _)
  | coapCode => exact tri_pairFP h (tri_newBuf _)
  | coapToken =>
    simp only
    unfold coapParseTokenM coapParseToken
    refine Tri.bind [] h.own (tri_parseVarBytesHex s 1) (by cnt) (fun b _ => ?_)
    cases b with
    | none => exact Tri.pure rfl (by intro p; simp [ownFP, ownBuf])
    | some b =>
      simp only [Option.map]
      split
      · refine Tri.loseS h.own ?_ (Tri.pure rfl (by intro p; simp [ownFP, ownBuf]))
        intro p; simp [ownBuf]
      · obtain ⟨h1, h2⟩ := relayout_modify h 5 (b.data.length * 8)
        refine Tri.pure ?_ ?_
        · simp only [eraseFP, h1]
          rfl
        · intro p
          simp only [ownFP, h2, List.count_append]
          omega
  | profinetData =>
    simp only
    unfold profinetDataParserM profinetDataParser
    refine Tri.bind [] h.own (tri_parseVarBytesHex s 40) (by cnt) (fun b _ => ?_)
    cases b with
    | none => exact Tri.pure rfl (by intro p; simp [ownFP, ownBuf])
    | some b =>
      obtain ⟨h1, h2⟩ := relayout_modify h 1 (b.data.length * 8)
      refine Tri.pure ?_ ?_
      · simp only [eraseFP, h1]
        rfl
      · intro p
        simp only [ownFP, h2, List.count_append]
        omega
  | opcUint16 =>
    refine tri_pairFP h ?_
    unfold opcParseUint16M opcParseUint16
    refine Tri.bind [] [] (tri_parseBytes s 2) (by cnt) (fun b _ => ?_)
    cases b with
    | none => exact Tri.pure rfl (by cnt)
    | some b =>
      refine Tri.useS (.inl (by simp [ownBuf])) ?_
      obtain ⟨q, d⟩ := b
      match d with
      | [] => exact Tri.liftS (o := .ub .oobRead) (k' := fun x => .ok (some x)) (fun a ha => by cases ha)
      | [_] => exact Tri.liftS (o := .ub .oobRead) (k' := fun x => .ok (some x)) (fun a ha => by cases ha)
      | x :: y :: r =>
        exact Tri.liftS (o := .ok (y :: x :: r)) (k' := fun x => .ok (some x)) (fun a ha => Tri.pure rfl (by cnt))
  | fieldHex => exact tri_pairFP h (tri_parseFieldHex _ _)

/-! ## Parsers of several words -/

/-- The field has no value. -/
def NoVal (h : Hdr) (n : CStr) : Prop := ∃ f, findField h n = some f ∧ f.val = none

theorem NoVal.find {h : PHdr} {n : CStr} (hn : NoVal h.erase n) : ∃ f, h.find n = some f ∧ f.val = none := by
  obtain ⟨f, h1, h2⟩ := hn
  rw [find_erase] at h1
  cases hf : h.find n with
  | none => rw [hf] at h1; cases h1
  | some g =>
    rw [hf] at h1
    cases h1
    refine ⟨g, rfl, ?_⟩
    simpa [PField.erase] using h2

/-- Result of a multi parser as a value. -/
def eraseMP (x : PHdr × Nat) : Hdr × Nat := (x.1.erase, x.2)

theorem find_name {h : PHdr} {n : CStr} {f : PField} (hf : h.find n = some f) : f.base.name = n := by
  have := List.find?_some hf
  simpa using this

theorem tri_multiVarByte {F : List Ptr} (h : PHdr) (n : CStr) (argv : List CStr) (hn : NoVal h.erase n) :
    Tri h.own F (fieldParseMultiVarByteM h n argv) eraseMP (fieldParseMultiVarByte h.erase n argv)
      (fun x => x.1.own) := by
  obtain ⟨f, hf, hv⟩ := hn.find
  unfold fieldParseMultiVarByteM fieldParseMultiVarByte
  refine Tri.bind [] h.own (tri_varBytes argv) (by cnt) (fun r _ => ?_)
  match r with
  | none => exact Tri.pure rfl (by intro p; simp [ownVar])
  | some (res, none) =>
    simp only [eraseVar, Option.map]
    split
    · exact Tri.fail _ _ (fun a ha => by cases ha) rfl
    · exact Tri.pure rfl (by intro p; simp [ownVar, ownBuf])
  | some (res, some b) =>
    simp only [eraseVar, Option.map]
    split
    · refine Tri.pure ?_ ?_
      · simp only [eraseMP, Prod.mk.injEq, and_true]
        rw [show (PHdr.size (h.base.size + b.data.length)
              (h.upd n fun f => PField.width (b.data.length * 8) { f with val := some b })).erase =
            { (h.upd n fun f => PField.width (b.data.length * 8) { f with val := some b }).erase with
              size := h.base.size + b.data.length } from rfl]
        rw [upd_erase h n _ (fun f => { f with val := some b.data, width := b.data.length * 8 }) (fun _ => rfl)]
        rfl
      · intro p
        have := count_upd h n (fun f => PField.width (b.data.length * 8) { f with val := some b }) f hf p
        simp only [PField.own, PField.width, hv, ownBuf_none, ownBuf_some, List.count_append, List.count_nil] at this
        simp only [ownVar, ownBuf_some, List.count_append]
        show ((h.upd n fun f => PField.width (b.data.length * 8) { f with val := some b }).own).count p = _
        simp only [PField.width]
        omega
    · exact Tri.freeS h.own (by intro p; simp [ownVar, ownBuf]) (Tri.pure rfl (by cnt))

theorem tri_optionValue {F : List Ptr} (h : PHdr) (n : CStr) (argv : List CStr) (hn : NoVal h.erase n) :
    Tri h.own F (coapParseOptionValueM h n argv) eraseMP (coapParseOptionValue h.erase n argv) (fun x => x.1.own) := by
  unfold coapParseOptionValueM coapParseOptionValue
  refine Tri.bind h.own [] (tri_multiVarByte h n argv hn) (by cnt) (fun r _ => ?_)
  obtain ⟨h', res⟩ := r
  rw [show eraseMP (h', res) = (h'.erase, res) from rfl]
  dsimp only
  by_cases hc : res > 1 ∧ res ≤ argv.length
  · rw [if_pos hc, if_pos hc]
    refine Tri.getFieldS (fun f hf => ?_)
    cases hv : f.val with
    | none =>
      have : f.erase.val = none := by simp [PField.erase, hv]
      rw [this]
      exact Tri.fail _ _ (fun a ha => by cases ha) rfl
    | some b =>
      have : f.erase.val = some b.data := by simp [PField.erase, hv]
      rw [this]
      refine Tri.useS (.inl ?_) ?_
      · simp only [List.append_nil]
        exact own_find h' n f hf _ (own_val f _ (by simp [hv, ownBuf]))
      simp only
      split
      · refine Tri.pure ?_ ?_
        · rw [show ∀ (x : PHdr), eraseMP (x, res) = (x.erase, res) from fun _ => rfl]
          rw [show (PHdr.size (h'.base.size - b.data.length)
                (h'.upd n fun f => PField.width 0 { f with val := some ⟨b.ptr, []⟩ })).erase =
              { (h'.upd n fun f => PField.width 0 { f with val := some ⟨b.ptr, []⟩ }).erase with
                size := h'.base.size - b.data.length } from rfl]
          rw [upd_erase h' n _ (fun f => { f with val := some [], width := 0 }) (fun _ => rfl)]
          rfl
        · intro p
          have := count_upd h' n (fun f => PField.width 0 { f with val := some ⟨b.ptr, []⟩ }) f hf p
          simp only [PField.own, PField.width, hv, ownBuf_some, List.count_append] at this
          simp only [List.append_nil]
          show ((h'.upd n fun f => PField.width 0 { f with val := some ⟨b.ptr, []⟩ }).own).count p = _
          simp only [PField.width]
          omega
      · exact Tri.pure rfl (by simp)
  · rw [if_neg hc, if_neg hc]
    exact Tri.pure rfl (by simp)

theorem tri_parms {F : List Ptr} (h : PHdr) (n : CStr) (argv : List CStr) (hn : NoVal h.erase n) :
    Tri h.own F (coapParseParmsM h n argv) eraseMP (coapParseParms h.erase n argv) (fun x => x.1.own) := by
  obtain ⟨f, hf, hv⟩ := hn.find
  unfold coapParseParmsM coapParseParms
  refine Tri.bind [] h.own (tri_varBytes argv) (by cnt) (fun r _ => ?_)
  match r with
  | none => exact Tri.fail _ _ (fun a ha => by cases ha) rfl
  | some (res, none) => exact Tri.fail _ _ (fun a ha => by cases ha) rfl
  | some (res, some b) =>
    simp only [eraseVar, Option.map]
    split
    · refine Tri.stepV [] ([b.ptr] ++ h.own) (tri_balloc _) (by intro p; simp [ownVar, ownBuf]) (fun bb hbb => ?_)
      refine Tri.useS (.inl (by simp)) ?_
      refine Tri.freeS ([bb.ptr] ++ h.own) (by cnt) ?_
      refine Tri.pure ?_ ?_
      · simp only [eraseMP, Prod.mk.injEq, and_true]
        rw [show (PHdr.size bb.data.length
              (h.upd n fun f => PField.width (bb.data.length * 8) { f with val := some bb })).erase =
            { (h.upd n fun f => PField.width (bb.data.length * 8) { f with val := some bb }).erase with
              size := bb.data.length } from rfl]
        rw [upd_erase h n _ (fun f => { f with val := some bb.data, width := bb.data.length * 8 }) (fun _ => rfl), hbb]
      · intro p
        have := count_upd h n (fun f => PField.width (bb.data.length * 8) { f with val := some bb }) f hf p
        simp only [PField.own, PField.width, hv, ownBuf_none, ownBuf_some, List.count_append, List.count_nil] at this
        simp only [List.count_append]
        show ((h.upd n fun f => PField.width (bb.data.length * 8) { f with val := some bb }).own).count p = _
        simp only [PField.width]
        omega
    · exact Tri.freeS h.own (by intro p; simp [ownVar, ownBuf]) (Tri.pure rfl (by cnt))

theorem tri_runMulti {F : List Ptr} (h : PHdr) (f : PField) (argv : List CStr) (hn : NoVal h.erase f.base.name) :
    Tri h.own F (runMultiParserM h f argv) eraseMP (runMultiParser h.erase f.erase argv) (fun x => x.1.own) := by
  unfold runMultiParserM runMultiParser
  have hp : f.erase.multi = f.base.multi := rfl
  have hw : f.erase.name = f.base.name := rfl
  rw [hp, hw]
  cases f.base.multi with
  | none => exact Tri.pure rfl (by simp)
  | coapOptVal => exact tri_optionValue h _ argv hn
  | coapParms => exact tri_parms h _ argv hn

/-! ## Values that are still missing after a field parser -/

theorem find_map_sig {fs fs' : List Field} (h : fs'.map (fun f => (f.name, f.val)) = fs.map (fun f => (f.name, f.val)))
    (n : CStr) : (fs'.find? (fun f => f.name == n)).map (·.val) = (fs.find? (fun f => f.name == n)).map (·.val) := by
  induction fs generalizing fs' with
  | nil => cases fs' with
    | nil => rfl
    | cons f fs' => simp at h
  | cons f fs ih => cases fs' with
    | nil => simp at h
    | cons f' fs' =>
      simp only [List.map_cons, List.cons.injEq, Prod.mk.injEq] at h
      obtain ⟨⟨h1, h2⟩, h3⟩ := h
      simp only [List.find?_cons, h1]
      cases f.name == n
      · exact ih h3
      · simp [h2]

theorem relayout_sig (fs : List Field) (off : Nat) :
    (relayout fs off).1.map (fun f => (f.name, f.val)) = fs.map (fun f => (f.name, f.val)) := by
  induction fs generalizing off with
  | nil => rfl
  | cons f fs ih => simp [relayout, ih]

theorem modify_vsig (fs : List Field) (i w : Nat) :
    (fs.modify i (fun f => { f with width := w })).map (fun f => (f.name, f.val)) = fs.map (fun f => (f.name, f.val)) := by
  induction fs generalizing i with
  | nil => cases i <;> rfl
  | cons f fs ih =>
    cases i with
    | zero => simp
    | succ i => simp [ih]

theorem noVal_sig {h h' : Hdr} {n : CStr}
    (hs : h'.fields.map (fun f => (f.name, f.val)) = h.fields.map (fun f => (f.name, f.val))) (hn : NoVal h n) :
    NoVal h' n := by
  obtain ⟨f, h1, h2⟩ := hn
  have := find_map_sig hs n
  unfold findField at h1
  rw [h1] at this
  cases hf : h'.fields.find? (fun f => f.name == n) with
  | none => rw [hf] at this; cases this
  | some g =>
    rw [hf] at this
    simp only [Option.map, Option.some.injEq] at this
    exact ⟨g, hf, this.trans h2⟩

theorem runFieldParser_noVal {h h' : Hdr} {f : Field} {s : CStr} {b : Option Buf} {n : CStr}
    (hr : runFieldParser h f s = .ok (h', b)) (hn : NoVal h n) : NoVal h' n := by
  unfold runFieldParser at hr
  split at hr
  · obtain ⟨x, _, hx⟩ := Out.bind_eq_ok.1 hr
    cases hx; exact hn
  · cases hr; exact hn
  · unfold coapParseToken at hr
    obtain ⟨x, _, hx⟩ := Out.bind_eq_ok.1 hr
    split at hx
    · cases hx; exact hn
    · split at hx
      · cases hx; exact hn
      · cases hx
        exact noVal_sig ((relayout_sig _ 0).trans (modify_vsig _ _ _)) hn
  · unfold profinetDataParser at hr
    obtain ⟨x, _, hx⟩ := Out.bind_eq_ok.1 hr
    split at hx
    · cases hx; exact hn
    · cases hx
      exact noVal_sig ((relayout_sig _ 0).trans (modify_vsig _ _ _)) hn
  · obtain ⟨x, _, hx⟩ := Out.bind_eq_ok.1 hr
    cases hx; exact hn
  · obtain ⟨x, _, hx⟩ := Out.bind_eq_ok.1 hr
    cases hx; exact hn

/-! ## The loop over the fields -/

/-- Result of the loop over the fields as a value. -/
def eraseFL (x : PHdr × Option (Nat × Bool)) : Option (Nat × Hdr × Bool) := x.2.map (fun r => (r.1, x.1.erase, r.2))

theorem skipAll_erase (h : PHdr) : h.skipAll.erase = skipAll h.erase := by
  unfold PHdr.skipAll skipAll PHdr.erase
  simp only [List.map_map]
  congr 1

theorem skipAll_own (h : PHdr) : h.skipAll.own = h.own := by
  unfold PHdr.skipAll PHdr.own
  simp only
  rw [ownFields_sig (fs := h.fields) (by simp [List.map_map]; intro f _; rfl)]

theorem tri_parseFieldsLoop {F : List Ptr} (fuel : Nat) (h : PHdr) (m : Bool) (i : Nat) (argv : List CStr) :
    Tri h.own F (parseFieldsLoopM fuel h m i argv) eraseFL (parseFieldsLoop fuel h.erase m i argv)
      (fun x => x.1.own) := by
  induction fuel generalizing h m i argv with
  | zero => exact Tri.pure rfl (by simp)
  | succ fuel ih =>
    unfold parseFieldsLoopM parseFieldsLoop
    cases argv with
    | nil => exact Tri.pure rfl (by simp)
    | cons w rest =>
      simp only
      split
      · exact Tri.pure rfl (by simp)
      split
      · rw [← skipAll_erase]
        exact (ih h.skipAll true (i + 1) rest).congr (by simp [skipAll_own]) (fun _ _ => rfl)
      rw [find_erase]
      cases hf : h.find w with
      | none => exact Tri.pure rfl (by simp)
      | some f =>
        simp only [Option.map]
        refine Tri.dropS (ownBuf f.val) (h.setVal w none).own (tri_bfree _)
          (by intro p; have := count_setNone h w f hf p; omega) ?_
        have he : setVal h.erase w none = (h.setVal w none).erase := (setVal_erase h w none).symm
        rw [he]
        have hnv : NoVal (h.setVal w none).erase w := by
          refine ⟨PField.erase { f with val := none }, ?_, rfl⟩
          rw [find_erase, find_setValP, if_pos rfl, hf]
          rfl
        generalize h.setVal w none = h0 at hnv
        cases rest with
        | nil => exact Tri.pure rfl (by simp)
        | cons v rest' =>
          simp only
          split
          · have e1 := upd_erase h0 w (PField.skip true) (fun f => { f with rxSkip := true }) (fun _ => rfl)
            rw [← e1]
            exact (ih (h0.upd w (PField.skip true)) true (i + 2) rest').congr
              (by intro p; rw [upd_own _ _ (PField.skip _) (fun _ => rfl)]) (fun _ _ => rfl)
          split
          · exact Tri.pure rfl (by simp)
          have hpp : f.erase.parser = f.base.parser := rfl
          have hpm : f.erase.multi = f.base.multi := rfl
          rw [hpp, hpm]
          split
          · refine Tri.bind h0.own [] (tri_runMulti h0 f (v :: rest') (by rw [find_name hf]; exact hnv)) (by cnt)
              (fun r _ => ?_)
            obtain ⟨h1, c⟩ := r
            rw [show eraseMP (h1, c) = (h1.erase, c) from rfl]
            dsimp only
            by_cases hc : c > 0 ∧ c ≤ (v :: rest').length
            · rw [if_pos hc, if_pos hc]
              have e1 := upd_erase h1 w (PField.skip false) (fun f => { f with rxSkip := false }) (fun _ => rfl)
              rw [← e1]
              exact (ih (h1.upd w (PField.skip false)) m (i + 1 + c) ((v :: rest').drop c)).congr
                (by intro p; rw [upd_own _ _ (PField.skip _) (fun _ => rfl)]; simp) (fun _ _ => rfl)
            · rw [if_neg hc, if_neg hc]
              exact Tri.pure rfl (by simp)
          · refine Tri.bind h0.own [] (tri_runFieldParser h0 f v) (by cnt) (fun r hr => ?_)
            obtain ⟨h1, b⟩ := r
            simp only [eraseFP]
            have hn1 : NoVal h1.erase w := runFieldParser_noVal hr hnv
            obtain ⟨f1, hf1, hv1⟩ := hn1.find
            have e1 := upd_erase h1 w (fun f => PField.skip false { f with val := b })
              (fun f => { f with val := b.map (·.data), rxSkip := false }) (fun _ => rfl)
            rw [← e1]
            refine (ih (h1.upd w (fun f => PField.skip false { f with val := b })) m (i + 2) rest').congr
              ?_ (fun _ _ => rfl)
            intro p
            have := count_upd h1 w (fun f => PField.skip false { f with val := b }) f1 hf1 p
            simp only [PField.own, PField.skip, hv1, ownBuf_none, List.count_append, List.count_nil] at this
            simp only [ownFP, List.count_append, PField.skip, List.count_nil]
            omega

/-! ## Header parsers -/

/-- The first field has no value. -/
def FirstFree (h : PHdr) : Prop := ∃ f fs, h.fields = f :: fs ∧ f.val = none

/-- Result of the payload parser as a value. -/
def erasePP (x : PHdr × Option Nat) : Option (Nat × Hdr) := x.2.map (fun n => (n, x.1.erase))

theorem tri_payloadParser {F : List Ptr} (h : PHdr) (argv : List CStr) (hf : FirstFree h) :
    Tri h.own F (payloadParserM h argv) erasePP (payloadParser h.erase argv) (fun x => x.1.own) := by
  obtain ⟨f, fs, hfs, hv⟩ := hf
  unfold payloadParserM payloadParser
  refine Tri.bind [] h.own (tri_varBytes argv) (by cnt) (fun r _ => ?_)
  match r with
  | none => exact Tri.pure rfl (by simp [ownVar])
  | some (res, b) =>
    simp only [eraseVar, Option.map]
    split
    · exact Tri.dropS (ownBuf b) h.own (tri_bfree b) (by intro p; simp [ownVar, List.count_append])
        (Tri.pure rfl (by simp))
    · cases b with
      | none => exact Tri.fail _ _ (fun a ha => by cases ha) rfl
      | some b =>
        refine Tri.pure ?_ ?_
        · simp only [erasePP, Option.map, PHdr.erase, hfs]
          rfl
        · intro p
          simp only [hfs, List.modify_zero_cons, PHdr.own, ownFields, PField.own, PField.width, hv, ownBuf_some,
            ownBuf_none, List.count_append, ownVar, List.count_nil]
          omega

theorem tri_paddingParser {F : List Ptr} (argv : List CStr) :
    Tri [] F (paddingParserM argv) id (paddingParser argv) (fun _ => []) := by
  unfold paddingParserM paddingParser
  cases argv with
  | nil => exact Tri.pure rfl (by simp)
  | cons w r =>
    refine Tri.bind [] [] (tri_parseUint32 w) (by cnt) (fun n _ => ?_)
    cases n with
    | none => exact Tri.pure rfl (by simp)
    | some n => exact Tri.pure rfl (by simp)

/-- Result of a header parser as a value. -/
def eraseHP (x : PHdr × Option (Nat × Int × Bool)) : Option (Nat × Hdr × Int × Bool) :=
  x.2.map (fun r => (r.1, x.1.erase, r.2))

theorem tri_runHdrParser {F : List Ptr} (h : PHdr) (pad : Int) (m : Bool) (argv : List CStr)
    (hf : h.base.parser = .payload → FirstFree h) :
    Tri h.own F (runHdrParserM h pad m argv) eraseHP (runHdrParser h.erase pad m argv) (fun x => x.1.own) := by
  unfold runHdrParserM runHdrParser
  have hp : h.erase.parser = h.base.parser := rfl
  rw [hp]
  cases hq : h.base.parser with
  | fields =>
    refine Tri.bind h.own [] (tri_parseFieldsLoop _ h m 0 argv) (by cnt) (fun r _ => ?_)
    obtain ⟨h', r⟩ := r
    cases r with
    | none => exact Tri.pure rfl (by simp)
    | some r => exact Tri.pure rfl (by simp)
  | payload =>
    refine Tri.bind h.own [] (tri_payloadParser h argv (hf hq)) (by cnt) (fun r _ => ?_)
    obtain ⟨h', r⟩ := r
    cases r with
    | none => exact Tri.pure rfl (by simp)
    | some r => exact Tri.pure rfl (by simp)
  | padding =>
    refine Tri.bind [] h.own (tri_paddingParser argv) (by cnt) (fun r _ => ?_)
    cases r with
    | none => exact Tri.pure rfl (by simp)
    | some r => exact Tri.pure rfl (by simp)

end Ef
