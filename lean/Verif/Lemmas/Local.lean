import Verif.Lemmas.InstParse

/-! # Parsing depends only on the words that are consumed -/

namespace Ef

open Spec

/-! ## Payload segments -/

/-- Words `parse_var_bytes` does not stop at. -/
def segWords : List CStr := [c!"help", c!"hex", c!"ascii", c!"ascii0", c!"repeat", c!"pattern"]

/-- The list is empty or starts with a word satisfying `P`. -/
def Starts (P : CStr → Prop) (r : List CStr) : Prop := ∀ w tl, r = w :: tl → P w

theorem pvb1_stop {r : List CStr} (h : Starts (· ∉ segWords) r) : parseVarBytes1 r = .ok .stop := by
  unfold parseVarBytes1
  cases r with
  | nil => rfl
  | cons w tl =>
    have hw := h w tl rfl
    simp only [segWords, List.mem_cons, List.not_mem_nil, or_false, not_or] at hw
    obtain ⟨h1, h2, h3, h4, h5, h6⟩ := hw
    simp only [h1, h2, h3, h4, h5, h6, if_false]

theorem ofOpt_seg {u used : Nat} {b : Buf} {o : Option Buf} (h : Seg.ofOpt u o = .seg b used) : used = u := by
  cases o <;> simp [Seg.ofOpt] at h <;> exact h.2.symm

/-- A segment is made of the words it uses. -/
theorem pvb1_seg {a r r' : List CStr} {b : Buf} {u : Nat} (h : parseVarBytes1 (a ++ r) = .ok (.seg b u))
    (hu : u ≤ a.length) : parseVarBytes1 (a ++ r') = .ok (.seg b u) ∧ 2 ≤ u := by
  have key : ∀ l, parseVarBytes1 l = .ok (.seg b u) → 2 ≤ u := by
    intro l hl
    unfold parseVarBytes1 at hl
    repeat' (first | split at hl | (rw [Out.bind_eq_ok] at hl; obtain ⟨_, _, hl⟩ := hl))
    all_goals first
      | (simp only [Out.ok.injEq] at hl; have := ofOpt_seg hl; omega)
      | (simp at hl; try omega)
  have h2 := key _ h
  refine ⟨?_, h2⟩
  match a, hu with
  | [], hu => simp at hu; omega
  | [w], hu => simp at hu; omega
  | w :: x :: a, hu =>
    have h3 : u = 3 → a ≠ [] := by
      intro h3 e
      rw [e, h3] at hu
      simp at hu
    simp only [List.cons_append] at h ⊢
    unfold parseVarBytes1 at h ⊢
    simp only at h ⊢
    split at h
    · simp at h
    · rename_i n1
      rw [if_neg n1]
      split at h
      · rename_i n2; rw [if_pos n2]; exact h
      · rename_i n2; rw [if_neg n2]
        split at h
        · rename_i n2; rw [if_pos n2]; exact h
        · rename_i n2; rw [if_neg n2]
          split at h
          · rename_i n2; rw [if_pos n2]; exact h
          · rename_i n2; rw [if_neg n2]
            split at h
            · rename_i n2; rw [if_pos n2]
              cases a with
              | nil =>
                exfalso
                split at h
                · rw [Out.bind_eq_ok] at h; obtain ⟨_, _, h⟩ := h
                  simp only [Out.ok.injEq] at h
                  exact h3 (ofOpt_seg h) rfl
                · simp at h
              | cons y a => exact h
            · rename_i n2; rw [if_neg n2]
              split at h
              · rename_i n2; rw [if_pos n2]
                cases a with
                | nil =>
                  exfalso
                  split at h
                  · rw [Out.bind_eq_ok] at h; obtain ⟨_, _, h⟩ := h
                    simp only [Out.ok.injEq] at h
                    exact h3 (ofOpt_seg h) rfl
                  · simp at h
                | cons y a => exact h
              · simp at h

/-- Where a payload ends is decided by the first word. -/
theorem pvb1_end {w : CStr} {a r r' : List CStr} (h : parseVarBytes1 (w :: a ++ r) = .ok .stop) :
    parseVarBytes1 (w :: a ++ r') = .ok .stop := by
  refine pvb1_stop (fun w' tl e => ?_)
  simp only [List.cons_append, List.cons.injEq] at e
  obtain ⟨rfl, _⟩ := e
  intro hm
  have key : ∀ o u, Seg.ofOpt u o ≠ .stop := by intro o u; cases o <;> simp [Seg.ofOpt]
  simp only [List.cons_append] at h
  unfold parseVarBytes1 at h
  simp only [segWords, List.mem_cons, List.not_mem_nil, or_false] at hm
  repeat' (first | split at h | (rw [Out.bind_eq_ok] at h; obtain ⟨_, _, h⟩ := h))
  all_goals first
    | (simp only [Out.ok.injEq] at h; exact key _ _ h)
    | (simp at h; done)
    | (simp_all; done)

theorem pvbLoop_mono {fuel : Nat} {argv : List CStr} {i n : Nat} {acc o : Option Buf}
    (h : parseVarBytesLoop fuel argv i acc = .ok (some (n, o))) : i ≤ n := by
  induction fuel generalizing argv i acc with
  | zero => simp [parseVarBytesLoop] at h; omega
  | succ fuel ih =>
    unfold parseVarBytesLoop at h
    split at h
    · simp at h; omega
    · rw [Out.bind_eq_ok] at h
      obtain ⟨s, _, h⟩ := h
      cases s with
      | err => simp at h
      | stop => simp at h; omega
      | seg b u => have := ih h; omega

theorem pvbLoop_swap {fuel fuel' : Nat} {a r r' : List CStr} {i n : Nat} {acc o : Option Buf}
    (h : parseVarBytesLoop fuel (a ++ r) i acc = .ok (some (n, o))) (hf : a.length + r.length ≤ fuel)
    (hf' : a.length + r'.length ≤ fuel') (hn : n ≤ i + a.length)
    (hr : n = i + a.length → Starts (· ∉ segWords) r') :
    parseVarBytesLoop fuel' (a ++ r') i acc = .ok (some (n, o)) := by
  induction fuel generalizing fuel' a i acc with
  | zero =>
    have ha : a = [] := List.eq_nil_of_length_eq_zero (by omega)
    subst ha
    simp only [parseVarBytesLoop, Out.ok.injEq, Option.some.injEq, Prod.mk.injEq] at h
    obtain ⟨rfl, rfl⟩ := h
    cases fuel' with
    | zero => rfl
    | succ f =>
      unfold parseVarBytesLoop
      split
      · rfl
      · rw [List.nil_append, pvb1_stop (hr (by simp)), Out.ok_bind]
  | succ fuel ih =>
    by_cases ha : a = []
    · subst ha
      have hni : n = i := by have := pvbLoop_mono h; simp at hn; omega
      have ho : o = acc := by
        unfold parseVarBytesLoop at h
        split at h
        · simp at h; exact h.2.symm
        · rw [Out.bind_eq_ok] at h
          obtain ⟨s, hs, h⟩ := h
          cases s with
          | err => simp at h
          | stop => simp at h; exact h.2.symm
          | seg b u =>
            have := pvbLoop_mono h
            have h2 : 2 ≤ u := by
              have hs' : parseVarBytes1 (r ++ List.replicate u c!"" ++ []) = parseVarBytes1 (r ++ List.replicate u c!"") := by simp
              by_cases hul : u ≤ r.length
              · exact (pvb1_seg (a := r) (r := []) (r' := []) (by simpa using hs) hul).2
              · omega
            omega
      rw [hni, ho]
      cases fuel' with
      | zero => rfl
      | succ f =>
        unfold parseVarBytesLoop
        split
        · rfl
        · rw [List.nil_append, pvb1_stop (hr (by simp [hni])), Out.ok_bind]
    · unfold parseVarBytesLoop at h
      rw [if_neg (by simp [ha]), Out.bind_eq_ok] at h
      obtain ⟨s, hs, h⟩ := h
      cases fuel' with
      | zero => exact absurd (List.eq_nil_of_length_eq_zero (by omega)) ha
      | succ f =>
        unfold parseVarBytesLoop
        rw [if_neg (by simp [ha])]
        cases s with
        | err => simp at h
        | stop =>
          simp only [Out.ok.injEq, Option.some.injEq, Prod.mk.injEq] at h
          cases a with
          | nil => simp at ha
          | cons w a =>
            rw [pvb1_end hs, Out.ok_bind]
            simp [h]
        | seg b u =>
          have hm := pvbLoop_mono h
          obtain ⟨hs', h2⟩ := pvb1_seg (r' := r') hs (by omega)
          rw [hs', Out.ok_bind]
          simp only at h ⊢
          rw [List.drop_append_of_le_length (by omega)] at h ⊢
          have hd : (a.drop u).length = a.length - u := by simp
          refine ih h (by omega) (by omega) (by omega) (fun e => hr (by omega))

theorem parseVarBytes_swap {a r r' : List CStr} {n : Nat} {o : Option Buf}
    (h : parseVarBytes (a ++ r) = .ok (some (n, o))) (hn : n ≤ a.length) (hr : n = a.length → Starts (· ∉ segWords) r') :
    parseVarBytes (a ++ r') = .ok (some (n, o)) := by
  unfold parseVarBytes at h ⊢
  exact pvbLoop_swap h (by simp) (by simp) (by omega) (fun e => hr (by omega))

/-! ## What field parsing leaves unchanged -/

/-- Names and multi-word parsers of the fields. -/
def sigF (fs : List Field) : List (CStr × MultiParser) := fs.map (fun f => (f.name, f.multi))

/-- What field parsing leaves unchanged. -/
def sig (h : Hdr) : HdrParser × List (CStr × MultiParser) := (h.parser, sigF h.fields)

theorem sig_updField (h : Hdr) (n : CStr) (g : Field → Field) (hg : ∀ f, (g f).name = f.name ∧ (g f).multi = f.multi) :
    sig (updField h n g) = sig h := by
  unfold sig updField
  simp only [Prod.mk.injEq, true_and]
  unfold sigF
  induction h.fields with
  | nil => rfl
  | cons f fs ih =>
    unfold updFirst
    split
    · simp [hg f]
    · simp [ih]

theorem sig_upd_size (h : Hdr) (n : CStr) (g : Field → Field) (hg : ∀ f, (g f).name = f.name ∧ (g f).multi = f.multi)
    (s : Nat) : sig { updField h n g with size := s } = sig h := sig_updField h n g hg

theorem sig_setVal (h : Hdr) (n : CStr) (v : Option Buf) : sig (setVal h n v) = sig h :=
  sig_updField h n _ (fun _ => ⟨rfl, rfl⟩)

theorem sig_skipAll (h : Hdr) : sig (skipAll h) = sig h := by
  unfold sig skipAll sigF
  simp [List.map_map, Function.comp_def]

theorem sig_relayout (fs : List Field) (o : Nat) :
    (relayout fs o).1.map (fun f => (f.name, f.multi)) = fs.map (fun f => (f.name, f.multi)) := by
  induction fs generalizing o with
  | nil => rfl
  | cons f fs ih => simp [relayout, ih]

theorem sig_relayoutHdr (h : Hdr) : sig (relayoutHdr h) = sig h := by
  unfold sig
  have := sig_relayout h.fields 0
  simp only [Prod.mk.injEq]
  exact ⟨rfl, this⟩

theorem sig_modify (h : Hdr) (k : Nat) (g : Field → Field) (hg : ∀ f, (g f).name = f.name ∧ (g f).multi = f.multi) :
    sig { h with fields := h.fields.modify k g } = sig h := by
  unfold sig
  simp only [Prod.mk.injEq, true_and]
  unfold sigF
  induction h.fields generalizing k with
  | nil => simp
  | cons f fs ih =>
    cases k with
    | zero => simp [hg f]
    | succ k => simpa using ih k

theorem sig_runFieldParser {h h' : Hdr} {f : Field} {s : CStr} {b : Option Buf}
    (hr : runFieldParser h f s = .ok (h', b)) : sig h' = sig h := by
  unfold runFieldParser at hr
  split at hr
  · rw [Out.bind_eq_ok] at hr; obtain ⟨_, _, hr⟩ := hr
    simp only [Out.ok.injEq, Prod.mk.injEq] at hr; rw [hr.1]
  · simp only [Out.ok.injEq, Prod.mk.injEq] at hr; rw [hr.1]
  · unfold coapParseToken at hr
    rw [Out.bind_eq_ok] at hr; obtain ⟨o, _, hr⟩ := hr
    cases o with
    | none => simp only [Out.ok.injEq, Prod.mk.injEq] at hr; rw [hr.1]
    | some v =>
      simp only at hr
      split at hr
      · simp only [Out.ok.injEq, Prod.mk.injEq] at hr; rw [hr.1]
      · simp only [Out.ok.injEq, Prod.mk.injEq] at hr
        rw [← hr.1, sig_relayoutHdr]
        exact sig_modify _ _ _ (fun _ => ⟨rfl, rfl⟩)
  · unfold profinetDataParser at hr
    rw [Out.bind_eq_ok] at hr; obtain ⟨o, _, hr⟩ := hr
    cases o with
    | none => simp only [Out.ok.injEq, Prod.mk.injEq] at hr; rw [hr.1]
    | some v =>
      simp only [Out.ok.injEq, Prod.mk.injEq] at hr
      rw [← hr.1, sig_relayoutHdr]
      exact sig_modify _ _ _ (fun _ => ⟨rfl, rfl⟩)
  · rw [Out.bind_eq_ok] at hr; obtain ⟨_, _, hr⟩ := hr
    simp only [Out.ok.injEq, Prod.mk.injEq] at hr; rw [hr.1]
  · rw [Out.bind_eq_ok] at hr; obtain ⟨_, _, hr⟩ := hr
    simp only [Out.ok.injEq, Prod.mk.injEq] at hr; rw [hr.1]

theorem sig_multiVar {h h' : Hdr} {n : CStr} {argv : List CStr} {k : Nat}
    (hr : fieldParseMultiVarByte h n argv = .ok (h', k)) : sig h' = sig h := by
  unfold fieldParseMultiVarByte at hr
  rw [Out.bind_eq_ok] at hr; obtain ⟨o, _, hr⟩ := hr
  split at hr
  · split at hr
    · simp only [Out.ok.injEq, Prod.mk.injEq] at hr
      rw [← hr.1]
      refine sig_upd_size _ _ _ ?_ _
      exact fun _ => ⟨rfl, rfl⟩
    · simp only [Out.ok.injEq, Prod.mk.injEq] at hr; rw [hr.1]
  · split at hr
    · simp at hr
    · simp only [Out.ok.injEq, Prod.mk.injEq] at hr; rw [hr.1]
  · simp only [Out.ok.injEq, Prod.mk.injEq] at hr; rw [hr.1]

theorem sig_runMultiParser {h h' : Hdr} {f : Field} {argv : List CStr} {k : Nat}
    (hr : runMultiParser h f argv = .ok (h', k)) : sig h' = sig h := by
  unfold runMultiParser at hr
  split at hr
  · simp only [Out.ok.injEq, Prod.mk.injEq] at hr; rw [hr.1]
  · unfold coapParseOptionValue at hr
    rw [Out.bind_eq_ok] at hr; obtain ⟨⟨h1, r⟩, h2, hr⟩ := hr
    have e := sig_multiVar h2
    simp only at hr
    split at hr
    · rw [Out.bind_eq_ok] at hr; obtain ⟨g, _, hr⟩ := hr
      split at hr
      · simp at hr
      · split at hr
        · simp only [Out.ok.injEq, Prod.mk.injEq] at hr
          rw [← hr.1, ← e]
          refine sig_upd_size h1 _ _ ?_ _
          exact fun _ => ⟨rfl, rfl⟩
        · simp only [Out.ok.injEq, Prod.mk.injEq] at hr; rw [← hr.1, e]
    · simp only [Out.ok.injEq, Prod.mk.injEq] at hr; rw [← hr.1, e]
  · unfold coapParseParms at hr
    rw [Out.bind_eq_ok] at hr; obtain ⟨o, _, hr⟩ := hr
    split at hr
    · split at hr
      · simp only [Out.ok.injEq, Prod.mk.injEq] at hr
        rw [← hr.1]
        refine sig_upd_size _ _ _ ?_ _
        exact fun _ => ⟨rfl, rfl⟩
      · simp only [Out.ok.injEq, Prod.mk.injEq] at hr; rw [hr.1]
    · simp at hr

theorem findField_sig {h h' : Hdr} (e : sig h' = sig h) {n : CStr} (hf : findField h n = none) : findField h' n = none := by
  unfold findField at *
  rw [List.find?_eq_none] at *
  intro f hm hn
  have : (f.name, f.multi) ∈ (sig h').2 := List.mem_map.mpr ⟨f, hm, rfl⟩
  rw [e] at this
  obtain ⟨g, hg, e2⟩ := List.mem_map.mp this
  simp only [Prod.mk.injEq] at e2
  refine hf g hg ?_
  rw [e2.1]; exact hn

/-! ## Fields of a header -/

/-- The word ends the fields of the header `h`. -/
def EndsHdr (h : Hdr) (w : CStr) : Prop :=
  w ≠ c!"help" ∧ isIgn w = false ∧ findField h w = none ∧ ((∃ e ∈ (sig h).2, e.2 ≠ .none) → w ∉ segWords)

theorem EndsHdr.congr {h h' : Hdr} (e : sig h' = sig h) {w : CStr} (hw : EndsHdr h w) : EndsHdr h' w :=
  ⟨hw.1, hw.2.1, findField_sig e hw.2.2.1, by rw [e]; exact hw.2.2.2⟩

theorem multiVar_swap {h h2 : Hdr} {n : CStr} {a r r' : List CStr} {k : Nat}
    (hr : fieldParseMultiVarByte h n (a ++ r) = .ok (h2, k)) (h0 : 0 < k) (hk : k ≤ a.length)
    (hs : k = a.length → Starts (· ∉ segWords) r') : fieldParseMultiVarByte h n (a ++ r') = .ok (h2, k) := by
  unfold fieldParseMultiVarByte at hr ⊢
  rw [Out.bind_eq_ok] at hr
  obtain ⟨o, h1, hr⟩ := hr
  split at hr
  · rename_i res b
    split at hr
    · rename_i hc
      have hkr : res = k := by simp only [Out.ok.injEq, Prod.mk.injEq] at hr; exact hr.2
      subst hkr
      rw [parseVarBytes_swap h1 hk hs, Out.ok_bind]
      simp only
      rw [if_pos ⟨hc.1, by rw [List.length_append]; omega⟩]
      exact hr
    · simp only [Out.ok.injEq, Prod.mk.injEq] at hr; omega
  · split at hr
    · simp at hr
    · simp only [Out.ok.injEq, Prod.mk.injEq] at hr; omega
  · simp only [Out.ok.injEq, Prod.mk.injEq] at hr; omega

theorem runMultiParser_swap {h h2 : Hdr} {f : Field} {a r r' : List CStr} {k : Nat}
    (hr : runMultiParser h f (a ++ r) = .ok (h2, k)) (h0 : 0 < k) (hk : k ≤ a.length)
    (hs : k = a.length → Starts (· ∉ segWords) r') : runMultiParser h f (a ++ r') = .ok (h2, k) := by
  unfold runMultiParser at hr ⊢
  split at hr
  · simp only [Out.ok.injEq, Prod.mk.injEq] at hr; omega
  · unfold coapParseOptionValue at hr ⊢
    rw [Out.bind_eq_ok] at hr; obtain ⟨⟨h1, res⟩, e, hr⟩ := hr
    simp only at hr
    have hres : res = k := by
      split at hr
      · rw [Out.bind_eq_ok] at hr; obtain ⟨g, _, hr⟩ := hr
        split at hr
        · simp at hr
        · split at hr <;> (simp only [Out.ok.injEq, Prod.mk.injEq] at hr; exact hr.2)
      · simp only [Out.ok.injEq, Prod.mk.injEq] at hr; exact hr.2
    subst hres
    rw [multiVar_swap e h0 hk hs, Out.ok_bind]
    simp only
    split at hr
    · rename_i hc
      rw [if_pos ⟨hc.1, by rw [List.length_append]; omega⟩]
      exact hr
    · rename_i hc
      rw [if_neg (fun hc' => hc ⟨hc'.1, by rw [List.length_append]; omega⟩)]
      exact hr
  · unfold coapParseParms at hr ⊢
    rw [Out.bind_eq_ok] at hr
    obtain ⟨o, h1, hr⟩ := hr
    split at hr
    · rename_i res b
      split at hr
      · rename_i hc
        have hkr : res = k := by simp only [Out.ok.injEq, Prod.mk.injEq] at hr; exact hr.2
        subst hkr
        rw [parseVarBytes_swap h1 hk hs, Out.ok_bind]
        simp only
        rw [if_pos ⟨hc.1, by rw [List.length_append]; omega⟩]
        exact hr
      · simp only [Out.ok.injEq, Prod.mk.injEq] at hr; omega
    · simp at hr

theorem pfl_mono {fuel : Nat} {h h' : Hdr} {m m' : Bool} {i n : Nat} {argv : List CStr}
    (hr : parseFieldsLoop fuel h m i argv = .ok (some (n, h', m'))) :
    i ≤ n ∧ n ≤ i + argv.length ∧ sig h' = sig h ∧ (n = i → h' = h ∧ m' = m) := by
  induction fuel generalizing h m i argv with
  | zero =>
    simp only [parseFieldsLoop, Out.ok.injEq, Option.some.injEq, Prod.mk.injEq] at hr
    obtain ⟨rfl, rfl, rfl⟩ := hr
    exact ⟨by omega, by omega, rfl, fun _ => ⟨rfl, rfl⟩⟩
  | succ fuel ih =>
    unfold parseFieldsLoop at hr
    cases argv with
    | nil =>
      simp only [Out.ok.injEq, Option.some.injEq, Prod.mk.injEq] at hr
      obtain ⟨rfl, rfl, rfl⟩ := hr
      exact ⟨by omega, by omega, rfl, fun _ => ⟨rfl, rfl⟩⟩
    | cons w rest =>
      simp only at hr
      split at hr
      · simp at hr
      split at hr
      · obtain ⟨a, b, c, d⟩ := ih hr
        refine ⟨by omega, by simp only [List.length_cons]; omega, by rw [c, sig_skipAll], by omega⟩
      split at hr
      · simp only [Out.ok.injEq, Option.some.injEq, Prod.mk.injEq] at hr
        obtain ⟨rfl, rfl, rfl⟩ := hr
        exact ⟨by omega, by omega, rfl, fun _ => ⟨rfl, rfl⟩⟩
      · rename_i f hf
        cases rest with
        | nil => simp at hr
        | cons v rest =>
          simp only at hr
          split at hr
          · obtain ⟨a, b, c, d⟩ := ih hr
            refine ⟨by omega, by simp only [List.length_cons]; omega, ?_, by omega⟩
            rw [c, sig_updField, sig_setVal]
            exact fun _ => ⟨rfl, rfl⟩
          split at hr
          · simp at hr
          split at hr
          · rw [Out.bind_eq_ok] at hr
            obtain ⟨⟨h1, cnt⟩, e, hr⟩ := hr
            simp only at hr
            split at hr
            · rename_i hc
              obtain ⟨a, b, c, d⟩ := ih hr
              have := sig_runMultiParser e
              simp only [List.length_cons, List.length_drop] at b hc ⊢
              refine ⟨by omega, by omega, ?_, by omega⟩
              rw [c, sig_updField, this, sig_setVal]
              exact fun _ => ⟨rfl, rfl⟩
            · simp at hr
          · rw [Out.bind_eq_ok] at hr
            obtain ⟨⟨h1, b1⟩, e, hr⟩ := hr
            simp only at hr
            obtain ⟨a, b, c, d⟩ := ih hr
            have := sig_runFieldParser e
            refine ⟨by omega, by simp only [List.length_cons]; omega, ?_, by omega⟩
            rw [c, sig_updField, this, sig_setVal]
            exact fun _ => ⟨rfl, rfl⟩

theorem pfl_end {fuel : Nat} {h : Hdr} {m : Bool} {i : Nat} {r : List CStr} (hr : Starts (EndsHdr h) r) :
    parseFieldsLoop fuel h m i r = .ok (some (i, h, m)) := by
  cases fuel with
  | zero => rfl
  | succ fuel =>
    unfold parseFieldsLoop
    cases r with
    | nil => rfl
    | cons w tl =>
      obtain ⟨h1, h2, h3, _⟩ := hr w tl rfl
      simp only
      rw [if_neg h1, if_neg (by simp [h2]), h3]

theorem pfl_swap {fuel fuel' : Nat} {h h' : Hdr} {m m' : Bool} {i n : Nat} {a r r' : List CStr}
    (hr : parseFieldsLoop fuel h m i (a ++ r) = .ok (some (n, h', m'))) (hf : a.length + r.length ≤ fuel)
    (hf' : a.length + r'.length ≤ fuel') (hn : n ≤ i + a.length) (hs : n = i + a.length → Starts (EndsHdr h) r') :
    parseFieldsLoop fuel' h m i (a ++ r') = .ok (some (n, h', m')) := by
  induction fuel generalizing fuel' h m i a with
  | zero =>
    have ha : a = [] := List.eq_nil_of_length_eq_zero (by omega)
    subst ha
    simp only [parseFieldsLoop, Out.ok.injEq, Option.some.injEq, Prod.mk.injEq] at hr
    obtain ⟨rfl, rfl, rfl⟩ := hr
    exact pfl_end (hs (by simp))
  | succ fuel ih =>
    cases a with
    | nil =>
      obtain ⟨a, b, c, d⟩ := pfl_mono hr
      have hni : n = i := by simp at hn; omega
      obtain ⟨rfl, rfl⟩ := d hni
      rw [hni]
      exact pfl_end (hs (by simp [hni]))
    | cons w a =>
      cases fuel' with
      | zero => simp at hf'
      | succ fuel' =>
        simp only [List.length_cons] at hf hf' hn hs
        simp only [List.cons_append] at hr ⊢
        unfold parseFieldsLoop at hr ⊢
        simp only at hr ⊢
        split at hr
        · simp at hr
        rename_i n1; rw [if_neg n1]
        split at hr
        · rename_i n2; rw [if_pos n2]
          exact ih hr (by omega) (by omega) (by omega) (fun e w tl hw => (hs (by omega) w tl hw).congr (sig_skipAll h))
        rename_i n2; rw [if_neg n2]
        split at hr
        · exact hr
        · rename_i f n3
          cases a with
          | nil =>
            exfalso
            simp only [List.nil_append] at hr
            cases r with
            | nil => simp at hr
            | cons v rest =>
              simp only [List.length_nil] at hn
              simp only at hr
              split at hr
              · have := (pfl_mono hr).1; omega
              split at hr
              · simp at hr
              split at hr
              · rw [Out.bind_eq_ok] at hr
                obtain ⟨⟨h1, cnt⟩, e, hr⟩ := hr
                simp only at hr
                split at hr
                · have := (pfl_mono hr).1; omega
                · simp at hr
              · rw [Out.bind_eq_ok] at hr
                obtain ⟨⟨h1, b1⟩, e, hr⟩ := hr
                simp only at hr
                have := (pfl_mono hr).1; omega
          | cons v a =>
            simp only [List.length_cons] at hf hf' hn hs
            simp only [List.cons_append] at hr ⊢
            split at hr
            · rename_i n4; rw [if_pos n4]
              refine ih hr (by omega) (by omega) (by omega) (fun e w tl hw => (hs (by omega) w tl hw).congr ?_)
              rw [sig_updField, sig_setVal]
              exact fun _ => ⟨rfl, rfl⟩
            rename_i n4; rw [if_neg n4]
            split at hr
            · simp at hr
            rename_i n5; rw [if_neg n5]
            split at hr
            · rename_i n6; rw [if_pos n6]
              rw [Out.bind_eq_ok] at hr
              obtain ⟨⟨h1, cnt⟩, e, hr⟩ := hr
              simp only at hr
              split at hr
              · rename_i hc
                obtain ⟨q1, q2, q3, q4⟩ := pfl_mono hr
                have hmul : ∃ e ∈ (sig h).2, e.2 ≠ .none :=
                  ⟨(f.name, f.multi), List.mem_map.mpr ⟨f, (find_mem n3).1, rfl⟩, n6.2⟩
                have e' := runMultiParser_swap (a := v :: a) (r := r) (r' := r') e hc.1
                  (by simp only [List.length_cons]; omega)
                  (fun he w tl hw => (hs (by simp only [List.length_cons] at he; omega) w tl hw).2.2.2 hmul)
                simp only [List.cons_append] at e'
                rw [e', Out.ok_bind]
                simp only
                have hcl : cnt ≤ (v :: a).length := by simp only [List.length_cons]; omega
                rw [if_pos ⟨hc.1, by simp only [List.length_cons, List.length_append] at hcl ⊢; omega⟩]
                have d1 : ∀ s, (v :: (a ++ s)).drop cnt = (v :: a).drop cnt ++ s := by
                  intro s
                  rw [← List.cons_append, List.drop_append_of_le_length hcl]
                rw [d1] at hr ⊢
                have hd : ((v :: a).drop cnt).length = a.length + 1 - cnt := by simp
                refine ih hr (by omega) (by omega) (by omega) (fun e0 w tl hw => (hs (by omega) w tl hw).congr ?_)
                rw [sig_updField, sig_runMultiParser e, sig_setVal]
                exact fun _ => ⟨rfl, rfl⟩
              · simp at hr
            · rename_i n6; rw [if_neg n6]
              rw [Out.bind_eq_ok] at hr
              obtain ⟨⟨h1, b1⟩, e, hr⟩ := hr
              rw [e, Out.ok_bind]
              simp only at hr ⊢
              refine ih hr (by omega) (by omega) (by omega) (fun e0 w tl hw => (hs (by omega) w tl hw).congr ?_)
              rw [sig_updField, sig_runFieldParser e, sig_setVal]
              exact fun _ => ⟨rfl, rfl⟩

/-! ## Headers -/

theorem pvb1_used {argv : List CStr} {b : Buf} {u : Nat} (h : parseVarBytes1 argv = .ok (.seg b u)) : u ≤ argv.length := by
  unfold parseVarBytes1 at h
  repeat' (first | split at h | (rw [Out.bind_eq_ok] at h; obtain ⟨_, _, h⟩ := h))
  all_goals first
    | (simp only [Out.ok.injEq] at h; have := ofOpt_seg h; simp only [List.length_cons]; omega)
    | (simp at h; done)
    | (simp only [Out.ok.injEq, Seg.seg.injEq] at h; simp only [List.length_cons]; omega)

theorem pvbLoop_le {fuel : Nat} {argv : List CStr} {i n : Nat} {acc o : Option Buf}
    (h : parseVarBytesLoop fuel argv i acc = .ok (some (n, o))) : n ≤ i + argv.length := by
  induction fuel generalizing argv i acc with
  | zero => simp [parseVarBytesLoop] at h; omega
  | succ fuel ih =>
    unfold parseVarBytesLoop at h
    split at h
    · simp at h; omega
    · rw [Out.bind_eq_ok] at h
      obtain ⟨s, hs, h⟩ := h
      cases s with
      | err => simp at h
      | stop => simp at h; omega
      | seg b u =>
        have := ih h
        have h2 := pvb1_used hs
        rw [List.length_drop] at this
        omega

/-- The word ends the header `h`. -/
def EndsAll (h : Hdr) (w : CStr) : Prop :=
  (h.parser = .fields → EndsHdr h w) ∧ (h.parser = .payload → w ∉ segWords)

theorem sig_parser {h h' : Hdr} (e : sig h' = sig h) : h'.parser = h.parser := congrArg Prod.fst e

theorem EndsAll.congr {h h' : Hdr} (e : sig h' = sig h) {w : CStr} (hw : EndsAll h w) : EndsAll h' w :=
  ⟨fun hp => (hw.1 (sig_parser e ▸ hp)).congr e, fun hp => hw.2 (sig_parser e ▸ hp)⟩

theorem payloadParser_mono {h h' : Hdr} {argv : List CStr} {n : Nat} (hr : payloadParser h argv = .ok (some (n, h'))) :
    n ≤ argv.length ∧ sig h' = sig h := by
  unfold payloadParser at hr
  rw [Out.bind_eq_ok] at hr
  obtain ⟨o, h1, hr⟩ := hr
  cases o with
  | none => simp at hr
  | some p =>
    obtain ⟨res, b⟩ := p
    have hl := pvbLoop_le h1
    simp only at hr
    split at hr
    · simp only [Out.ok.injEq, Option.some.injEq, Prod.mk.injEq] at hr
      exact ⟨by omega, by rw [hr.2]⟩
    · cases b with
      | none => simp at hr
      | some b =>
        simp only [Out.ok.injEq, Option.some.injEq, Prod.mk.injEq] at hr
        refine ⟨by omega, ?_⟩
        rw [← hr.2]
        have := sig_modify h 0 (fun f => { f with width := b.length * 8, val := some b }) (fun _ => ⟨rfl, rfl⟩)
        exact this

theorem payloadParser_swap {h h' : Hdr} {a r r' : List CStr} {n : Nat} (hr : payloadParser h (a ++ r) = .ok (some (n, h')))
    (hn : n ≤ a.length) (hs : n = a.length → Starts (· ∉ segWords) r') : payloadParser h (a ++ r') = .ok (some (n, h')) := by
  unfold payloadParser at hr ⊢
  rw [Out.bind_eq_ok] at hr
  obtain ⟨o, h1, hr⟩ := hr
  cases o with
  | none => simp at hr
  | some p =>
    obtain ⟨res, b⟩ := p
    have hres : res = n := by
      simp only at hr
      split at hr
      · simp only [Out.ok.injEq, Option.some.injEq, Prod.mk.injEq] at hr; omega
      · cases b with
        | none => simp at hr
        | some b => simp only [Out.ok.injEq, Option.some.injEq, Prod.mk.injEq] at hr; omega
    subst hres
    rw [parseVarBytes_swap h1 hn hs, Out.ok_bind]
    exact hr

theorem runHdrParser_mono {h h' : Hdr} {pad pad' : Int} {m m' : Bool} {argv : List CStr} {n : Nat}
    (hr : runHdrParser h pad m argv = .ok (some (n, h', pad', m'))) : n ≤ argv.length ∧ sig h' = sig h := by
  unfold runHdrParser at hr
  split at hr
  · rw [Out.bind_eq_ok] at hr
    obtain ⟨o, h1, hr⟩ := hr
    cases o with
    | none => simp at hr
    | some p =>
      obtain ⟨n1, hh, m1⟩ := p
      simp only [Out.ok.injEq, Option.some.injEq, Prod.mk.injEq] at hr
      obtain ⟨rfl, rfl, rfl, rfl⟩ := hr
      have := pfl_mono h1
      exact ⟨by omega, this.2.2.1⟩
  · rw [Out.bind_eq_ok] at hr
    obtain ⟨o, h1, hr⟩ := hr
    cases o with
    | none => simp at hr
    | some p =>
      obtain ⟨n1, hh⟩ := p
      simp only [Out.ok.injEq, Option.some.injEq, Prod.mk.injEq] at hr
      obtain ⟨rfl, rfl, rfl, rfl⟩ := hr
      exact payloadParser_mono h1
  · rw [Out.bind_eq_ok] at hr
    obtain ⟨o, h1, hr⟩ := hr
    cases o with
    | none => simp at hr
    | some p =>
      simp only [Out.ok.injEq, Option.some.injEq, Prod.mk.injEq] at hr
      obtain ⟨rfl, rfl, rfl, rfl⟩ := hr
      refine ⟨?_, rfl⟩
      cases argv with
      | nil => simp [paddingParser] at h1
      | cons w tl => simp

theorem runHdrParser_swap {h h' : Hdr} {pad pad' : Int} {m m' : Bool} {a r r' : List CStr} {n : Nat}
    (hr : runHdrParser h pad m (a ++ r) = .ok (some (n, h', pad', m'))) (hn : n ≤ a.length)
    (hs : n = a.length → Starts (EndsAll h) r') : runHdrParser h pad m (a ++ r') = .ok (some (n, h', pad', m')) := by
  unfold runHdrParser at hr ⊢
  split at hr
  · rename_i hp
    rw [Out.bind_eq_ok] at hr
    obtain ⟨o, h1, hr⟩ := hr
    cases o with
    | none => simp at hr
    | some p =>
      obtain ⟨n1, hh, m1⟩ := p
      simp only [Out.ok.injEq, Option.some.injEq, Prod.mk.injEq] at hr
      obtain ⟨rfl, rfl, rfl, rfl⟩ := hr
      unfold parseFields at h1 ⊢
      rw [pfl_swap (fuel' := (a ++ r').length) h1 (by simp) (by simp) (by omega)
        (fun e w tl hw => (hs (by omega) w tl hw).1 hp), Out.ok_bind]
  · rename_i hp
    rw [Out.bind_eq_ok] at hr
    obtain ⟨o, h1, hr⟩ := hr
    cases o with
    | none => simp at hr
    | some p =>
      obtain ⟨n1, hh⟩ := p
      simp only [Out.ok.injEq, Option.some.injEq, Prod.mk.injEq] at hr
      obtain ⟨rfl, rfl, rfl, rfl⟩ := hr
      rw [payloadParser_swap h1 hn (fun e w tl hw => (hs e w tl hw).2 hp), Out.ok_bind]
  · rw [Out.bind_eq_ok] at hr
    obtain ⟨o, h1, hr⟩ := hr
    cases o with
    | none => simp at hr
    | some p =>
      simp only [Out.ok.injEq, Option.some.injEq, Prod.mk.injEq] at hr
      obtain ⟨rfl, rfl, rfl, rfl⟩ := hr
      cases a with
      | nil => simp at hn
      | cons w a =>
        have : paddingParser (w :: a ++ r') = paddingParser (w :: a ++ r) := rfl
        rw [this, h1, Out.ok_bind]

/-! ## Frames -/

/-- One step of frame parsing. -/
theorem afl_step (cap fuel : Nat) (f : Frame) (i : Nat) (w : CStr) (rest : List CStr) :
    argcFrameLoop cap (fuel + 1) f i (w :: rest) =
      if w = c!"help" then .ok none
      else
        match findTmpl w with
        | none => .ok (some (i, f))
        | some t => pushHdr cap f t >>= fun _ => runHdrParser t f.padding f.hasMask rest >>= fun o =>
          match o with
          | none => .ok none
          | some (n, h, pad, m) =>
            argcFrameLoop cap fuel { stack := f.stack ++ [h], padding := pad, hasMask := m } (i + 1 + n) (rest.drop n) := by
  conv => lhs; unfold argcFrameLoop
  simp only
  split
  · rfl
  · cases findTmpl w with
    | none => rfl
    | some t => simp only [hdrCopy_eq]; rfl

theorem afl_nil (cap fuel : Nat) (f : Frame) (i : Nat) : argcFrameLoop cap fuel f i [] = .ok (some (i, f)) := by
  cases fuel <;> rfl

theorem afl_mono {cap fuel : Nat} {f g : Frame} {i n : Nat} {argv : List CStr}
    (h : argcFrameLoop cap fuel f i argv = .ok (some (n, g))) :
    i ≤ n ∧ n ≤ i + argv.length ∧ (n = i → g = f) ∧ f.stack.length + n ≤ g.stack.length + n ∧
      ∃ hs, g.stack = f.stack ++ hs ∧ hs.length ≤ n - i := by
  induction fuel generalizing f i argv with
  | zero =>
    simp only [argcFrameLoop, Out.ok.injEq, Option.some.injEq, Prod.mk.injEq] at h
    obtain ⟨rfl, rfl⟩ := h
    exact ⟨by omega, by omega, fun _ => rfl, by omega, [], by simp⟩
  | succ fuel ih =>
    cases argv with
    | nil =>
      rw [afl_nil] at h
      simp only [Out.ok.injEq, Option.some.injEq, Prod.mk.injEq] at h
      obtain ⟨rfl, rfl⟩ := h
      exact ⟨by omega, by omega, fun _ => rfl, by omega, [], by simp⟩
    | cons w rest =>
      rw [afl_step] at h
      split at h
      · simp at h
      · split at h
        · simp only [Out.ok.injEq, Option.some.injEq, Prod.mk.injEq] at h
          obtain ⟨rfl, rfl⟩ := h
          exact ⟨by omega, by omega, fun _ => rfl, by omega, [], by simp⟩
        · rw [Out.bind_eq_ok] at h; obtain ⟨_, _, h⟩ := h
          rw [Out.bind_eq_ok] at h; obtain ⟨o, h1, h⟩ := h
          cases o with
          | none => simp at h
          | some p =>
            obtain ⟨k, hh, pad, m⟩ := p
            simp only at h
            obtain ⟨q1, q2, _, q4, hs, q5, q6⟩ := ih h
            have := (runHdrParser_mono h1).1
            simp only [List.length_drop, List.length_cons, List.length_append, List.length_nil] at q2 q4 ⊢
            refine ⟨by omega, by omega, by omega, by omega, hh :: hs, ?_, ?_⟩
            · rw [q5]; simp
            · simp only [List.length_cons]; omega

theorem afl_fuel {cap : Nat} {f : Frame} {i : Nat} {argv : List CStr} {fuel fuel' : Nat} (h : argv.length ≤ fuel)
    (h' : argv.length ≤ fuel') : argcFrameLoop cap fuel f i argv = argcFrameLoop cap fuel' f i argv := by
  induction fuel generalizing fuel' f i argv with
  | zero =>
    have : argv = [] := List.eq_nil_of_length_eq_zero (by omega)
    subst this
    rw [afl_nil, afl_nil]
  | succ fuel ih =>
    cases argv with
    | nil => rw [afl_nil, afl_nil]
    | cons w rest =>
      cases fuel' with
      | zero => simp at h'
      | succ fuel' =>
        simp only [List.length_cons] at h h'
        rw [afl_step, afl_step]
        split
        · rfl
        · split
          · rfl
          · congr 1; funext _; congr 1; funext o
            cases o with
            | none => rfl
            | some p =>
              simp only
              exact ih (by simp only [List.length_drop]; omega) (by simp only [List.length_drop]; omega)

/-- The word ends the last header of the frame. -/
def EndsLast (f : Frame) (w : CStr) : Prop := ∀ h, f.stack.getLast? = some h → EndsAll h w

/-- Parsing continues behind words that make up a frame. -/
theorem afl_cont {cap fuel fuel' : Nat} {f g : Frame} {i n : Nat} {a r : List CStr}
    (h : argcFrameLoop cap fuel f i a = .ok (some (n, g))) (hn : n = i + a.length) (hf : a.length ≤ fuel)
    (hf' : a.length + r.length ≤ fuel') (hr : Starts (EndsLast g) r) :
    argcFrameLoop cap fuel' f i (a ++ r) = argcFrameLoop cap r.length g n r := by
  subst hn
  induction fuel generalizing fuel' f i a with
  | zero =>
    have : a = [] := List.eq_nil_of_length_eq_zero (by omega)
    subst this
    rw [afl_nil] at h
    simp only [Out.ok.injEq, Option.some.injEq, Prod.mk.injEq] at h
    obtain ⟨_, rfl⟩ := h
    exact afl_fuel (by simpa using hf') (by simp)
  | succ fuel ih =>
    cases a with
    | nil =>
      rw [afl_nil] at h
      simp only [Out.ok.injEq, Option.some.injEq, Prod.mk.injEq] at h
      obtain ⟨_, rfl⟩ := h
      exact afl_fuel (by simpa using hf') (by simp)
    | cons w a =>
      cases fuel' with
      | zero => simp at hf'
      | succ fuel' =>
        simp only [List.length_cons] at hf hf'
        rw [afl_step] at h
        rw [List.cons_append, afl_step]
        split at h
        · simp at h
        · rename_i n1
          rw [if_neg n1]
          split at h
          · simp only [List.length_cons, Out.ok.injEq, Option.some.injEq, Prod.mk.injEq] at h; omega
          · rw [Out.bind_eq_ok] at h; obtain ⟨fp, hp, h⟩ := h
            rw [Out.bind_eq_ok] at h; obtain ⟨o, h1, h⟩ := h
            cases o with
            | none => simp at h
            | some p =>
              obtain ⟨k, hh, pad, m⟩ := p
              simp only [List.length_cons] at h
              obtain ⟨hk, hsig⟩ := runHdrParser_mono h1
              have hsw := runHdrParser_swap (a := a) (r := []) (r' := r) (by rw [List.append_nil]; exact h1) hk (by
                intro he w' tl hw'
                have hg : g = { stack := f.stack ++ [hh], padding := pad, hasMask := m } := by
                  refine (afl_mono h).2.2.1 (by omega)
                have := hr w' tl hw' hh (by rw [hg]; simp)
                exact this.congr hsig.symm)
              rw [hp, Out.ok_bind, hsw, Out.ok_bind]
              simp only
              rw [List.drop_append_of_le_length hk]
              have hd : (a.drop k).length = a.length - k := by simp
              have e : i + (a.length + 1) = i + 1 + k + (a.drop k).length := by omega
              rw [e] at h
              have := ih (fuel' := fuel') (by omega) (by omega) h
              rw [this, List.length_cons, e]

/-- Only the consumed words, and that the next word ends the frame, matter. -/
theorem afl_swap {cap fuel fuel' : Nat} {f g : Frame} {i n : Nat} {a r r' : List CStr}
    (h : argcFrameLoop cap fuel f i (a ++ r) = .ok (some (n, g))) (hn : n = i + a.length)
    (hf : a.length + r.length ≤ fuel) (hf' : a.length + r'.length ≤ fuel')
    (hr : Starts (fun w => w ≠ c!"help" ∧ findTmpl w = none ∧ EndsLast g w) r') :
    argcFrameLoop cap fuel' f i (a ++ r') = .ok (some (n, g)) := by
  subst hn
  have hend : ∀ fuel' g n, Starts (fun w => w ≠ c!"help" ∧ findTmpl w = none ∧ EndsLast g w) r' →
      argcFrameLoop cap fuel' g n r' = .ok (some (n, g)) := by
    intro fuel' g n hr
    cases r' with
    | nil => exact afl_nil ..
    | cons w tl =>
      obtain ⟨h1, h2, _⟩ := hr w tl rfl
      cases fuel' with
      | zero => rfl
      | succ fuel' => rw [afl_step, if_neg h1, h2]
  induction fuel generalizing fuel' f i a with
  | zero =>
    have : a = [] := List.eq_nil_of_length_eq_zero (by omega)
    subst this
    have := (afl_mono h).2.2.1 (by simp)
    subst this
    exact hend _ _ _ hr
  | succ fuel ih =>
    cases a with
    | nil =>
      have := (afl_mono h).2.2.1 (by simp)
      subst this
      exact hend _ _ _ hr
    | cons w a =>
      cases fuel' with
      | zero => simp at hf'
      | succ fuel' =>
        simp only [List.length_cons] at hf hf'
        rw [List.cons_append, afl_step] at h
        rw [List.cons_append, afl_step]
        split at h
        · simp at h
        · rename_i n1
          rw [if_neg n1]
          split at h
          · simp only [List.length_cons, Out.ok.injEq, Option.some.injEq, Prod.mk.injEq] at h; omega
          · rw [Out.bind_eq_ok] at h; obtain ⟨fp, hp, h⟩ := h
            rw [Out.bind_eq_ok] at h; obtain ⟨o, h1, h⟩ := h
            cases o with
            | none => simp at h
            | some p =>
              obtain ⟨k, hh, pad, m⟩ := p
              simp only [List.length_cons] at h
              obtain ⟨_, hsig⟩ := runHdrParser_mono h1
              have hm := afl_mono h
              have hk : k ≤ a.length := by omega
              have hsw := runHdrParser_swap (a := a) (r := r) (r' := r') h1 hk (by
                intro he w' tl hw'
                have hg : g = { stack := f.stack ++ [hh], padding := pad, hasMask := m } := hm.2.2.1 (by omega)
                have := (hr w' tl hw').2.2 hh (by rw [hg]; simp)
                exact this.congr hsig.symm)
              rw [hp, Out.ok_bind, hsw, Out.ok_bind]
              simp only
              rw [List.drop_append_of_le_length hk] at h ⊢
              have hd : (a.drop k).length = a.length - k := by simp
              have e : i + (a.length + 1) = i + 1 + k + (a.drop k).length := by omega
              rw [e] at h
              have := ih (fuel' := fuel') (by omega) (by omega) h
              rw [this, List.length_cons, e]

end Ef
