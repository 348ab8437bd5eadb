import Verif.Lemmas.InstParse

/-! # What a parsed frame contains was named on the command line -/

namespace Ef

open Spec

/-- The header and its fields with a value are named by words of `W`. -/
def NamedIn (W : List CStr) (h : Hdr) : Prop := ∀ f ∈ h.fields, f.val ≠ none → f.name ∈ W

theorem mem_updFirst_nw {p : Field → Bool} {g : Field → Field} {l : List Field} {x : Field} (h : x ∈ updFirst p g l) :
    x ∈ l ∨ ∃ y ∈ l, p y = true ∧ x = g y := by
  induction l with
  | nil => simp [updFirst] at h
  | cons y l ih =>
    unfold updFirst at h
    split at h
    · rename_i hp
      rcases List.mem_cons.mp h with rfl | h
      · exact Or.inr ⟨y, by simp, hp, rfl⟩
      · exact Or.inl (by simp [h])
    · rcases List.mem_cons.mp h with rfl | h
      · exact Or.inl (by simp)
      · rcases ih h with h | ⟨z, h1, h2⟩
        · exact Or.inl (by simp [h])
        · exact Or.inr ⟨z, by simp [h1], h2⟩

theorem NamedIn.upd {W : List CStr} {h : Hdr} (hn : NamedIn W h) {n : CStr} (hw : n ∈ W) (g : Field → Field)
    (hg : ∀ f, (g f).name = f.name) : NamedIn W (updField h n g) := by
  intro f hf hv
  rcases mem_updFirst_nw hf with hf | ⟨y, _, hp, rfl⟩
  · exact hn f hf hv
  · rw [hg, show y.name = n from by simpa using hp]; exact hw

theorem NamedIn.map {W : List CStr} {h : Hdr} (hn : NamedIn W h) : NamedIn W (skipAll h) := by
  intro f hf hv
  unfold skipAll at hf
  simp only [List.mem_map] at hf
  obtain ⟨y, hy, rfl⟩ := hf
  exact hn y hy hv

theorem relayout_mem (l : List Field) : ∀ (o : Nat) (x : Field), x ∈ (relayout l o).1 → ∃ y ∈ l, x.name = y.name ∧ x.val = y.val := by
  induction l with
  | nil => intro o x h; simp [relayout] at h
  | cons y l ih =>
    intro o x h
    unfold relayout at h
    simp only [List.mem_cons] at h
    rcases h with rfl | h
    · exact ⟨y, by simp, rfl, rfl⟩
    · obtain ⟨z, hz, e⟩ := ih _ _ h
      exact ⟨z, by simp [hz], e⟩

theorem modify_mem (l : List Field) (g : Field → Field) (hg : ∀ f, (g f).name = f.name ∧ (g f).val = f.val) :
    ∀ (i : Nat) (x : Field), x ∈ l.modify i g → ∃ y ∈ l, x.name = y.name ∧ x.val = y.val := by
  induction l with
  | nil => intro i x h; simp at h
  | cons y l ih =>
    intro i x h
    cases i with
    | zero =>
      simp only [List.modify_zero_cons, List.mem_cons] at h
      rcases h with rfl | h
      · exact ⟨y, by simp, hg y⟩
      · exact ⟨x, by simp [h], rfl, rfl⟩
    | succ i =>
      simp only [List.modify_succ_cons, List.mem_cons] at h
      rcases h with rfl | h
      · exact ⟨x, by simp, rfl, rfl⟩
      · obtain ⟨z, hz, e⟩ := ih _ _ h
        exact ⟨z, by simp [hz], e⟩

theorem NamedIn.resize {W : List CStr} {h : Hdr} (hn : NamedIn W h) (i k : Nat) :
    NamedIn W (relayoutHdr { h with fields := h.fields.modify i (fun f => { f with width := k }) }) := by
  intro f hf hv
  obtain ⟨y, hy, e1, e2⟩ := relayout_mem _ _ _ hf
  obtain ⟨z, hz, e3, e4⟩ := modify_mem h.fields (fun f => { f with width := k }) (fun _ => ⟨rfl, rfl⟩) i y hy
  rw [e1, e3]
  exact hn z hz (by rw [← e4, ← e2]; exact hv)

theorem runFieldParser_name {h h2 : Hdr} {f : Field} {v : CStr} {b : Option Buf} (hr : runFieldParser h f v = .ok (h2, b)) :
    h2.name = h.name ∧ ∀ W, NamedIn W h → NamedIn W h2 := by
  unfold runFieldParser at hr
  split at hr
  · rw [Out.bind_eq_ok] at hr
    obtain ⟨_, _, hr⟩ := hr
    cases hr; exact ⟨rfl, fun _ h => h⟩
  · cases hr; exact ⟨rfl, fun _ h => h⟩
  · unfold coapParseToken at hr
    rw [Out.bind_eq_ok] at hr
    obtain ⟨r, _, hr⟩ := hr
    cases r with
    | none => cases hr; exact ⟨rfl, fun _ h => h⟩
    | some b =>
      simp only at hr
      split at hr
      · cases hr; exact ⟨rfl, fun _ h => h⟩
      · cases hr; exact ⟨rfl, fun _ h => h.resize 5 _⟩
  · unfold profinetDataParser at hr
    rw [Out.bind_eq_ok] at hr
    obtain ⟨r, _, hr⟩ := hr
    cases r with
    | none => cases hr; exact ⟨rfl, fun _ h => h⟩
    | some b => cases hr; exact ⟨rfl, fun _ h => h.resize 1 _⟩
  · rw [Out.bind_eq_ok] at hr
    obtain ⟨_, _, hr⟩ := hr
    cases hr; exact ⟨rfl, fun _ h => h⟩
  · rw [Out.bind_eq_ok] at hr
    obtain ⟨_, _, hr⟩ := hr
    cases hr; exact ⟨rfl, fun _ h => h⟩

theorem fieldParseMulti_name {h h2 : Hdr} {n : CStr} {argv : List CStr} {c : Nat}
    (hr : fieldParseMultiVarByte h n argv = .ok (h2, c)) :
    h2.name = h.name ∧ ∀ W, n ∈ W → NamedIn W h → NamedIn W h2 := by
  unfold fieldParseMultiVarByte at hr
  rw [Out.bind_eq_ok] at hr
  obtain ⟨r, _, hr⟩ := hr
  split at hr
  · split at hr
    · cases hr
      exact ⟨rfl, fun W hw h => h.upd hw _ (fun _ => rfl)⟩
    · cases hr; exact ⟨rfl, fun _ _ h => h⟩
  · split at hr
    · simp at hr
    · cases hr; exact ⟨rfl, fun _ _ h => h⟩
  · cases hr; exact ⟨rfl, fun _ _ h => h⟩

theorem runMultiParser_name {h h2 : Hdr} {f : Field} {argv : List CStr} {c : Nat}
    (hr : runMultiParser h f argv = .ok (h2, c)) :
    h2.name = h.name ∧ ∀ W, f.name ∈ W → NamedIn W h → NamedIn W h2 := by
  unfold runMultiParser at hr
  split at hr
  · cases hr; exact ⟨rfl, fun _ _ h => h⟩
  · unfold coapParseOptionValue at hr
    rw [Out.bind_eq_ok] at hr
    obtain ⟨⟨h1, res⟩, h3, hr⟩ := hr
    obtain ⟨e1, e2⟩ := fieldParseMulti_name h3
    simp only at hr
    split at hr
    · rw [Out.bind_eq_ok] at hr
      obtain ⟨g, _, hr⟩ := hr
      split at hr
      · simp at hr
      · split at hr
        · cases hr
          exact ⟨e1, fun W hw h => (e2 W hw h).upd hw _ (fun _ => rfl)⟩
        · cases hr; exact ⟨e1, e2⟩
    · cases hr; exact ⟨e1, e2⟩
  · unfold coapParseParms at hr
    rw [Out.bind_eq_ok] at hr
    obtain ⟨r, _, hr⟩ := hr
    split at hr
    · simp only at hr
      split at hr
      · cases hr
        exact ⟨rfl, fun W hw h => h.upd hw _ (fun _ => rfl)⟩
      · cases hr; exact ⟨rfl, fun _ _ h => h⟩
    · simp at hr

theorem parseFieldsLoop_named (W : List CStr) (fuel : Nat) : ∀ (h : Hdr) (m : Bool) (i : Nat) (argv : List CStr) (n : Nat)
    (h' : Hdr) (m' : Bool), (∀ w ∈ argv, w ∈ W) → NamedIn W h → parseFieldsLoop fuel h m i argv = .ok (some (n, h', m')) →
    h'.name = h.name ∧ NamedIn W h' ∧ (m' = true → m = true ∨ ∃ w ∈ W, isIgn w = true) := by
  induction fuel with
  | zero =>
    intro h m i argv n h' m' hW hn hr
    simp only [parseFieldsLoop, Out.ok.injEq, Option.some.injEq, Prod.mk.injEq] at hr
    obtain ⟨_, rfl, rfl⟩ := hr
    exact ⟨rfl, hn, Or.inl⟩
  | succ fuel ih =>
    intro h m i argv n h' m' hW hn hr
    unfold parseFieldsLoop at hr
    split at hr
    · simp only [Out.ok.injEq, Option.some.injEq, Prod.mk.injEq] at hr
      obtain ⟨_, rfl, rfl⟩ := hr
      exact ⟨rfl, hn, Or.inl⟩
    · rename_i w rest
      have hw := hW w (by simp)
      have hW1 : ∀ x ∈ rest, x ∈ W := fun x hx => hW x (by simp [hx])
      split at hr
      · simp at hr
      split at hr
      · rename_i hig
        obtain ⟨h1, h2, _⟩ := ih _ _ _ _ _ _ _ hW1 hn.map hr
        exact ⟨h1, h2, fun _ => Or.inr ⟨w, hw, hig.1⟩⟩
      split at hr
      · simp only [Out.ok.injEq, Option.some.injEq, Prod.mk.injEq] at hr
        obtain ⟨_, rfl, rfl⟩ := hr
        exact ⟨rfl, hn, Or.inl⟩
      · rename_i f hf
        simp only at hr
        have hs0 : NamedIn W (setVal h w none) := hn.upd hw _ (fun _ => rfl)
        split at hr
        · simp at hr
        · rename_i v rest'
          have hW2 : ∀ x ∈ rest', x ∈ W := fun x hx => hW1 x (by simp [hx])
          split at hr
          · rename_i hig
            obtain ⟨h1, h2, _⟩ := ih _ _ _ _ _ _ _ hW2 (hs0.upd hw (fun f => { f with rxSkip := true }) (fun _ => rfl)) hr
            exact ⟨h1, h2, fun _ => Or.inr ⟨v, hW1 v (by simp), hig⟩⟩
          split at hr
          · simp at hr
          split at hr
          · rw [Out.bind_eq_ok] at hr
            obtain ⟨⟨h2, cnt⟩, hr1, hr⟩ := hr
            obtain ⟨e1, e2⟩ := runMultiParser_name hr1
            simp only at hr
            split at hr
            · have hfn : f.name = w := (find_mem hf).2
              obtain ⟨h1, h2, h3⟩ := ih _ _ _ _ _ _ _ (fun x hx => hW1 x (List.mem_of_mem_drop hx))
                ((e2 W (by rw [hfn]; exact hw) hs0).upd hw (fun f => { f with rxSkip := false }) (fun _ => rfl)) hr
              exact ⟨by rw [h1]; exact e1, h2, h3⟩
            · simp at hr
          · rw [Out.bind_eq_ok] at hr
            obtain ⟨⟨h2, b⟩, hr1, hr⟩ := hr
            obtain ⟨e1, e2⟩ := runFieldParser_name hr1
            simp only at hr
            obtain ⟨h1, h2, h3⟩ := ih _ _ _ _ _ _ _ hW2 ((e2 W hs0).upd hw (fun f => { f with val := b, rxSkip := false }) (fun _ => rfl)) hr
            exact ⟨by rw [h1]; exact e1, h2, h3⟩

/-- Headers with a field parser. The only other header with a field is `data`. -/
theorem runHdrParser_named (W : List CStr) {t h : Hdr} (ht : t ∈ hdrTmpls) {pad pad' : Int} {m m' : Bool} {argv : List CStr}
    {n : Nat} (hW : ∀ w ∈ argv, w ∈ W) (hr : runHdrParser t pad m argv = .ok (some (n, h, pad', m'))) :
    h.name = t.name ∧ (t.parser = .fields → NamedIn W h) ∧ (m' = true → m = true ∨ ∃ w ∈ W, isIgn w = true) := by
  unfold runHdrParser at hr
  split at hr
  · rw [Out.bind_eq_ok] at hr
    obtain ⟨r, hr1, hr⟩ := hr
    cases r with
    | none => simp at hr
    | some x =>
      simp only [Out.ok.injEq, Option.some.injEq, Prod.mk.injEq] at hr
      obtain ⟨_, rfl, _, rfl⟩ := hr
      obtain ⟨h1, h2, h3⟩ := parseFieldsLoop_named W _ _ _ _ _ _ _ _ hW
        (fun f hf hv => absurd (tmpl_vals t ht f hf) hv) hr1
      exact ⟨h1, fun _ => h2, h3⟩
  · rename_i hp
    rw [Out.bind_eq_ok] at hr
    obtain ⟨r, hr1, hr⟩ := hr
    cases r with
    | none => simp at hr
    | some x =>
      simp only [Out.ok.injEq, Option.some.injEq, Prod.mk.injEq] at hr
      obtain ⟨_, rfl, _, rfl⟩ := hr
      refine ⟨?_, fun h => (by rw [hp] at h; cases h), Or.inl⟩
      unfold payloadParser at hr1
      rw [Out.bind_eq_ok] at hr1
      obtain ⟨r2, _, hr1⟩ := hr1
      split at hr1
      · simp at hr1
      · split at hr1
        · cases hr1; rfl
        · split at hr1
          · simp at hr1
          · cases hr1; rfl
  · rename_i hp
    rw [Out.bind_eq_ok] at hr
    obtain ⟨r, hr1, hr⟩ := hr
    cases r with
    | none => simp at hr
    | some x =>
      simp only [Out.ok.injEq, Option.some.injEq, Prod.mk.injEq] at hr
      obtain ⟨_, rfl, _, rfl⟩ := hr
      exact ⟨rfl, fun h => (by rw [hp] at h; cases h), Or.inl⟩

theorem argcFrameLoop_named (W : List CStr) (cap fuel : Nat) : ∀ (f : Frame) (i : Nat) (argv : List CStr) (n : Nat) (f' : Frame),
    (∀ w ∈ argv, w ∈ W) →
    (∀ x ∈ f.stack, x.name ∈ W ∧ (x.name ≠ c!"data" → x.name ≠ c!"padding" → NamedIn W x)) →
    (f.hasMask = true → ∃ w ∈ W, isIgn w = true) →
    argcFrameLoop cap fuel f i argv = .ok (some (n, f')) →
    (∀ x ∈ f'.stack, x.name ∈ W ∧ (x.name ≠ c!"data" → x.name ≠ c!"padding" → NamedIn W x)) ∧
    (f'.hasMask = true → ∃ w ∈ W, isIgn w = true) := by
  have kinds : ∀ t ∈ hdrTmpls, t.name ≠ c!"data" → t.name ≠ c!"padding" → t.parser = .fields := by decide +kernel
  induction fuel with
  | zero =>
    intro f i argv n f' _ h1 h2 hr
    simp only [argcFrameLoop, Out.ok.injEq, Option.some.injEq, Prod.mk.injEq] at hr
    obtain ⟨_, rfl⟩ := hr
    exact ⟨h1, h2⟩
  | succ fuel ih =>
    intro f i argv n f' hW h1 h2 hr
    unfold argcFrameLoop at hr
    split at hr
    · simp only [Out.ok.injEq, Option.some.injEq, Prod.mk.injEq] at hr
      obtain ⟨_, rfl⟩ := hr
      exact ⟨h1, h2⟩
    · rename_i w rest
      have hW1 : ∀ x ∈ rest, x ∈ W := fun x hx => hW x (by simp [hx])
      split at hr
      · simp at hr
      · cases e : findTmpl w with
        | none =>
          rw [e] at hr
          simp only [Out.ok.injEq, Option.some.injEq, Prod.mk.injEq] at hr
          obtain ⟨_, rfl⟩ := hr
          exact ⟨h1, h2⟩
        | some t =>
          have ht : t ∈ hdrTmpls := List.mem_of_find?_eq_some e
          have htw : t.name = w := by simpa using List.find?_some e
          rw [e] at hr
          simp only at hr
          rw [Out.bind_eq_ok] at hr
          obtain ⟨fp, _, hr⟩ := hr
          rw [Out.bind_eq_ok, hdrCopy_eq] at hr
          obtain ⟨r, hr1, hr⟩ := hr
          cases r with
          | none => simp at hr
          | some x =>
            obtain ⟨k, h, pad, m⟩ := x
            simp only at hr
            obtain ⟨e1, e2, e3⟩ := runHdrParser_named W ht hW1 hr1
            refine ih _ _ _ _ _ (fun x hx => hW1 x (List.mem_of_mem_drop hx)) ?_ ?_ hr
            · intro x hx
              rcases List.mem_append.mp hx with hx | hx
              · exact h1 x hx
              · simp only [List.mem_singleton] at hx
                subst hx
                refine ⟨by rw [e1, htw]; exact hW w (by simp), fun g1 g2 => ?_⟩
                rw [e1] at g1 g2
                exact e2 (kinds t ht g1 g2)
            · intro hm
              rcases e3 hm with h | h
              · exact h2 h
              · exact h

/-- The headers, the fields with values and the mask of a frame were named on the command line. -/
theorem argcFrame_named {argv : List CStr} {n : Nat} {f : Frame} (h : argcFrame argv = .ok (some (n, f))) :
    (∀ x ∈ f.stack, x.name ∈ argv ∧ (x.name ≠ c!"data" → x.name ≠ c!"padding" → ∀ k, given x k ≠ none → k ∈ argv)) ∧
    (f.hasMask = true → c!"ign" ∈ argv ∨ c!"ignore" ∈ argv) := by
  unfold argcFrame at h
  split at h
  · simp at h
  · obtain ⟨h1, h2⟩ := argcFrameLoop_named argv _ _ _ _ _ _ _ (fun _ h => h) (by simp) (by simp) h
    refine ⟨fun x hx => ⟨(h1 x hx).1, fun g1 g2 k hk => ?_⟩, fun hm => ?_⟩
    · have := (h1 x hx).2 g1 g2
      unfold given at hk
      cases e : x.fields.find? (fun f => f.name == k) with
      | none => rw [e] at hk; simp at hk
      | some fl =>
        rw [e] at hk
        have := this fl (List.mem_of_find?_eq_some e) (by simpa using hk)
        rwa [show fl.name = k from by simpa using List.find?_some e] at this
    · obtain ⟨w, hw, hi⟩ := h2 hm
      unfold isIgn at hi
      simp only [Bool.or_eq_true, decide_eq_true_eq] at hi
      rcases hi with rfl | rfl
      · exact Or.inl hw
      · exact Or.inr hw

end Ef
