import Verif.Lemmas.AssignFrame
import Verif.Props.Words

/-! # Fields whose name occurs earlier in the same header never get a value -/

namespace Ef

open Spec Props

/-- A field with the name of an earlier field has no value. -/
def Uns (fs : List Field) : Prop := fs.Pairwise (fun a b => a.name = b.name → b.val = none)

theorem Uns.upd {fs : List Field} (h : Uns fs) (n : CStr) {g : Field → Field} (hg : ∀ f, (g f).name = f.name) :
    Uns (updFirst (fun f => f.name == n) g fs) := by
  induction fs with
  | nil => exact h
  | cons x xs ih =>
    unfold updFirst
    obtain ⟨h1, h2⟩ := List.pairwise_cons.mp h
    split
    · refine List.pairwise_cons.mpr ⟨fun b hb => ?_, h2⟩
      rw [hg]
      exact h1 b hb
    · rename_i hx
      refine List.pairwise_cons.mpr ⟨fun b hb e => ?_, ih h2⟩
      have : ∀ (l : List Field), b ∈ updFirst (fun f => f.name == n) g l → b ∈ l ∨ b.name = n := by
        intro l
        induction l with
        | nil => intro hb; simp [updFirst] at hb
        | cons y ys ih =>
          intro hb
          unfold updFirst at hb
          split at hb
          · rename_i hy
            rcases List.mem_cons.mp hb with rfl | hb
            · exact Or.inr ((hg y).trans (by simpa using hy))
            · exact Or.inl (List.mem_cons_of_mem _ hb)
          · rcases List.mem_cons.mp hb with rfl | hb
            · exact Or.inl List.mem_cons_self
            · rcases ih hb with h | h
              · exact Or.inl (List.mem_cons_of_mem _ h)
              · exact Or.inr h
      rcases this xs hb with hb | hb
      · exact h1 b hb e
      · rw [hb] at e
        exact absurd e (by simpa using hx)

theorem Uns.updField {h : Hdr} (hu : Uns h.fields) (n : CStr) {g : Field → Field} (hg : ∀ f, (g f).name = f.name) :
    Uns (updField h n g).fields := hu.upd n hg

theorem Uns.map {fs : List Field} (h : Uns fs) {g : Field → Field} (hg : ∀ f, (g f).name = f.name ∧ (g f).val = f.val) :
    Uns (fs.map g) := by
  unfold Uns
  rw [List.pairwise_map]
  refine h.imp ?_
  intro a b hab
  rw [(hg a).1, (hg b).1, (hg b).2]
  exact hab

/-- Names and values determine the predicate. -/
theorem Uns.congr {fs fs' : List Field} (h : Uns fs) (e : fs'.map (fun f => (f.name, f.val)) = fs.map (fun f => (f.name, f.val))) :
    Uns fs' := by
  have key : ∀ l : List Field, Uns l ↔ (l.map (fun f => (f.name, f.val))).Pairwise (fun a b => a.1 = b.1 → b.2 = none) := by
    intro l; unfold Uns; rw [List.pairwise_map]
  rw [key, e, ← key]
  exact h

theorem relayout_nv (fs : List Field) (off : Nat) :
    (relayout fs off).1.map (fun f => (f.name, f.val)) = fs.map (fun f => (f.name, f.val)) := by
  induction fs generalizing off with
  | nil => rfl
  | cons f fs ih =>
    unfold relayout
    simp only [List.map_cons]
    rw [ih]

theorem modify_nv (fs : List Field) (k : Nat) (g : Field → Field) (hg : ∀ f, (g f).name = f.name ∧ (g f).val = f.val) :
    (fs.modify k g).map (fun f => (f.name, f.val)) = fs.map (fun f => (f.name, f.val)) := by
  apply List.ext_getElem?
  intro i
  simp only [List.getElem?_map, List.getElem?_modify]
  cases fs[i]? with
  | none => rfl
  | some f =>
    simp only [Option.map_some]
    split
    · simp [(hg f).1, (hg f).2]
    · rfl

theorem relayoutHdr_uns {h : Hdr} (k w : Nat) (hu : Uns h.fields) :
    Uns (relayoutHdr { h with fields := h.fields.modify k (fun f => { f with width := w }) }).fields := by
  refine hu.congr ?_
  unfold relayoutHdr
  simp only
  rw [relayout_nv]
  exact modify_nv _ _ _ (fun _ => ⟨rfl, rfl⟩)

theorem runFieldParser_uns {h h' : Hdr} {f : Field} {s : CStr} {b : Option Buf} (hu : Uns h.fields)
    (hr : runFieldParser h f s = .ok (h', b)) : Uns h'.fields := by
  unfold runFieldParser at hr
  split at hr
  · rw [Out.bind_eq_ok] at hr; obtain ⟨x, _, hr⟩ := hr
    simp only [Out.ok.injEq, Prod.mk.injEq] at hr; rw [← hr.1]; exact hu
  · simp only [Out.ok.injEq, Prod.mk.injEq] at hr; rw [← hr.1]; exact hu
  · unfold coapParseToken at hr
    rw [Out.bind_eq_ok] at hr; obtain ⟨x, _, hr⟩ := hr
    cases x with
    | none => simp only [Out.ok.injEq, Prod.mk.injEq] at hr; rw [← hr.1]; exact hu
    | some x =>
      simp only at hr
      split at hr
      · simp only [Out.ok.injEq, Prod.mk.injEq] at hr; rw [← hr.1]; exact hu
      · simp only [Out.ok.injEq, Prod.mk.injEq] at hr; rw [← hr.1]; exact relayoutHdr_uns _ _ hu
  · unfold profinetDataParser at hr
    rw [Out.bind_eq_ok] at hr; obtain ⟨x, _, hr⟩ := hr
    cases x with
    | none => simp only [Out.ok.injEq, Prod.mk.injEq] at hr; rw [← hr.1]; exact hu
    | some x => simp only [Out.ok.injEq, Prod.mk.injEq] at hr; rw [← hr.1]; exact relayoutHdr_uns _ _ hu
  · rw [Out.bind_eq_ok] at hr; obtain ⟨x, _, hr⟩ := hr
    simp only [Out.ok.injEq, Prod.mk.injEq] at hr; rw [← hr.1]; exact hu
  · rw [Out.bind_eq_ok] at hr; obtain ⟨x, _, hr⟩ := hr
    simp only [Out.ok.injEq, Prod.mk.injEq] at hr; rw [← hr.1]; exact hu

theorem multiVar_uns {h h' : Hdr} {n : CStr} {argv : List CStr} {k : Nat} (hu : Uns h.fields)
    (hr : fieldParseMultiVarByte h n argv = .ok (h', k)) : Uns h'.fields := by
  unfold fieldParseMultiVarByte at hr
  rw [Out.bind_eq_ok] at hr; obtain ⟨x, _, hr⟩ := hr
  split at hr
  · split at hr
    · simp only [Out.ok.injEq, Prod.mk.injEq] at hr; rw [← hr.1]; exact hu.updField n (fun _ => rfl)
    · simp only [Out.ok.injEq, Prod.mk.injEq] at hr; rw [← hr.1]; exact hu
  · split at hr
    · simp at hr
    · simp only [Out.ok.injEq, Prod.mk.injEq] at hr; rw [← hr.1]; exact hu
  · simp only [Out.ok.injEq, Prod.mk.injEq] at hr; rw [← hr.1]; exact hu

theorem runMultiParser_uns {h h' : Hdr} {f : Field} {argv : List CStr} {k : Nat} (hu : Uns h.fields)
    (hr : runMultiParser h f argv = .ok (h', k)) : Uns h'.fields := by
  unfold runMultiParser at hr
  split at hr
  · simp only [Out.ok.injEq, Prod.mk.injEq] at hr; rw [← hr.1]; exact hu
  · unfold coapParseOptionValue at hr
    rw [Out.bind_eq_ok] at hr; obtain ⟨⟨h1, res⟩, e, hr⟩ := hr
    have hu1 := multiVar_uns hu e
    simp only at hr
    split at hr
    · rw [Out.bind_eq_ok] at hr; obtain ⟨g, _, hr⟩ := hr
      split at hr
      · simp at hr
      · split at hr
        · simp only [Out.ok.injEq, Prod.mk.injEq] at hr; rw [← hr.1]; exact hu1.updField _ (fun _ => rfl)
        · simp only [Out.ok.injEq, Prod.mk.injEq] at hr; rw [← hr.1]; exact hu1
    · simp only [Out.ok.injEq, Prod.mk.injEq] at hr; rw [← hr.1]; exact hu1
  · unfold coapParseParms at hr
    rw [Out.bind_eq_ok] at hr; obtain ⟨x, _, hr⟩ := hr
    split at hr
    · split at hr
      · simp only [Out.ok.injEq, Prod.mk.injEq] at hr; rw [← hr.1]; exact hu.updField _ (fun _ => rfl)
      · simp only [Out.ok.injEq, Prod.mk.injEq] at hr; rw [← hr.1]; exact hu
    · simp at hr

theorem parseFieldsLoop_uns {fuel : Nat} {h h' : Hdr} {m m' : Bool} {i n : Nat} {argv : List CStr} (hu : Uns h.fields)
    (hr : parseFieldsLoop fuel h m i argv = .ok (some (n, h', m'))) : Uns h'.fields := by
  induction fuel generalizing h m i argv with
  | zero =>
    simp only [parseFieldsLoop, Out.ok.injEq, Option.some.injEq, Prod.mk.injEq] at hr
    rw [← hr.2.1]; exact hu
  | succ fuel ih =>
    unfold parseFieldsLoop at hr
    cases argv with
    | nil =>
      simp only [Out.ok.injEq, Option.some.injEq, Prod.mk.injEq] at hr
      rw [← hr.2.1]; exact hu
    | cons w rest =>
      simp only at hr
      split at hr
      · simp at hr
      split at hr
      · exact ih (h := skipAll h) (hu.map (fun _ => ⟨rfl, rfl⟩)) hr
      split at hr
      · simp only [Out.ok.injEq, Option.some.injEq, Prod.mk.injEq] at hr
        rw [← hr.2.1]; exact hu
      · have hu1 : Uns (setVal h w none).fields := hu.updField w (fun _ => rfl)
        cases rest with
        | nil => simp at hr
        | cons v rest =>
          simp only at hr
          split at hr
          · refine ih ?_ hr
            exact hu1.updField w (fun _ => rfl)
          split at hr
          · simp at hr
          split at hr
          · rw [Out.bind_eq_ok] at hr
            obtain ⟨⟨h1, cnt⟩, e, hr⟩ := hr
            simp only at hr
            split at hr
            · refine ih ?_ hr
              exact (runMultiParser_uns hu1 e).updField w (fun _ => rfl)
            · simp at hr
          · rw [Out.bind_eq_ok] at hr
            obtain ⟨⟨h1, b⟩, e, hr⟩ := hr
            simp only at hr
            refine ih ?_ hr
            exact (runFieldParser_uns hu1 e).updField w (fun _ => rfl)

theorem runHdrParser_uns {h h' : Hdr} {pad pad' : Int} {m m' : Bool} {argv : List CStr} {n : Nat} (hu : Uns h.fields)
    (hr : runHdrParser h pad m argv = .ok (some (n, h', pad', m'))) : Uns h'.fields := by
  unfold runHdrParser at hr
  split at hr
  · rw [Out.bind_eq_ok] at hr
    obtain ⟨r, hr1, hr⟩ := hr
    rcases r with _ | ⟨n', h1, m1⟩
    · simp at hr
    · simp only [Out.ok.injEq, Option.some.injEq, Prod.mk.injEq] at hr
      rw [← hr.2.1]; exact parseFieldsLoop_uns hu hr1
  · rw [Out.bind_eq_ok] at hr
    obtain ⟨r, hr1, hr⟩ := hr
    rcases r with _ | ⟨n', h1⟩
    · simp at hr
    · simp only [Out.ok.injEq, Option.some.injEq, Prod.mk.injEq] at hr
      rw [← hr.2.1]
      unfold payloadParser at hr1
      rw [Out.bind_eq_ok] at hr1
      obtain ⟨r2, _, hr1⟩ := hr1
      rcases r2 with _ | ⟨res, bo⟩
      · simp at hr1
      · simp only at hr1
        split at hr1
        · simp only [Out.ok.injEq, Option.some.injEq, Prod.mk.injEq] at hr1
          rw [← hr1.2]; exact hu
        · cases bo with
          | none => simp at hr1
          | some b =>
            simp only [Out.ok.injEq, Option.some.injEq, Prod.mk.injEq] at hr1
            rw [← hr1.2]
            simp only
            cases hf : h.fields with
            | nil => exact List.Pairwise.nil
            | cons x xs =>
              rw [hf] at hu
              simp only [List.modify_zero_cons]
              obtain ⟨h1, h2⟩ := List.pairwise_cons.mp hu
              exact List.pairwise_cons.mpr ⟨h1, h2⟩
  · rw [Out.bind_eq_ok] at hr
    obtain ⟨r, hr1, hr⟩ := hr
    rcases r with _ | p
    · simp at hr
    · simp only [Out.ok.injEq, Option.some.injEq, Prod.mk.injEq] at hr
      rw [← hr.2.1]; exact hu

/-- What is known of a header in a parsed frame: its template, with the same field names, and no value in a shadowed
field. -/
def Shaped (x : Hdr) : Prop := Uns x.fields ∧ ∃ t ∈ hdrTmpls, sig x = sig t ∧ x.name = t.name

theorem tmpl_uns {t : Hdr} (ht : t ∈ hdrTmpls) : Uns t.fields := by
  unfold Uns
  rw [List.pairwise_iff_forall_sublist]
  intro a b hs _
  exact tmpl_vals t ht b (hs.subset (by simp))

theorem updField_name (h : Hdr) (n : CStr) (g : Field → Field) : (updField h n g).name = h.name := rfl

theorem runFieldParser_sameName {h h' : Hdr} {f : Field} {s : CStr} {b : Option Buf}
    (hr : runFieldParser h f s = .ok (h', b)) : h'.name = h.name := by
  unfold runFieldParser at hr
  split at hr
  · rw [Out.bind_eq_ok] at hr; obtain ⟨x, _, hr⟩ := hr
    simp only [Out.ok.injEq, Prod.mk.injEq] at hr; rw [← hr.1]
  · simp only [Out.ok.injEq, Prod.mk.injEq] at hr; rw [← hr.1]
  · unfold coapParseToken at hr
    rw [Out.bind_eq_ok] at hr; obtain ⟨x, _, hr⟩ := hr
    cases x with
    | none => simp only [Out.ok.injEq, Prod.mk.injEq] at hr; rw [← hr.1]
    | some x =>
      simp only at hr
      split at hr
      · simp only [Out.ok.injEq, Prod.mk.injEq] at hr; rw [← hr.1]
      · simp only [Out.ok.injEq, Prod.mk.injEq] at hr; rw [← hr.1]; rfl
  · unfold profinetDataParser at hr
    rw [Out.bind_eq_ok] at hr; obtain ⟨x, _, hr⟩ := hr
    cases x with
    | none => simp only [Out.ok.injEq, Prod.mk.injEq] at hr; rw [← hr.1]
    | some x => simp only [Out.ok.injEq, Prod.mk.injEq] at hr; rw [← hr.1]; rfl
  · rw [Out.bind_eq_ok] at hr; obtain ⟨x, _, hr⟩ := hr
    simp only [Out.ok.injEq, Prod.mk.injEq] at hr; rw [← hr.1]
  · rw [Out.bind_eq_ok] at hr; obtain ⟨x, _, hr⟩ := hr
    simp only [Out.ok.injEq, Prod.mk.injEq] at hr; rw [← hr.1]

theorem multiVar_name {h h' : Hdr} {n : CStr} {argv : List CStr} {k : Nat}
    (hr : fieldParseMultiVarByte h n argv = .ok (h', k)) : h'.name = h.name := by
  unfold fieldParseMultiVarByte at hr
  rw [Out.bind_eq_ok] at hr; obtain ⟨x, _, hr⟩ := hr
  split at hr
  · split at hr
    · simp only [Out.ok.injEq, Prod.mk.injEq] at hr; rw [← hr.1]; rfl
    · simp only [Out.ok.injEq, Prod.mk.injEq] at hr; rw [← hr.1]
  · split at hr
    · simp at hr
    · simp only [Out.ok.injEq, Prod.mk.injEq] at hr; rw [← hr.1]
  · simp only [Out.ok.injEq, Prod.mk.injEq] at hr; rw [← hr.1]

theorem runMultiParser_sameName {h h' : Hdr} {f : Field} {argv : List CStr} {k : Nat}
    (hr : runMultiParser h f argv = .ok (h', k)) : h'.name = h.name := by
  unfold runMultiParser at hr
  split at hr
  · simp only [Out.ok.injEq, Prod.mk.injEq] at hr; rw [← hr.1]
  · unfold coapParseOptionValue at hr
    rw [Out.bind_eq_ok] at hr; obtain ⟨⟨h1, res⟩, e, hr⟩ := hr
    have hu1 := multiVar_name e
    simp only at hr
    split at hr
    · rw [Out.bind_eq_ok] at hr; obtain ⟨g, _, hr⟩ := hr
      split at hr
      · simp at hr
      · split at hr
        · simp only [Out.ok.injEq, Prod.mk.injEq] at hr; rw [← hr.1]; exact hu1
        · simp only [Out.ok.injEq, Prod.mk.injEq] at hr; rw [← hr.1]; exact hu1
    · simp only [Out.ok.injEq, Prod.mk.injEq] at hr; rw [← hr.1]; exact hu1
  · unfold coapParseParms at hr
    rw [Out.bind_eq_ok] at hr; obtain ⟨x, _, hr⟩ := hr
    split at hr
    · split at hr
      · simp only [Out.ok.injEq, Prod.mk.injEq] at hr; rw [← hr.1]; rfl
      · simp only [Out.ok.injEq, Prod.mk.injEq] at hr; rw [← hr.1]
    · simp at hr

theorem parseFieldsLoop_name {fuel : Nat} {h h' : Hdr} {m m' : Bool} {i n : Nat} {argv : List CStr}
    (hr : parseFieldsLoop fuel h m i argv = .ok (some (n, h', m'))) : h'.name = h.name := by
  induction fuel generalizing h m i argv with
  | zero =>
    simp only [parseFieldsLoop, Out.ok.injEq, Option.some.injEq, Prod.mk.injEq] at hr
    rw [← hr.2.1]
  | succ fuel ih =>
    unfold parseFieldsLoop at hr
    cases argv with
    | nil =>
      simp only [Out.ok.injEq, Option.some.injEq, Prod.mk.injEq] at hr
      rw [← hr.2.1]
    | cons w rest =>
      simp only at hr
      split at hr
      · simp at hr
      split at hr
      · have := ih hr
        exact this
      split at hr
      · simp only [Out.ok.injEq, Option.some.injEq, Prod.mk.injEq] at hr
        rw [← hr.2.1]
      · cases rest with
        | nil => simp at hr
        | cons v rest =>
          simp only at hr
          split at hr
          · have := ih hr
            exact this
          split at hr
          · simp at hr
          split at hr
          · rw [Out.bind_eq_ok] at hr
            obtain ⟨⟨h1, cnt⟩, e, hr⟩ := hr
            simp only at hr
            split at hr
            · have h2 := ih hr
              have h3 := runMultiParser_sameName e
              exact h2.trans h3
            · simp at hr
          · rw [Out.bind_eq_ok] at hr
            obtain ⟨⟨h1, b⟩, e, hr⟩ := hr
            simp only at hr
            have h2 := ih hr
            have h3 := runFieldParser_sameName e
            exact h2.trans h3

theorem runHdrParser_name {h h' : Hdr} {pad pad' : Int} {m m' : Bool} {argv : List CStr} {n : Nat}
    (hr : runHdrParser h pad m argv = .ok (some (n, h', pad', m'))) : h'.name = h.name := by
  unfold runHdrParser at hr
  split at hr
  · rw [Out.bind_eq_ok] at hr
    obtain ⟨r, hr1, hr⟩ := hr
    rcases r with _ | ⟨n', h1, m1⟩
    · simp at hr
    · simp only [Out.ok.injEq, Option.some.injEq, Prod.mk.injEq] at hr
      rw [← hr.2.1]; exact parseFieldsLoop_name hr1
  · rw [Out.bind_eq_ok] at hr
    obtain ⟨r, hr1, hr⟩ := hr
    rcases r with _ | ⟨n', h1⟩
    · simp at hr
    · simp only [Out.ok.injEq, Option.some.injEq, Prod.mk.injEq] at hr
      rw [← hr.2.1]
      unfold payloadParser at hr1
      rw [Out.bind_eq_ok] at hr1
      obtain ⟨r2, _, hr1⟩ := hr1
      rcases r2 with _ | ⟨res, bo⟩
      · simp at hr1
      · simp only at hr1
        split at hr1
        · simp only [Out.ok.injEq, Option.some.injEq, Prod.mk.injEq] at hr1
          rw [← hr1.2]
        · cases bo with
          | none => simp at hr1
          | some b =>
            simp only [Out.ok.injEq, Option.some.injEq, Prod.mk.injEq] at hr1
            rw [← hr1.2]
  · rw [Out.bind_eq_ok] at hr
    obtain ⟨r, hr1, hr⟩ := hr
    rcases r with _ | p
    · simp at hr
    · simp only [Out.ok.injEq, Option.some.injEq, Prod.mk.injEq] at hr
      rw [← hr.2.1]

theorem argcFrameLoop_shaped {cap fuel : Nat} {f g : Frame} {i n : Nat} {argv : List CStr} (hf : ∀ x ∈ f.stack, Shaped x)
    (hr : argcFrameLoop cap fuel f i argv = .ok (some (n, g))) : ∀ x ∈ g.stack, Shaped x := by
  induction fuel generalizing f i argv with
  | zero =>
    simp only [argcFrameLoop, Out.ok.injEq, Option.some.injEq, Prod.mk.injEq] at hr
    rw [← hr.2]; exact hf
  | succ fuel ih =>
    cases argv with
    | nil =>
      rw [afl_nil] at hr
      simp only [Out.ok.injEq, Option.some.injEq, Prod.mk.injEq] at hr
      rw [← hr.2]; exact hf
    | cons w rest =>
      rw [afl_step] at hr
      split at hr
      · simp at hr
      split at hr
      · simp only [Out.ok.injEq, Option.some.injEq, Prod.mk.injEq] at hr
        rw [← hr.2]; exact hf
      · rename_i t ht
        have htm : t ∈ hdrTmpls := List.mem_of_find?_eq_some ht
        rw [Out.bind_eq_ok] at hr; obtain ⟨_, _, hr⟩ := hr
        rw [Out.bind_eq_ok] at hr; obtain ⟨o, h1, hr⟩ := hr
        rcases o with _ | ⟨k, x, pad, m⟩
        · simp at hr
        · simp only at hr
          refine ih (f := ⟨f.stack ++ [x], pad, m⟩) ?_ hr
          intro y hy
          rcases List.mem_append.mp hy with hy | hy
          · exact hf y hy
          · rw [List.mem_singleton.mp hy]
            exact ⟨runHdrParser_uns (tmpl_uns htm) h1, t, htm, (runHdrParser_mono h1).2, runHdrParser_name h1⟩

theorem argcFrame_shaped {argv : List CStr} {n : Nat} {f : Frame} (h : argcFrame argv = .ok (some (n, f))) :
    ∀ x ∈ f.stack, Shaped x := by
  unfold argcFrame at h
  split at h
  · simp at h
  · exact argcFrameLoop_shaped (by simp) h

end Ef
