import Verif.Model.Args
import Verif.Spec.Layout
import Verif.Spec.Frame

/-!
# Property C14: layout of all headers
-/

namespace Ef.Props

open Ef Spec

/-- Everything C14 needs, in decidable form, for a header before and after start-up. The three headers without any
fixed bits (`data`, `coap-parms`: one byte reserved; `padding`: no bytes) are the only ones not filled by fields. -/
def layoutOk (raw h : Hdr) : Bool :=
  raw.name == h.name && raw.fields.map (·.name) == h.fields.map (·.name) &&
  raw.fields.map (·.width) == h.fields.map (·.width) &&
  decide (Adjacent (plainFields raw.fields h.fields) 0 (8 * h.size) ∨
    (Adjacent (plainFields raw.fields h.fields) 0 0 ∧ (h.name = c!"data" ∨ h.name = c!"coap-parms" ∨ h.name = c!"padding"))) &&
  (overlayFields raw.fields h.fields).all (fun p => p.2.offset == p.1.offset && decide (p.2.offset + p.2.width ≤ 8 * h.size)) &&
  !defOffsetError raw

theorem layout_table : (hdrTmplsRaw.zip hdrTmpls).all (fun p => layoutOk p.1 p.2) = true := by decide +kernel

theorem adjacent_le : ∀ (fs : List Field) (a b : Nat), Adjacent fs a b → a ≤ b := by
  intro fs
  induction fs with
  | nil => intro a b h; exact Nat.le_of_eq h
  | cons f fs ih => intro a b h; have := ih _ _ h.2; omega

theorem adjacent_mem : ∀ (fs : List Field) (a b : Nat), Adjacent fs a b → ∀ f ∈ fs, a ≤ f.offset ∧ f.offset + f.width ≤ b := by
  intro fs
  induction fs with
  | nil => intro a b _ f hf; simp at hf
  | cons g fs ih =>
    intro a b h f hf
    have h2 := adjacent_le _ _ _ h.2
    rcases List.mem_cons.mp hf with rfl | hf
    · have := h.1; omega
    · have := ih _ _ h.2 f hf; omega

theorem adjacent_pairwise : ∀ (fs : List Field) (a b : Nat), Adjacent fs a b →
    fs.Pairwise (fun f g => f.offset + f.width ≤ g.offset) := by
  intro fs
  induction fs with
  | nil => intro a b _; exact List.Pairwise.nil
  | cons f fs ih =>
    intro a b h
    refine List.Pairwise.cons (fun g hg => ?_) (ih _ _ h.2)
    have := (adjacent_mem _ _ _ h.2 g hg).1
    have := h.1
    omega

theorem adjacent_covers : ∀ (fs : List Field) (a b : Nat), Adjacent fs a b → ∀ i, a ≤ i → i < b → ∃ f ∈ fs, covers f i := by
  intro fs
  induction fs with
  | nil => intro a b h i h1 h2; have : a = b := h; omega
  | cons f fs ih =>
    intro a b h i h1 h2
    by_cases hi : i < a + f.width
    · exact ⟨f, List.mem_cons_self .., by unfold covers; have := h.1; omega⟩
    · obtain ⟨g, hg, hc⟩ := ih _ _ h.2 i (by omega) h2
      exact ⟨g, List.mem_cons_of_mem _ hg, hc⟩

/-- **C14.** For each of the 55 headers: start-up keeps names, number and widths of the fields and reports no layout
error; the fields without explicit position are in increasing order without overlap, lie inside the header and
(unless the header has no fixed bits at all: `data`, `coap-parms`, `padding`) cover every bit of it; each overlay
field is at the position written in the source, inside the header. -/
theorem C14_layouts (raw h : Hdr) (hm : (raw, h) ∈ hdrTmplsRaw.zip hdrTmpls) :
    raw.name = h.name ∧ raw.fields.map (·.name) = h.fields.map (·.name) ∧
    raw.fields.map (·.width) = h.fields.map (·.width) ∧ defOffsetError raw = false ∧
    (plainFields raw.fields h.fields).Pairwise (fun f g => f.offset + f.width ≤ g.offset) ∧
    (∀ f ∈ plainFields raw.fields h.fields, f.offset + f.width ≤ 8 * h.size) ∧
    (h.name ≠ c!"data" → h.name ≠ c!"coap-parms" → h.name ≠ c!"padding" →
      ∀ i, i < 8 * h.size → ∃ f ∈ plainFields raw.fields h.fields, covers f i) ∧
    (∀ p ∈ overlayFields raw.fields h.fields, p.2.offset = p.1.offset ∧ p.2.offset + p.2.width ≤ 8 * h.size) := by
  have := List.all_eq_true.mp layout_table _ hm
  unfold layoutOk at this
  simp only [Bool.and_eq_true, beq_iff_eq, decide_eq_true_eq, Bool.not_eq_true', List.all_eq_true] at this
  obtain ⟨⟨⟨⟨⟨h1, h2⟩, h3⟩, h4⟩, h5⟩, h6⟩ := this
  refine ⟨h1, h2, h3, h6, ?_, ?_, ?_, h5⟩
  · rcases h4 with h4 | ⟨h4, _⟩ <;> exact adjacent_pairwise _ _ _ h4
  · intro f hf
    rcases h4 with h4 | ⟨h4, _⟩
    · exact (adjacent_mem _ _ _ h4 f hf).2
    · have := (adjacent_mem _ _ _ h4 f hf).2; omega
  · intro n1 n2 n3 i hi
    rcases h4 with h4 | ⟨_, h4⟩
    · exact adjacent_covers _ _ _ h4 i (Nat.zero_le _) hi
    · rcases h4 with h4 | h4 | h4 <;> contradiction

/-- The table has 55 entries with distinct names; each is the template found by its name. -/
theorem C14_table : hdrTmpls.length = 55 ∧ hdrTmplsRaw.length = 55 ∧ (hdrTmpls.map (·.name)).Nodup ∧
    ∀ h ∈ hdrTmpls, findTmpl h.name = some h := by
  refine ⟨by decide +kernel, by decide +kernel, by decide +kernel, ?_⟩
  have : hdrTmpls.all (fun h => decide (findTmpl h.name = some h)) = true := by decide +kernel
  intro h hh
  simpa using List.all_eq_true.mp this h hh

/-- A header with two overlay fields is among them. -/
example : (HDR_IFH_OC1_raw, HDR_IFH_OC1) ∈ hdrTmplsRaw.zip hdrTmpls ∧
    (overlayFields HDR_IFH_OC1_raw.fields HDR_IFH_OC1.fields).length = 2 ∧
    (plainFields HDR_IFH_OC1_raw.fields HDR_IFH_OC1.fields).length ≥ 15 := by decide +kernel

end Ef.Props
