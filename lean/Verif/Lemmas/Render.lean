import Verif.Model.Fill
import Verif.Lemmas.Bits
import Verif.Spec.Frame

/-! # Rendering of headers: `hdr_copy_to_buf` equals the specification -/

namespace Ef

open Spec

theorem byte_of_bits : ∀ b : BitVec 8, ∀ j < 8,
    (BitVec.ofNat 8 (bitsNat [b.getLsbD 7, b.getLsbD 6, b.getLsbD 5, b.getLsbD 4, b.getLsbD 3, b.getLsbD 2,
      b.getLsbD 1, b.getLsbD 0])).getLsbD (7 - j) = b.getLsbD (7 - j) := by decide +kernel

theorem packBits_length (n : Nat) (g : Nat → Bool) : (packBits n g).length = n := by simp [packBits]

theorem bits8 : ∀ b7 b6 b5 b4 b3 b2 b1 b0 : Bool, ∀ j : Fin 8,
    (BitVec.ofNat 8 (bitsNat [b7, b6, b5, b4, b3, b2, b1, b0])).getLsbD (7 - j.val) =
      [b7, b6, b5, b4, b3, b2, b1, b0][j] := by decide +kernel

theorem bit_packBits (n : Nat) (g : Nat → Bool) (i : Nat) :
    bit (packBits n g) i = if i < 8 * n then g i else false := by
  by_cases h : i < 8 * n
  · rw [if_pos h, bit_of_lt _ _ (by rw [packBits_length]; exact h)]
    simp only [packBits, List.getElem_map, List.getElem_range]
    have e : (List.range 8).map (fun j => g (8 * (i / 8) + j)) =
        [g (8 * (i / 8) + 0), g (8 * (i / 8) + 1), g (8 * (i / 8) + 2), g (8 * (i / 8) + 3),
         g (8 * (i / 8) + 4), g (8 * (i / 8) + 5), g (8 * (i / 8) + 6), g (8 * (i / 8) + 7)] := rfl
    rw [e, bits8 _ _ _ _ _ _ _ _ ⟨i % 8, by omega⟩]
    have e2 : ∀ j : Fin 8, [g (8 * (i / 8) + 0), g (8 * (i / 8) + 1), g (8 * (i / 8) + 2), g (8 * (i / 8) + 3),
         g (8 * (i / 8) + 4), g (8 * (i / 8) + 5), g (8 * (i / 8) + 6), g (8 * (i / 8) + 7)][j] =
         g (8 * (i / 8) + j.val) := by
      intro j
      match j with
      | 0 => rfl
      | 1 => rfl
      | 2 => rfl
      | 3 => rfl
      | 4 => rfl
      | 5 => rfl
      | 6 => rfl
      | 7 => rfl
    rw [e2]
    congr 1
    simp only
    omega
  · rw [if_neg h, bit_of_ge _ _ (by rw [packBits_length]; omega)]

/-- Fold form of the overlay rule, as the code computes it. -/
def overlay (mask : Bool) (fs : List Field) (acc : Bool) (i : Nat) : Bool :=
  fs.foldl (fun a f => match copyValue mask f with
    | some v => if covers f i then valueBit f v i else a
    | none => a) acc

/-- What the code needs of a field when writing it (or its mask) into a header of `size` bytes. -/
def FieldFits (mask : Bool) (size : Nat) (f : Field) : Prop :=
  bitToByte f.width ≤ size ∧ ∀ v, copyValue mask f = some v → Inside size f v

theorem overlay_outside (mask : Bool) (size : Nat) (fs : List Field) (acc : Bool) (i : Nat)
    (hf : ∀ f ∈ fs, FieldFits mask size f) (hi : 8 * size ≤ i) : overlay mask fs acc i = acc := by
  induction fs generalizing acc with
  | nil => rfl
  | cons f fs ih =>
    have hff := hf f (by simp)
    unfold overlay
    rw [List.foldl_cons]
    have : (match copyValue mask f with
        | some v => if covers f i then valueBit f v i else acc
        | none => acc) = acc := by
      cases hc : copyValue mask f with
      | none => rfl
      | some v =>
        have := (hff.2 v hc).1
        exact if_neg (by unfold covers; omega)
    rw [this]
    exact ih acc (fun g hg => hf g (by simp [hg]))

theorem copyFields_ok (mask : Bool) (size offset : Nat) (fs : List Field) :
    ∀ b : Buf, (∀ f ∈ fs, FieldFits mask size f) → offset + size ≤ b.length →
      ∃ b', copyFields mask offset fs b = .ok b' ∧ b'.length = b.length ∧
        ∀ i, bit b' i = if 8 * offset ≤ i then overlay mask fs (bit b i) (i - 8 * offset) else bit b i := by
  induction fs with
  | nil =>
    intro b _ _
    refine ⟨b, rfl, rfl, fun i => ?_⟩
    simp [overlay]
  | cons f fs ih =>
    intro b hf hl
    have hff := hf f (by simp)
    have hfs : ∀ g ∈ fs, FieldFits mask size g := fun g hg => hf g (by simp [hg])
    unfold copyFields
    rw [if_neg (by have := hff.1; omega)]
    cases hc : copyValue mask f with
    | none =>
      obtain ⟨b', e, l, g⟩ := ih b hfs hl
      refine ⟨b', e, l, fun i => ?_⟩
      rw [g i]
      simp only [overlay, List.foldl_cons, hc]
    | some v =>
      obtain ⟨h1, h2, h3⟩ := hff.2 v hc
      obtain ⟨b1, e1, l1, g1⟩ := writeField_ok b offset f v (by omega) h2 h3
      obtain ⟨b', e, l, g⟩ := ih b1 hfs (by omega)
      refine ⟨b', by simp only [e1, Out.ok_bind, e], by omega, fun i => ?_⟩
      rw [g i]
      by_cases hi : 8 * offset ≤ i
      · rw [if_pos hi, if_pos hi]
        simp only [overlay, List.foldl_cons, hc]
        congr 1
        rw [g1 i]
        by_cases hcv : covers f (i - 8 * offset)
        · rw [if_pos hcv]
          unfold covers at hcv
          rw [if_pos (by omega)]
          unfold valueBit
          congr 1; omega
        · rw [if_neg hcv]
          unfold covers at hcv
          rw [if_neg (by omega)]
      · rw [if_neg hi, if_neg hi, g1 i, if_neg (by omega)]

/-- What the code needs of a header. -/
def Fits (mask : Bool) (h : Hdr) : Prop :=
  (h.size = 0 ∧ ∀ f ∈ h.fields, f.width = 0 ∧ f.offset = 0) ∨ ∀ f ∈ h.fields, FieldFits mask h.size f

/-- The bytes of a header as the code computes them. -/
def render (mask : Bool) (h : Hdr) : Buf := packBits h.size (overlay mask h.fields false)

theorem render_length (mask : Bool) (h : Hdr) : (render mask h).length = h.size := packBits_length _ _

theorem copyFields_empty (mask : Bool) (offset : Nat) (fs : List Field) (b : Buf)
    (_hb : offset ≤ b.length) (hf : ∀ f ∈ fs, f.width = 0 ∧ f.offset = 0) :
    copyFields mask offset fs b = .ok b := by
  induction fs with
  | nil => rfl
  | cons f fs ih =>
    unfold copyFields
    split
    · rfl
    · have hfs := ih (fun g hg => hf g (by simp [hg]))
      obtain ⟨hw, ho⟩ := hf f (by simp)
      cases hc : copyValue mask f with
      | none => exact hfs
      | some v =>
        have : writeField b offset f v = .ok b := by
          unfold writeField
          rw [if_pos (by omega), hw]
          rfl
        simp only [this, Out.ok_bind, hfs]

theorem copyHdr_ok (mask : Bool) (h : Hdr) (pre post : Buf) (hf : Fits mask h) :
    copyHdr mask h pre.length (pre ++ (zeros h.size ++ post)) = .ok (pre ++ (render mask h ++ post)) := by
  unfold copyHdr
  rcases hf with ⟨hs, hf⟩ | hf
  · rw [copyFields_empty mask _ _ _ (by simp) hf]
    have e1 : zeros h.size = [] := by simp [zeros, hs]
    have e2 : render mask h = [] := List.eq_nil_of_length_eq_zero (by rw [render_length, hs])
    rw [e1, e2]
  · have hl : pre.length + h.size ≤ (pre ++ (zeros h.size ++ post)).length := by simp [zeros]
    obtain ⟨b', e, l, g⟩ := copyFields_ok mask h.size pre.length h.fields _ hf hl
    rw [e]
    congr 1
    apply buf_ext
    · rw [l]; simp [render_length, zeros]
    · intro i _
      rw [g i]
      have hz : (zeros h.size).length = h.size := by simp [zeros]
      by_cases hi : 8 * pre.length ≤ i
      · rw [if_pos hi, bit_append pre, if_neg (by omega), bit_append pre, if_neg (by omega), bit_append (zeros _),
          bit_append (render _ _), render_length, hz]
        by_cases hj : i - 8 * pre.length < 8 * h.size
        · rw [if_pos hj, if_pos hj, bit_zeros, render, bit_packBits, if_pos hj]
        · rw [if_neg hj, if_neg hj, overlay_outside mask h.size _ _ _ hf (by omega)]
      · rw [if_neg hi, bit_append pre, if_pos (by omega), bit_append pre, if_pos (by omega)]

theorem sumSizes_append (a b : List Hdr) : sumSizes (a ++ b) = sumSizes a + sumSizes b := by
  induction a with
  | nil => simp [sumSizes]
  | cons h a ih => simp [sumSizes, ih]; omega

theorem zeros_append (a b : Nat) : zeros (a + b) = zeros a ++ zeros b := by
  simp [zeros, List.replicate_append_replicate]

theorem copyHdrs_ok (mask : Bool) (hs : List Hdr) : ∀ (pre post : Buf), (∀ h ∈ hs, Fits mask h) →
    copyHdrs mask hs pre.length (pre ++ (zeros (sumSizes hs) ++ post)) =
      .ok (pre ++ ((hs.map (render mask)).flatten ++ post)) := by
  induction hs with
  | nil => intro pre post _; simp [copyHdrs, sumSizes, zeros]
  | cons h hs ih =>
    intro pre post hf
    unfold copyHdrs
    rw [sumSizes, zeros_append, List.append_assoc, copyHdr_ok mask h pre _ (hf h (by simp))]
    rw [Out.ok_bind]
    have := ih (pre ++ render mask h) post (fun g hg => hf g (by simp [hg]))
    rw [List.length_append, render_length, List.append_assoc] at this
    rw [this]
    simp [List.append_assoc]

/-- The bytes of a list of headers. -/
def renderAll (mask : Bool) (hs : List Hdr) : Buf := (hs.map (render mask)).flatten

theorem renderAll_length (mask : Bool) (hs : List Hdr) : (renderAll mask hs).length = sumSizes hs := by
  induction hs with
  | nil => rfl
  | cons h hs ih =>
    simp only [renderAll, List.map_cons, List.flatten_cons, List.length_append, render_length, sumSizes]
    simp only [renderAll] at ih
    omega

theorem copyHdrs_zeros (mask : Bool) (hs : List Hdr) (hf : ∀ h ∈ hs, Fits mask h) :
    copyHdrs mask hs 0 (balloc (sumSizes hs)) = .ok (renderAll mask hs) := by
  have := copyHdrs_ok mask hs [] [] hf
  simpa [balloc, zeros, renderAll] using this

/-! ## The code's rendering is the specified one -/

theorem overlay_wireBit (fs : List Field) (i : Nat) : overlay false fs false i = wireBit fs i := by
  have key : ∀ (fs : List Field) (acc : Bool), overlay false fs acc i =
      match fs.reverse.find? (fun f => decide (covers f i) && (fieldValue f).isSome) with
      | some f => valueBit f ((fieldValue f).getD []) i
      | none => acc := by
    intro fs
    induction fs with
    | nil => intro acc; rfl
    | cons f fs ih =>
      intro acc
      have hstep : overlay false (f :: fs) acc i = overlay false fs (match copyValue false f with
        | some v => if covers f i then valueBit f v i else acc
        | none => acc) i := by simp only [overlay, List.foldl_cons]
      rw [hstep, ih, List.reverse_cons, List.find?_append]
      cases hfind : List.find? (fun f => decide (covers f i) && (fieldValue f).isSome) fs.reverse with
      | some g => simp
      | none =>
        simp only [Option.none_or]
        have hv : copyValue false f = fieldValue f := by
          unfold copyValue fieldValue; cases f.val <;> rfl
        rw [hv]
        cases hfv : fieldValue f with
        | none => simp [hfv]
        | some v =>
          by_cases hc : covers f i
          · simp [hfv, hc]
          · simp [hfv, hc]
  have := key fs false
  rw [this]
  rfl

theorem overlay_maskBit (fs : List Field) (i : Nat) :
    overlay true fs false i = maskBit fs i := by
  have key : ∀ (fs : List Field) (acc : Bool), overlay true fs acc i = (acc || maskBit fs i) := by
    intro fs
    induction fs with
    | nil => intro acc; simp [overlay, maskBit]
    | cons f fs ih =>
      intro acc
      have hstep : overlay true (f :: fs) acc i = overlay true fs (match copyValue true f with
        | some v => if covers f i then valueBit f v i else acc
        | none => acc) i := by simp only [overlay, List.foldl_cons]
      rw [hstep, ih]
      have hm : maskBit (f :: fs) i = ((!f.rxSkip && decide (covers f i)) || maskBit fs i) := by
        simp [maskBit]
      rw [hm, ← Bool.or_assoc]
      congr 1
      unfold copyValue
      rw [if_pos rfl]
      cases hs : f.rxSkip with
      | true => simp
      | false =>
        simp only [Bool.false_eq_true, if_false]
        by_cases hc : covers f i
        · rw [if_pos hc]
          unfold valueBit
          rw [bit_ones]
          unfold covers at hc
          have : f.width ≤ 8 * bitToByte f.width := by unfold bitToByte; omega
          simp only [List.length_replicate, Bool.not_false, Bool.true_and]
          have h1 : decide (8 * bitToByte f.width - f.width + (i - f.offset) < 8 * bitToByte f.width) = true := by
            rw [decide_eq_true_eq]; omega
          have h2 : decide (covers f i) = true := by rw [decide_eq_true_eq]; exact hc
          rw [h1, h2, Bool.or_true]
        · rw [if_neg hc]
          simp [hc]
  have := key fs false
  simpa using this

theorem render_wire (h : Hdr) : render false h = hdrBytes h := by
  unfold render hdrBytes
  congr 1
  funext i
  exact overlay_wireBit h.fields i

theorem render_mask (h : Hdr) : render true h = hdrMask h := by
  unfold render hdrMask
  congr 1
  funext i
  exact overlay_maskBit h.fields i

theorem _root_.Ef.Spec.HdrFits.fits {h : Hdr} (hf : HdrFits h) : Fits false h := by
  rcases hf with hf | ⟨hs, hf⟩
  · exact Or.inl hf
  · refine Or.inr (fun f hm => ⟨?_, fun v hv => ?_⟩)
    · have := (hf f hm).1
      unfold bitToByte; omega
    · apply (hf f hm).2 v
      rw [← hv]; unfold copyValue fieldValue; cases f.val <;> rfl

theorem _root_.Ef.Spec.HdrFitsMask.fits {h : Hdr} (hf : HdrFitsMask h) : Fits true h := by
  rcases hf with hf | ⟨hs, hf⟩
  · exact Or.inl hf
  · refine Or.inr (fun f hm => ⟨?_, fun v hv => ?_⟩)
    · have := (hf f hm).1
      unfold bitToByte; omega
    · obtain ⟨h1, h2, h3⟩ := hf f hm
      simp only [copyValue, if_true] at hv
      cases hr : f.rxSkip with
      | true => simp [hr] at hv
      | false =>
        simp [hr] at hv
        subst hv
        refine ⟨h2 hr, ?_, ?_⟩
        · simp only [List.length_replicate]; unfold bitToByte; omega
        · simp only [List.length_replicate]; unfold bitToByte; omega

theorem totalSize_eq (hs : List Hdr) : totalSize hs = sumSizes hs := by
  induction hs with
  | nil => rfl
  | cons h hs ih => simp [totalSize, sumSizes] at *; omega

end Ef
