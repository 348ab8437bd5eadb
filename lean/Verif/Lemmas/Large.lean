import Verif.Model.Large
import Verif.Lemmas.MaskExact

/-! # Frames whose numbers fit -/

namespace Ef

open Spec

theorem toI32_small {n : Nat} (h : n < 2 ^ 31) : toI32 n = n := by
  unfold toI32 Int.bmod
  simp only
  split <;> omega

theorem isI32_iff {x : Int} : isI32 x = true ↔ -(2 ^ 31) ≤ x ∧ x < 2 ^ 31 := by
  unfold isI32
  simp only [Bool.and_eq_true, decide_eq_true_eq]

theorem not_isI32 {x : Int} (h : -(2 ^ 31) ≤ x ∧ x < 2 ^ 31) : ¬ (!isI32 x) = true := by
  rw [isI32_iff.mpr h]
  simp

theorem toSize_small {n : Nat} (h : n < 2 ^ 64) : toSize n = n := by
  unfold toSize
  omega

theorem bitToByteI_nat (n : Nat) : bitToByteI n = bitToByte n := by
  unfold bitToByteI bitToByte
  cases n with
  | zero => decide
  | succ n =>
    have : ((n + 1 : Nat) : Int) - 1 = (n : Int) := by omega
    rw [this, Int.tdiv_eq_ediv_of_nonneg (by omega)]
    omega

theorem thenI_ok {α β : Type} (a : α) (k : α → Option (Out β)) : thenI (some (.ok a)) k = k a := (rfl)

theorem writeFieldI_eq {b b' : Buf} {offset : Nat} {f : Field} {v : Buf} (hb : b.length < 2 ^ 28)
    (h : writeField b offset f v = .ok b') :
    writeFieldI b offset (toI32 f.width) (toI32 f.offset) v = some (.ok b') := by
  unfold writeField at h
  split at h
  · rename_i hc
    unfold writeFieldI
    rw [toI32_small (n := offset) (by omega), toI32_small (n := f.width) (by omega), toI32_small (n := f.offset) (by omega)]
    simp only
    rw [if_neg (not_isI32 (by omega)), if_pos (by
      rw [show (f.width : Int) + f.offset + 8 * offset = ((f.width + f.offset + 8 * offset : Nat) : Int) by omega,
        toSize_small (by omega)]
      omega)]
    split
    · have : f.width = 0 := by omega
      rw [this] at h
      unfold writeLoop at h
      rw [h]
    · rw [if_neg (by
        rw [isI32_iff.mpr (by omega), isI32_iff.mpr (by omega)]
        simp), if_neg (by omega)]
      have e1 : ((f.offset : Int) + 8 * offset).toNat = f.offset + 8 * offset := by omega
      have e2 : toSize (8 * (v.length : Int) - f.width) = (8 * v.length + 2 ^ 64 - f.width) % 2 ^ 64 := by
        unfold toSize
        omega
      have e3 : (f.width : Int).toNat = f.width := by omega
      rw [e1, e2, e3, h]
  · cases h

theorem copyValueI_eq (mask : Bool) {f : Field} (hw : f.width < 2 ^ 31) : copyValueI mask f = .ok (copyValue mask f) := by
  unfold copyValueI copyValue
  cases mask with
  | false =>
    simp only [Bool.false_eq_true, if_false]
    cases f.val <;> rfl
  | true =>
    simp only [if_true]
    split
    · rfl
    · rw [toI32_small hw, bitToByteI_nat, if_neg (by omega)]
      simp

theorem writeLoop_length {val : Buf} {dst src : Nat} : ∀ {n pos : Nat} {b b' : Buf},
    writeLoop val dst src n pos b = .ok b' → b'.length = b.length := by
  intro n
  induction n with
  | zero =>
    intro pos b b' h
    unfold writeLoop at h
    cases h
    rfl
  | succ n ih =>
    intro pos b b' h
    unfold writeLoop at h
    rw [Out.bind_eq_ok] at h
    obtain ⟨v, _, h⟩ := h
    rw [Out.bind_eq_ok] at h
    obtain ⟨b1, h1, h⟩ := h
    rw [ih h]
    unfold bitSet at h1
    split at h1
    · cases h1
      simp
    · cases h1

theorem writeField_length' {b b' : Buf} {offset : Nat} {f : Field} {v : Buf} (h : writeField b offset f v = .ok b') :
    b'.length = b.length := by
  unfold writeField at h
  split at h
  · exact writeLoop_length h
  · cases h

theorem copyFieldI_stop {mask : Bool} {offset : Nat} {f : Field} {b : Buf} (ho : offset < 2 ^ 31) (hf : f.width < 2 ^ 31)
    (h : bitToByte f.width + offset > b.length) : copyFieldI mask offset f b = some (.ok (true, b)) := by
  unfold copyFieldI
  have e1 : toSize (bitToByteI (toI32 f.width) + offset) = bitToByte f.width + offset := by
    rw [toI32_small hf, bitToByteI_nat, ← Int.natCast_add, toSize_small]
    unfold bitToByte
    omega
  rw [if_neg (not_isI32 (by rw [toI32_small hf]; omega)), e1, if_pos h]

theorem copyFieldI_go {mask : Bool} {offset : Nat} {f : Field} {b : Buf} (ho : offset < 2 ^ 31) (hf : f.width < 2 ^ 31)
    (h : ¬ bitToByte f.width + offset > b.length) : copyFieldI mask offset f b =
      match copyValue mask f with
      | some v => thenI (writeFieldI b offset (toI32 f.width) (toI32 f.offset) v) fun b => some (.ok (false, b))
      | none => some (.ok (false, b)) := by
  unfold copyFieldI
  have e1 : toSize (bitToByteI (toI32 f.width) + offset) = bitToByte f.width + offset := by
    rw [toI32_small hf, bitToByteI_nat, ← Int.natCast_add, toSize_small]
    unfold bitToByte
    omega
  rw [if_neg (not_isI32 (by rw [toI32_small hf]; omega)), e1, if_neg h, copyValueI_eq mask hf, thenI_ok]
  cases copyValue mask f <;> rfl

theorem copyFieldsI_eq {mask : Bool} {offset : Nat} {fs : List Field} (ho : offset < 2 ^ 31) (hw : ∀ f ∈ fs, f.width < 2 ^ 31) :
    ∀ {b b' : Buf}, b.length < 2 ^ 28 → copyFields mask offset fs b = .ok b' →
      copyFieldsI mask offset fs b = some (.ok b') ∧ b'.length = b.length := by
  induction fs with
  | nil =>
    intro b b' _ h
    unfold copyFields at h
    cases h
    exact ⟨rfl, rfl⟩
  | cons f fs ih =>
    intro b b' hb h
    have hf := hw f List.mem_cons_self
    have hw' : ∀ g ∈ fs, g.width < 2 ^ 31 := fun g hg => hw g (List.mem_cons_of_mem f hg)
    unfold copyFields at h
    unfold copyFieldsI
    split at h
    · rename_i hc
      cases h
      rw [copyFieldI_stop ho hf hc, thenI_ok, if_pos rfl]
      exact ⟨rfl, rfl⟩
    · rename_i hc
      rw [copyFieldI_go ho hf hc]
      cases hv : copyValue mask f with
      | none =>
        rw [hv] at h
        simp only
        rw [thenI_ok, if_neg (by simp)]
        exact ih hw' hb h
      | some v =>
        rw [hv] at h
        simp only at h ⊢
        rw [Out.bind_eq_ok] at h
        obtain ⟨b1, h1, h2⟩ := h
        rw [writeFieldI_eq hb h1, thenI_ok, thenI_ok, if_neg (by simp)]
        have hl := writeField_length' h1
        obtain ⟨k1, k2⟩ := ih hw' (by omega) h2
        exact ⟨k1, by omega⟩

theorem copyHdrsI_eq {mask : Bool} {hs : List Hdr} : ∀ {offset : Nat}, offset + sumSizes hs < 2 ^ 31 →
    (∀ h ∈ hs, ∀ f ∈ h.fields, f.width < 2 ^ 31) →
    ∀ {b b' : Buf}, b.length < 2 ^ 28 → copyHdrs mask hs offset b = .ok b' → copyHdrsI mask hs offset b = some (.ok b') := by
  induction hs with
  | nil =>
    intro offset _ _ b b' _ h
    unfold copyHdrs at h
    cases h
    rfl
  | cons x hs ih =>
    intro offset ho hw b b' hb h
    unfold sumSizes at ho
    unfold copyHdrs copyHdr at h
    rw [Out.bind_eq_ok] at h
    obtain ⟨b1, h1, h2⟩ := h
    obtain ⟨k1, k2⟩ := copyFieldsI_eq (by omega) (hw x (by simp)) hb h1
    unfold copyHdrsI
    rw [k1, thenI_ok]
    rw [Nat.mod_eq_of_lt (by omega)]
    exact ih (by omega) (fun g hg => hw g (by simp [hg])) (by omega) h2

theorem size_le_sum {hs : List Hdr} {x : Hdr} (h : x ∈ hs) : x.size ≤ sumSizes hs := by
  induction hs with
  | nil => cases h
  | cons y hs ih =>
    unfold sumSizes
    rcases List.mem_cons.mp h with rfl | h
    · omega
    · have := ih h
      omega

theorem sumSizesI_eq {hs : List Hdr} (h : sumSizes hs < 2 ^ 31) : sumSizesI hs = sumSizes hs := toI32_small h

theorem frameSizeI_eq {hs : List Hdr} (h : sumSizes hs < 2 ^ 31) : frameSizeI hs = frameSize hs := by
  unfold frameSizeI frameSize
  rw [sumSizesI_eq h]
  split <;> split <;> omega

theorem narrow_width {hs : List Hdr} (hn : ∀ x ∈ hs, Narrow x) (h : sumSizes hs < 2 ^ 28) :
    ∀ x ∈ hs, ∀ f ∈ x.fields, f.width < 2 ^ 31 := by
  intro x hx f hf
  have := size_le_sum hx
  rcases hn x hx with ⟨_, h1⟩ | ⟨_, h1⟩
  · have := (h1 f hf).1
    omega
  · have := (h1 f hf).1
    omega

theorem renderI_eq {hs : List Hdr} {b : Buf} (hn : ∀ x ∈ hs, Narrow x) (h : sumSizes hs < 2 ^ 28)
    (hb : copyHdrs false hs 0 (balloc (frameSize hs)) = .ok b) : renderI hs = some (.ok b) := by
  unfold renderI
  rw [frameSizeI_eq (by omega), Int.toNat_natCast]
  refine copyHdrsI_eq (by omega) (narrow_width hn h) ?_ hb
  unfold balloc frameSize
  rw [List.length_replicate]
  split <;> omega

theorem renderMaskI_eq {f : Frame} {m : Buf} (hn : ∀ x ∈ f.stack, Narrow x) (h : sumSizes f.stack < 2 ^ 28)
    (hm : frameMaskToBuf f = .ok m) : renderMaskI f.stack = some (.ok m) := by
  unfold renderMaskI
  rw [frameSizeI_eq (by omega), sumSizesI_eq (by omega), Int.toNat_natCast, Int.toNat_natCast, if_neg (by omega)]
  refine copyHdrsI_eq (by omega) (narrow_width hn h) ?_ hm
  unfold balloc frameSize
  rw [List.length_append, List.length_replicate, List.length_replicate]
  split <;> omega

end Ef
