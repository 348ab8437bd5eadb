import Verif.Lemmas.MaskExact
import Verif.Props.Match

/-!
# C20, C21: the mask of every frame
-/

namespace Ef.Props

open Ef Ef.Spec

/-- **C20, for all frames**: if no field is wider than its header, a mask is produced exactly if no compared field reaches
behind the end of the frame, and otherwise an assertion fails. The mask bits are 1 exactly at the positions of the padding and
of the fields that are not ignored. -/
theorem C20_exactly (f : Frame)
    (hn : ∀ x ∈ f.stack, (x.size = 0 ∧ ∀ g ∈ x.fields, g.width = 0 ∧ g.offset = 0) ∨
      (0 < x.size ∧ ∀ g ∈ x.fields, g.width ≤ 8 * x.size ∧ g.width < 2 ^ 60)) :
    (ComparedInside f.stack → ∃ m, frameMaskToBuf f = .ok m ∧ m.length = max 60 (totalSize f.stack) ∧
      ∀ i, i < 8 * m.length → (bit m i = true ↔ IsCompared f.stack i)) ∧
    (¬ ComparedInside f.stack → frameMaskToBuf f = .abort) := by
  have hl : (balloc (sumSizes f.stack) ++ List.replicate (frameSize f.stack - sumSizes f.stack) 0xff#8).length =
      max 60 (totalSize f.stack) := by
    rw [totalSize_eq]
    simp only [balloc, List.length_append, List.length_replicate, frameSize]
    split <;> omega
  obtain ⟨k1, k2⟩ := copyHdrs_mask f.stack 0
    (balloc (sumSizes f.stack) ++ List.replicate (frameSize f.stack - sumSizes f.stack) 0xff#8) hn
    (by rw [hl, totalSize_eq]; omega)
  rw [hl] at k1 k2
  refine ⟨fun hin => ?_, fun hin => k2 hin⟩
  obtain ⟨m, e1, e2, e3⟩ := k1 hin
  refine ⟨m, e1, e2, fun i hi => ?_⟩
  rw [e3 i, Bool.or_eq_true, List.any_eq_true]
  unfold IsCompared
  have hz : bit (balloc (sumSizes f.stack) ++ List.replicate (frameSize f.stack - sumSizes f.stack) 0xff#8) i = true ↔
      8 * totalSize f.stack ≤ i := by
    rw [bit_append, totalSize_eq]
    have hb : (balloc (sumSizes f.stack)).length = sumSizes f.stack := by simp [balloc]
    rw [hb]
    by_cases hlt : i < 8 * sumSizes f.stack
    · rw [if_pos hlt]
      have : bit (balloc (sumSizes f.stack)) i = false := bit_zeros _ _
      rw [this]
      simp
      omega
    · rw [if_neg hlt, bit_ones, decide_eq_true_eq]
      rw [e2, totalSize_eq] at hi
      unfold frameSize
      split <;> omega
  rw [hz]
  simp only [decide_eq_true_eq]

/-- The frames of the command line have no field that is wider than its header. -/
theorem parsed_narrow {argv : List CStr} {n : Nat} {f f' : Frame} {b : Buf} (hs : ShortWords argv)
    (h1 : argcFrame argv = .ok (some (n, f))) (h2 : frameToBuf f = .ok (f', b)) : ∀ x ∈ f'.stack, Narrow x := by
  unfold frameToBuf at h2
  rw [Out.bind_eq_ok] at h2
  obtain ⟨st, e1, h2⟩ := h2
  rw [Out.bind_eq_ok] at h2
  obtain ⟨b1, _, h2⟩ := h2
  simp only [Out.ok.injEq, Prod.mk.injEq] at h2
  obtain ⟨rfl, rfl⟩ := h2
  have := argcFrame_len h1
  exact fillStack_narrow (by simp) (argcFrame_inst hs h1) (by omega) e1

/-- **C20** for every frame of the command line: whether there is a mask, and all of its bits. -/
theorem C20_parsed (argv : List CStr) (n : Nat) (f f' : Frame) (b : Buf) (hs : ShortWords argv)
    (h1 : argcFrame argv = .ok (some (n, f))) (h2 : frameToBuf f = .ok (f', b)) :
    (ComparedInside f'.stack → ∃ m, frameMaskToBuf f' = .ok m ∧ m.length = b.length ∧
      ∀ i, i < 8 * m.length → (bit m i = true ↔ IsCompared f'.stack i)) ∧
    (¬ ComparedInside f'.stack → frameMaskToBuf f' = .abort) := by
  obtain ⟨k1, k2⟩ := C20_exactly f' (parsed_narrow hs h1 h2)
  refine ⟨fun h => ?_, k2⟩
  obtain ⟨m, e1, _, e3⟩ := k1 h
  exact ⟨m, e1, C19_mask_length f f' b m h2 e1, e3⟩

/-- **C21, exactly**: for every frame of the command line with a mask, differences in the `w` bits from `p` on are
ignored altogether if and only if none of them is compared. -/
theorem C21_exactly (argv : List CStr) (n : Nat) (f f' : Frame) (b m : Buf) (hs : ShortWords argv)
    (h1 : argcFrame argv = .ok (some (n, f))) (h2 : frameToBuf f = .ok (f', b)) (h3 : frameMaskToBuf f' = .ok m) (p w : Nat) :
    (∀ rx : Buf, rx.length = b.length → (∀ i, ¬ (p ≤ i ∧ i < p + w) → bit rx i = bit b i) →
      bequalMask (some rx) (some b) (some m) 0 = .ok true) ↔
    ∀ i, p ≤ i → i < p + w → i < 8 * b.length → ¬ IsCompared f'.stack i := by
  obtain ⟨k1, k2⟩ := C20_parsed argv n f f' b hs h1 h2
  have hin : ComparedInside f'.stack := by
    refine Classical.byContradiction fun hc => ?_
    rw [h3] at k2
    cases k2 hc
  obtain ⟨m', e1, e2, e3⟩ := k1 hin
  rw [h3] at e1
  cases e1
  constructor
  · intro h i hp hw hi hc
    obtain ⟨rx, _, l, g⟩ := bitSet_ok b i (!bit b i) hi
    have := h rx l (fun j hj => by
      rw [g j, if_neg (by rintro rfl; exact hj ⟨hp, hw⟩)])
    obtain ⟨r, q1, q2⟩ := bequalMask_zero rx b (some m)
    rw [this] at q1
    cases q1
    have hd := (q2.mp rfl).2 i (fun _ => (e3 i (by rw [e2]; exact hi)).mpr hc)
    rw [g i, if_pos rfl] at hd
    cases hb : bit b i <;> rw [hb] at hd <;> cases hd
  · intro h rx hl hrx
    obtain ⟨r, q1, q2⟩ := bequalMask_zero rx b (some m)
    rw [q1, q2.mpr ⟨hl, fun i hc => ?_⟩]
    by_cases hi : i < 8 * b.length
    · apply hrx
      rintro ⟨hp, hw⟩
      exact h i hp hw hi ((e3 i (by rw [e2]; exact hi)).mp (hc (by omega)))
    · rw [bit_of_ge _ _ (by omega), bit_of_ge _ _ (by omega)]

/-- Non-vacuity: some fields of `igmp type ign` have no bits and are placed behind the header; a mask is produced behind
22 bytes, as the frame is padded, and none behind 60. -/
def igmpMasked (k : CStr) : List CStr := [c!"eth", c!"data", c!"pattern", c!"zero", k, c!"igmp", c!"type", c!"ign"]

example : (built (igmpMasked c!"8")).any (fun r => decide (ComparedInside r.2.2.1.stack) &&
      (comparedFields 0 r.2.2.1.stack).any (fun p => p.2 == 0) && decide (totalSize r.2.2.1.stack = 30) &&
      decide (¬ IsCompared r.2.2.1.stack 176) && decide (IsCompared r.2.2.1.stack 184)) = true ∧
    (match argcFrame (igmpMasked c!"46") with
      | .ok (some (_, f)) => match frameToBuf f with
        | .ok (f', _) => !(comparedFields 0 f'.stack).all (fun p => decide (p.1 + p.2 ≤ 8 * max 60 (totalSize f'.stack)))
        | _ => false
      | _ => false) = true := by decide +kernel

end Ef.Props
