import Verif.Lemmas.Render

/-!
# Rendering when some headers write outside of themselves

Whatever a header writes, it writes at or behind its own offset. So the bits a header writes into its own bytes are never
changed by headers behind it, and headers before it only show where it writes nothing.
-/

namespace Ef

open Spec

theorem bitSet_rel {b b' : Buf} {pos : Nat} {v : Bool} (h : bitSet b pos v = .ok b') :
    b'.length = b.length ∧ ∀ i, i ≠ pos → bit b' i = bit b i := by
  by_cases hp : pos < 8 * b.length
  · obtain ⟨c, e, l, g⟩ := bitSet_ok b pos v hp
    rw [h] at e
    cases e
    exact ⟨l, fun i hi => by rw [g i, if_neg hi]⟩
  · rw [bitSet_abort b pos v (by omega)] at h
    simp at h

theorem writeLoop_rel (val : Buf) (dst src : Nat) : ∀ n pos (b b' : Buf), writeLoop val dst src n pos b = .ok b' →
    b'.length = b.length ∧ ∀ i, i < dst + pos → bit b' i = bit b i := by
  intro n
  induction n with
  | zero =>
    intro pos b b' h
    simp only [writeLoop, Out.ok.injEq] at h
    subst h
    exact ⟨rfl, fun _ _ => rfl⟩
  | succ n ih =>
    intro pos b b' h
    unfold writeLoop at h
    rw [Out.bind_eq_ok] at h
    obtain ⟨v, _, h⟩ := h
    rw [Out.bind_eq_ok] at h
    obtain ⟨b1, h1, h2⟩ := h
    obtain ⟨l1, g1⟩ := bitSet_rel h1
    obtain ⟨l2, g2⟩ := ih _ _ _ h2
    exact ⟨by omega, fun i hi => by rw [g2 i (by omega), g1 i (by omega)]⟩

theorem writeField_rel {b b' : Buf} {offset : Nat} {f : Field} {v : Buf} (h : writeField b offset f v = .ok b') :
    b'.length = b.length ∧ ∀ i, i < 8 * offset → bit b' i = bit b i := by
  unfold writeField at h
  split at h
  · obtain ⟨l, g⟩ := writeLoop_rel _ _ _ _ _ _ _ h
    exact ⟨l, fun i hi => g i (by omega)⟩
  · simp at h

theorem copyFields_rel (mask : Bool) (offset : Nat) (fs : List Field) : ∀ b b' : Buf, copyFields mask offset fs b = .ok b' →
    b'.length = b.length ∧ ∀ i, i < 8 * offset → bit b' i = bit b i := by
  induction fs with
  | nil =>
    intro b b' h
    simp only [copyFields, Out.ok.injEq] at h
    subst h
    exact ⟨rfl, fun _ _ => rfl⟩
  | cons f fs ih =>
    intro b b' h
    unfold copyFields at h
    split at h
    · simp only [Out.ok.injEq] at h
      subst h
      exact ⟨rfl, fun _ _ => rfl⟩
    · split at h
      · rw [Out.bind_eq_ok] at h
        obtain ⟨b1, h1, h2⟩ := h
        obtain ⟨l1, g1⟩ := writeField_rel h1
        obtain ⟨l2, g2⟩ := ih _ _ h2
        exact ⟨by omega, fun i hi => by rw [g2 i hi, g1 i hi]⟩
      · exact ih _ _ h

theorem copyHdrs_rel (mask : Bool) (hs : List Hdr) : ∀ (offset : Nat) (b b' : Buf), copyHdrs mask hs offset b = .ok b' →
    b'.length = b.length ∧ ∀ i, i < 8 * offset → bit b' i = bit b i := by
  induction hs with
  | nil =>
    intro offset b b' h
    simp only [copyHdrs, Out.ok.injEq] at h
    subst h
    exact ⟨rfl, fun _ _ => rfl⟩
  | cons x hs ih =>
    intro offset b b' h
    unfold copyHdrs at h
    rw [Out.bind_eq_ok] at h
    obtain ⟨b1, h1, h2⟩ := h
    obtain ⟨l1, g1⟩ := copyFields_rel mask offset _ _ _ h1
    obtain ⟨l2, g2⟩ := ih _ _ _ h2
    exact ⟨by omega, fun i hi => by rw [g2 i (by omega), g1 i hi]⟩

theorem copyHdrs_split (mask : Bool) (pre post : List Hdr) : ∀ (offset : Nat) (b b' : Buf),
    copyHdrs mask (pre ++ post) offset b = .ok b' →
      ∃ b1, copyHdrs mask pre offset b = .ok b1 ∧ copyHdrs mask post (offset + sumSizes pre) b1 = .ok b' := by
  induction pre with
  | nil => intro offset b b' h; exact ⟨b, rfl, by simpa [sumSizes] using h⟩
  | cons x pre ih =>
    intro offset b b' h
    rw [List.cons_append] at h
    unfold copyHdrs at h
    rw [Out.bind_eq_ok] at h
    obtain ⟨b1, h1, h2⟩ := h
    obtain ⟨b2, h3, h4⟩ := ih _ _ _ h2
    refine ⟨b2, ?_, ?_⟩
    · unfold copyHdrs
      rw [h1, Out.ok_bind, h3]
    · rw [sumSizes, ← Nat.add_assoc]
      exact h4

/-- The bits of one header among others: those of the headers before it, changed by its own fields. -/
theorem copyHdrs_own {mask : Bool} {pre post : List Hdr} {x : Hdr} {b b' : Buf} (h : copyHdrs mask (pre ++ x :: post) 0 b = .ok b')
    (hx : Fits mask x) (hl : sumSizes (pre ++ x :: post) ≤ b.length) :
    ∃ b1, copyHdrs mask pre 0 b = .ok b1 ∧
      ∀ i, i < 8 * x.size → bit b' (8 * sumSizes pre + i) = overlay mask x.fields (bit b1 (8 * sumSizes pre + i)) i := by
  obtain ⟨b1, h1, h2⟩ := copyHdrs_split mask pre (x :: post) 0 b b' h
  refine ⟨b1, h1, fun i hi => ?_⟩
  rw [Nat.zero_add] at h2
  unfold copyHdrs at h2
  rw [Out.bind_eq_ok] at h2
  obtain ⟨b2, h3, h4⟩ := h2
  rw [(copyHdrs_rel mask post _ _ _ h4).2 _ (by omega)]
  rcases hx with ⟨h0, _⟩ | hx
  · omega
  · obtain ⟨b3, e1, _, e2⟩ := copyFields_ok mask x.size (sumSizes pre) x.fields b1 hx (by
      rw [(copyHdrs_rel mask pre 0 b b1 h1).1]
      rw [sumSizes_append, sumSizes] at hl
      omega)
    unfold copyHdr at h3
    rw [h3] at e1
    cases e1
    rw [e2, if_pos (by omega)]
    congr 1
    omega

theorem overlay_acc (fs : List Field) (acc : Bool) (i : Nat) : overlay false fs acc i =
    match fs.reverse.find? (fun f => decide (covers f i) && (fieldValue f).isSome) with
    | some f => valueBit f ((fieldValue f).getD []) i
    | none => acc := by
  induction fs generalizing acc with
  | nil => rfl
  | cons f fs ih =>
    have hstep : overlay false (f :: fs) acc i = overlay false fs (match copyValue false f with
      | some v => if covers f i then valueBit f v i else acc
      | none => acc) i := rfl
    rw [hstep, ih, List.reverse_cons, List.find?_append]
    cases hfind : List.find? (fun f => decide (covers f i) && (fieldValue f).isSome) fs.reverse with
    | some g => simp
    | none =>
      simp only [Option.none_or]
      have hv : copyValue false f = fieldValue f := by
        unfold copyValue fieldValue; cases f.val <;> rfl
      rw [hv]
      cases hfv : fieldValue f with
      | none => simp [hfv]
      | some v =>
        by_cases hc : covers f i
        · simp [hfv, hc]
        · simp [hfv, hc]

/-- Bits of one header inside the frame: what its fields say, and where they say nothing, zero if the headers before keep
inside of themselves. -/
theorem frame_bit_own {f f' : Frame} {b : Buf} (h : frameToBuf f = .ok (f', b)) {pre post : List Hdr} {x : Hdr}
    (hs : f'.stack = pre ++ x :: post) (hx : HdrFits x) {i : Nat} (hi : i < 8 * x.size)
    (hp : (∃ k ∈ x.fields, covers k i ∧ (fieldValue k).isSome) ∨ ∀ y ∈ pre, HdrFits y) :
    bit b (8 * totalSize pre + i) = wireBit x.fields i := by
  unfold frameToBuf at h
  rw [Out.bind_eq_ok] at h
  obtain ⟨st, h1, h2⟩ := h
  rw [Out.bind_eq_ok] at h2
  obtain ⟨b', h2, h3⟩ := h2
  simp only [Out.ok.injEq, Prod.mk.injEq] at h3
  obtain ⟨rfl, rfl⟩ := h3
  simp only at hs
  subst hs
  have hlen : sumSizes (pre ++ x :: post) ≤ (balloc (frameSize (pre ++ x :: post))).length := by
    unfold balloc frameSize
    rw [List.length_replicate]
    split <;> omega
  obtain ⟨b1, e1, e2⟩ := copyHdrs_own h2 hx.fits hlen
  rw [totalSize_eq, e2 i hi, overlay_acc]
  unfold wireBit
  rcases hp with ⟨k, hk, hc, hv⟩ | hp
  · have : (x.fields.reverse.find? (fun f => decide (covers f i) && (fieldValue f).isSome)).isSome = true := by
      rw [List.find?_isSome]
      exact ⟨k, List.mem_reverse.mpr hk, by simp [hc, hv]⟩
    cases he : x.fields.reverse.find? (fun f => decide (covers f i) && (fieldValue f).isSome) with
    | none => rw [he] at this; simp at this
    | some g => rfl
  · have e : bit b1 (8 * sumSizes pre + i) = false := by
      have key := copyHdrs_ok false pre [] (zeros ((balloc (frameSize (pre ++ x :: post))).length - sumSizes pre)) (fun y hy => (hp y hy).fits)
      simp only [List.nil_append, List.length_nil] at key
      have e : balloc (frameSize (pre ++ x :: post)) =
          zeros (sumSizes pre) ++ zeros ((balloc (frameSize (pre ++ x :: post))).length - sumSizes pre) := by
        rw [← zeros_append]
        rw [sumSizes_append] at hlen
        unfold balloc zeros
        congr 1
        unfold balloc at hlen
        rw [List.length_replicate] at hlen ⊢
        omega
      rw [e, key] at e1
      simp only [Out.ok.injEq] at e1
      rw [← e1, bit_append]
      have hr := renderAll_length false pre
      unfold renderAll at hr
      rw [hr, if_neg (by omega), bit_zeros]
    rw [e]
    rfl

end Ef
