import Verif.Lemmas.Large
import Verif.Spec.Large
import Verif.Props.Payload
import Verif.Props.MaskExact

/-!
# Property C123: large frames

The widths of fields and the sizes of frames are numbers of 32 bits with a sign. Frames of less than 2²⁸
bytes are what the other properties say (`C123_agrees`), a payload of more is not.
-/

namespace Ef.Props

open Ef Spec

/-! ## Frames below 2²⁸ bytes -/

/-- **C123**, frames of less than 2²⁸ bytes: the bytes and the mask are the same if the numbers are those of
the program. -/
theorem C123_agrees {argv : List CStr} {n : Nat} {f f' : Frame} {b : Buf} (hs : ShortWords argv)
    (h1 : argcFrame argv = .ok (some (n, f))) (h2 : frameToBuf f = .ok (f', b)) (hl : totalSize f'.stack < 2 ^ 28) :
    renderI f'.stack = some (.ok b) ∧ ∀ m, frameMaskToBuf f' = .ok m → renderMaskI f'.stack = some (.ok m) := by
  have hn := parsed_narrow hs h1 h2
  have hl' : sumSizes f'.stack < 2 ^ 28 := by
    have : ∀ hs : List Hdr, totalSize hs = sumSizes hs := by
      intro hs
      induction hs with
      | nil => rfl
      | cons x hs ih =>
        unfold sumSizes
        rw [← ih]
        simp [totalSize]
    rw [← this]
    exact hl
  refine ⟨?_, fun m hm => renderMaskI_eq hn hl' hm⟩
  unfold frameToBuf at h2
  rw [Out.bind_eq_ok] at h2
  obtain ⟨st, e1, h2⟩ := h2
  rw [Out.bind_eq_ok] at h2
  obtain ⟨b1, e2, h2⟩ := h2
  simp only [Out.ok.injEq, Prod.mk.injEq] at h2
  obtain ⟨rfl, rfl⟩ := h2
  exact renderI_eq hn hl' e2

/-! ## A payload of any size -/

theorem bit_drop (d : Buf) (j i : Nat) : bit (d.drop j) i = bit d (8 * j + i) := by
  unfold bit
  rw [List.getElem?_drop]
  have e1 : (8 * j + i) / 8 = j + i / 8 := by omega
  have e2 : (8 * j + i) % 8 = i % 8 := by omega
  rw [e1, e2]

theorem write_front {d : Buf} {k m : Nat} (hm : k ≤ m) (hd : k ≤ d.length) (hl : d.length < 2 ^ 32) :
    writeLoop d 0 (8 * d.length - 8 * k) (8 * k) 0 (zeros m) = .ok (d.drop (d.length - k) ++ zeros (m - k)) := by
  have hz : (zeros m).length = m := by simp [zeros]
  obtain ⟨b', e1, e2, e3⟩ := writeLoop_ok d 0 (8 * d.length - 8 * k) (8 * k) 0 (zeros m) (by omega) (by omega) (by omega)
  rw [e1]
  congr 1
  refine buf_ext ?_ fun i _ => ?_
  · rw [e2, List.length_append, List.length_drop]
    simp only [zeros, List.length_replicate]
    omega
  · rw [e3, bit_append, bit_drop, List.length_drop]
    by_cases hi : i < 8 * k
    · rw [if_pos (by omega), if_pos (by omega)]
      congr 1
      omega
    · rw [if_neg (by omega), if_neg (by omega), bit_zeros, bit_zeros]

/-- The header of a payload. -/
def payHdr (d : Buf) : Hdr :=
  { dataShape d.length d.length with fields := [{ name := c!"hex", width := d.length * 8, offset := 0, val := some d }] }

theorem payload_parsed {segs : List (List CStr × Buf)} (hs : ∀ p ∈ segs, Segment p.1 p.2) (hne : segs ≠ [])
    (hl : (segsWords segs).length < 100) :
    argcFrame (c!"data" :: segsWords segs) =
      .ok (some ((c!"data" :: segsWords segs).length, { stack := [payHdr (segsBytes segs)], padding := ({} : Frame).padding, hasMask := ({} : Frame).hasMask })) := by
  have ht : HDR_PAYLOAD ∈ hdrTmpls := by decide +kernel
  have hf : findTmpl c!"data" = some HDR_PAYLOAD := findTmpl_all HDR_PAYLOAD ht
  have hp := data_header ({} : Frame).padding ({} : Frame).hasMask hs hne (rest := []) (by simp)
  rw [List.append_nil] at hp
  unfold argcFrame
  rw [if_neg (by simp only [List.length_cons]; unfold frameStackMax; omega), List.length_cons, afl_step, if_neg (by decide), hf]
  simp only
  unfold pushHdr
  rw [if_pos (by simp [frameStackMax])]
  rw [Out.ok_bind, hp, Out.ok_bind]
  simp only [List.drop_length]
  cases (segsWords segs).length <;> simp [argcFrameLoop, payHdr] <;> omega

theorem payload_filled (d : Buf) : fillStack [] [payHdr d] = .ok [payHdr d] := rfl

theorem copyPay {d b : Buf} : copyHdrsI false [payHdr d] 0 b =
    thenI (copyFieldI false 0 { name := c!"hex", width := d.length * 8, offset := 0, val := some d } b) fun p => some (.ok p.2) := by
  unfold copyHdrsI copyHdrsI payHdr copyFieldsI copyFieldsI
  cases copyFieldI false 0 { name := c!"hex", width := d.length * 8, offset := 0, val := some d } b with
  | none => rfl
  | some o =>
    cases o with
    | ok p =>
      obtain ⟨x, b⟩ := p
      cases x <;> rfl
    | _ => rfl

theorem width_wraps (n : Nat) : toI32 (n * 8) = if n % 2 ^ 29 < 2 ^ 28 then ((8 * (n % 2 ^ 29) : Nat) : Int) else ((8 * (n % 2 ^ 29) : Nat) : Int) - 2 ^ 32 := by
  unfold toI32 Int.bmod
  simp only
  split <;> split <;> omega

theorem size_wraps {d : Buf} (h : d.length < 2 ^ 32) :
    (frameSizeI [payHdr d]).toNat = if d.length < 2 ^ 31 then max d.length 60 else 60 := by
  have e : sumSizes [payHdr d] = d.length := rfl
  unfold frameSizeI sumSizesI
  rw [e]
  unfold toI32 Int.bmod
  simp only
  split <;> split <;> split <;> omega

/-- **C123**, exactly: the bytes made of a payload of less than 4 GiB. -/
theorem C123_exactly {segs : List (List CStr × Buf)} (hs : ∀ p ∈ segs, Segment p.1 p.2) (hne : segs ≠ [])
    (hw : (segsWords segs).length < 100) (hl : (segsBytes segs).length < 2 ^ 32) :
    ∃ n f st, argcFrame (c!"data" :: segsWords segs) = .ok (some (n, f)) ∧ fillStack [] f.stack = .ok st ∧
      renderI st = payloadSent (segsBytes segs) := by
  refine ⟨_, _, _, payload_parsed hs hne hw, payload_filled _, ?_⟩
  generalize segsBytes segs = d at hl
  unfold renderI
  rw [copyPay, size_wraps hl]
  unfold payloadSent
  simp only
  generalize hm : (if d.length < 2 ^ 31 then max d.length 60 else 60) = m
  have hm60 : 60 ≤ m := by rw [← hm]; split <;> omega
  have hmlt : m < 2 ^ 32 := by rw [← hm]; split <;> omega
  have hz : (balloc m).length = m := by simp [balloc]
  have hb : balloc m = zeros m := rfl
  unfold copyFieldI
  simp only
  rw [width_wraps]
  have hkle : d.length % 2 ^ 29 ≤ d.length := Nat.mod_le _ _
  have hklt : d.length % 2 ^ 29 < 2 ^ 29 := Nat.mod_lt _ (by omega)
  generalize d.length % 2 ^ 29 = k at hkle hklt
  by_cases h1 : k = 2 ^ 28
  · rw [if_pos h1, if_neg (show ¬ k < 2 ^ 28 by omega), if_pos]
    · rfl
    · have : isI32 (((8 * k : Nat) : Int) - 2 ^ 32 - 1) = false := by
        rw [Bool.eq_false_iff]
        intro h
        have := isI32_iff.mp h
        omega
      rw [this]
      rfl
  rw [if_neg h1]
  have hv : copyValueI false { name := c!"hex", width := d.length * 8, offset := 0, val := some d } = .ok (some d) := rfl
  by_cases h2 : k < 2 ^ 28
  · have hsz : toSize (bitToByteI ((8 * k : Nat) : Int) + (0 : Nat)) = bitToByte (8 * k) := by
      rw [bitToByteI_nat, ← Int.natCast_add, toSize_small] <;> unfold bitToByte <;> omega
    rw [if_pos h2, if_neg (not_isI32 (by omega)), hsz, hz, if_neg (show ¬ k = 2 ^ 29 - 1 by omega)]
    by_cases h3 : k ≤ m
    · rw [if_neg (by unfold bitToByte; omega), if_pos ⟨h2, h3⟩, hv, thenI_ok]
      simp only
      rw [hb]
      have : writeFieldI (zeros m) 0 ((8 * k : Nat) : Int) (toI32 0) d = some (.ok (d.drop (d.length - k) ++ zeros (m - k))) := by
        have hz' : (zeros m).length = m := hz
        unfold writeFieldI
        rw [toI32_small (n := 0) (by omega)]
        simp only
        rw [if_neg (not_isI32 (by omega)), if_pos (by
          rw [show ((8 * k : Nat) : Int) + ((0 : Nat) : Int) + 8 * ((0 : Nat) : Int) = ((8 * k : Nat) : Int) by omega, toSize_small (by omega), hz']
          omega)]
        split
        · have : k = 0 := by omega
          subst this
          simp
        · rw [if_neg (by
            rw [isI32_iff.mpr (by omega), isI32_iff.mpr (by omega)]
            simp), if_neg (by omega)]
          have e1 : (((0 : Nat) : Int) + 8 * ((0 : Nat) : Int)).toNat = 0 := rfl
          have e2 : toSize (8 * (d.length : Int) - ((8 * k : Nat) : Int)) = 8 * d.length - 8 * k := by
            unfold toSize
            omega
          rw [e1, e2, Int.toNat_natCast, write_front h3 hkle hl]
      rw [this, thenI_ok, thenI_ok]
    · rw [if_pos (by unfold bitToByte; omega), if_neg (fun h => h3 h.2), thenI_ok]
      rfl
  · rw [if_neg h2, if_neg (not_isI32 (by omega))]
    have hB : bitToByteI (((8 * k : Nat) : Int) - 2 ^ 32) = (k : Int) - 2 ^ 29 + 1 := by
      unfold bitToByteI
      rw [show ((8 * k : Nat) : Int) - 2 ^ 32 - 1 = -((8 * (2 ^ 29 - k) + 1 : Nat) : Int) by omega, Int.neg_tdiv,
        Int.tdiv_eq_ediv_of_nonneg (by omega)]
      omega
    rw [hB]
    by_cases h3 : k = 2 ^ 29 - 1
    · rw [if_pos h3, if_neg (by unfold toSize; omega), hv, thenI_ok]
      simp only
      have : writeFieldI (balloc m) 0 (((8 * k : Nat) : Int) - 2 ^ 32) (toI32 0) d = some .abort := by
        unfold writeFieldI
        rw [toI32_small (n := 0) (by omega)]
        simp only
        rw [if_neg (not_isI32 (by omega)), if_neg (by rw [hz]; unfold toSize; omega)]
      rw [this]
      rfl
    · rw [if_neg h3, if_pos (by rw [hz]; unfold toSize; omega), if_neg (fun h => h2 h.1), thenI_ok]
      rfl

/-! ## The claim, refuted and for payloads below 2²⁸ bytes -/

/-- **C123** as one would state it: a payload of any size is sent as it is. -/
def C123_statement : Prop :=
  ∀ segs : List (List CStr × Buf), (∀ p ∈ segs, Segment p.1 p.2) → segs ≠ [] → (segsWords segs).length < 100 →
    (segsBytes segs).length < 2 ^ 32 →
    ∃ n f st, argcFrame (c!"data" :: segsWords segs) = .ok (some (n, f)) ∧ fillStack [] f.stack = .ok st ∧
      renderI st = some (.ok (payloadFrame (segsBytes segs)))

/-- **C123** for payloads of less than 2²⁸ bytes (256 MiB). -/
theorem C123_payload_partial {segs : List (List CStr × Buf)} (hs : ∀ p ∈ segs, Segment p.1 p.2) (hne : segs ≠ [])
    (hw : (segsWords segs).length < 100) (hl : (segsBytes segs).length < 2 ^ 28) :
    ∃ n f st, argcFrame (c!"data" :: segsWords segs) = .ok (some (n, f)) ∧ fillStack [] f.stack = .ok st ∧
      renderI st = some (.ok (payloadFrame (segsBytes segs))) := by
  obtain ⟨n, f, st, h1, h2, h3⟩ := C123_exactly hs hne hw (by omega)
  refine ⟨n, f, st, h1, h2, h3.trans ?_⟩
  generalize segsBytes segs = d at hl
  unfold payloadSent payloadFrame
  simp only
  rw [Nat.mod_eq_of_lt (by omega), if_neg (by omega), if_neg (by omega), if_pos (show d.length < 2 ^ 31 by omega),
    if_pos ⟨hl, by omega⟩, Nat.sub_self, List.drop_zero, show max d.length 60 - d.length = 60 - d.length by omega]

theorem lit29 : Literal c!"0x20000000" (2 ^ 29) := by
  have h : ∀ n, Numeral 16 (c!"2" ++ List.replicate n (ch!"0")) (2 * 16 ^ n) := by
    intro n
    induction n with
    | zero => exact Numeral.snoc [] 0 _ _ Numeral.nil (Digit.dec 2 (by decide)) (by decide)
    | succ n ih =>
      have := Numeral.snoc _ _ _ _ ih (Digit.dec 0 (by decide)) (by decide)
      rw [List.replicate_succ', ← List.append_assoc, Nat.pow_succ, ← Nat.mul_assoc]
      exact this
  exact Literal.hex c!"20000000" _ (h 7)

theorem lit255 : Literal c!"0xff" 255 :=
  Literal.hex c!"ff" _ (Numeral.snoc _ _ _ _ (Numeral.snoc [] 0 _ _ Numeral.nil (Digit.lower 15 (by decide) (by decide)) (by decide)) (Digit.lower 15 (by decide) (by decide)) (by decide))

theorem lost_payload {d : Buf} {n : Nat} (hn : n = 2 ^ 29) (hd : d.length = n) : payloadSent d = some (.ok (zeros n)) := by
  unfold payloadSent
  simp only
  rw [hd, hn, Nat.mod_self, if_neg (by omega), if_neg (by omega), if_pos (show 2 ^ 29 < 2 ^ 31 by omega),
    if_pos ⟨by omega, by omega⟩, ← hn, Nat.sub_zero, Nat.sub_zero, ← hd, List.drop_length, List.nil_append,
    show max d.length 60 = d.length by omega]

/-- **C123**, silent loss: of `data repeat 0x20000000 0xff` only zeros are sent. -/
theorem C123_false : ¬ C123_statement := by
  intro h
  have hseg : ∀ p ∈ [([c!"repeat", c!"0x20000000", c!"0xff"], List.replicate (2 ^ 29) (BitVec.ofNat 8 255))], Segment p.1 p.2 := by
    intro p hp
    rw [List.mem_singleton] at hp
    subst hp
    exact Segment.repeat lit29 (by omega) lit255 (by omega)
  generalize hn : 2 ^ 29 = n at hseg
  have hlen : (segsBytes [([c!"repeat", c!"0x20000000", c!"0xff"], List.replicate n (BitVec.ofNat 8 255))]).length = n := by
    simp [segsBytes]
  have hw : (segsWords [([c!"repeat", c!"0x20000000", c!"0xff"], List.replicate n (BitVec.ofNat 8 255))]).length < 100 := by
    simp [segsWords]
  obtain ⟨_, f, st, h1, h2, h3⟩ := h _ hseg (by simp) hw (by omega)
  obtain ⟨_, f', st', k1, k2, k3⟩ := C123_exactly hseg (by simp) hw (by omega)
  rw [k1] at h1
  cases h1
  rw [k2] at h2
  cases h2
  rw [h3, lost_payload hn.symm hlen] at k3
  have : payloadFrame (segsBytes [([c!"repeat", c!"0x20000000", c!"0xff"], List.replicate n (BitVec.ofNat 8 255))]) = zeros n := by
    simpa using k3
  have h0 := congrArg (fun l : Buf => l[0]?) this
  have hpos : 0 < n := by omega
  simp [payloadFrame, segsBytes, zeros, List.getElem?_append, hpos] at h0

example : ∃ segs : List (List CStr × Buf), (∀ p ∈ segs, Segment p.1 p.2) ∧ segs ≠ [] ∧ (segsWords segs).length < 100 ∧
    (segsBytes segs).length < 2 ^ 28 ∧ payloadFrame (segsBytes segs) = [0xff#8, 0xff#8] ++ zeros 58 := by
  refine ⟨[([c!"repeat", c!"2", c!"0xff"], [0xff#8, 0xff#8])], ?_, by simp, by decide, by decide, by decide⟩
  intro p hp
  rw [List.mem_singleton] at hp
  subst hp
  exact Segment.repeat (Literal.dec c!"2" 2 (Numeral.snoc [] 0 _ _ Numeral.nil (Digit.dec 2 (by decide)) (by decide))) (by omega) lit255 (by omega)

example : ∃ n f f' b, argcFrame [c!"eth"] = .ok (some (n, f)) ∧ frameToBuf f = .ok (f', b) ∧ totalSize f'.stack < 2 ^ 28 ∧
    b.length = 60 := by
  obtain ⟨n, f, h1⟩ : ∃ n f, argcFrame [c!"eth"] = .ok (some (n, f)) := by
    have : (match argcFrame [c!"eth"] with | .ok (some _) => true | _ => false) = true := by decide +kernel
    split at this
    · exact ⟨_, _, by assumption⟩
    · cases this
  have key : (match argcFrame [c!"eth"] with
    | .ok (some (_, f)) => (match frameToBuf f with | .ok (f', b) => decide (totalSize f'.stack < 2 ^ 28 ∧ b.length = 60) | _ => false)
    | _ => false) = true := by decide +kernel
  rw [h1] at key
  simp only at key
  split at key
  · rename_i f' b h2
    rw [decide_eq_true_eq] at key
    exact ⟨n, f, f', b, h1, h2, key.1, key.2⟩
  · cases key

end Ef.Props
