import Verif.Lemmas.Compare
import Verif.Props.Serialise

/-!
# Properties C21, C23, C24, C25, C26: comparing frames
-/

namespace Ef.Props

open Ef Spec

/-! ## C23: masked comparison -/

/-- **C23.** Without trailing padding the comparison always ends normally, and it succeeds if and only if both
frames have the same length and agree on every bit that is set in the mask. -/
theorem C23_masked_comparison (rx expected : Buf) (mask : Option Buf) :
    ∃ r, bequalMask (some rx) (some expected) mask 0 = .ok r ∧ (r = true ↔ Matches rx expected mask) :=
  bequalMask_zero rx expected mask

/-- Both answers occur with a mask: the frames differ in the low nibble only. -/
example : bequalMask (some [0x12#8, 0x34#8]) (some [0x15#8, 0x34#8]) (some [0xf0#8]) 0 = .ok true ∧
    bequalMask (some [0x12#8, 0x34#8]) (some [0x15#8, 0x34#8]) (some [0xf8#8, 0xff#8]) 0 = .ok true ∧
    bequalMask (some [0x12#8, 0x34#8]) (some [0x15#8, 0x34#8]) (some [0xf1#8]) 0 = .ok false := by decide

/-! ## C24: trailing padding -/

/-- **C24, full statement.** -/
def C24_statement : Prop :=
  ∀ (rx expected : Buf) (mask : Option Buf) (n : Nat), MatchesPadded rx expected mask n →
    bequalMask (some rx) (some expected) mask n = .ok true

/-- For every positive padding, every expected frame and every received frame which should match, the comparison
reads behind the expected frame. -/
theorem C24_padding_reads_outside (rx expected : Buf) (mask : Option Buf) (n : Nat) (hn : 0 < n)
    (h : MatchesPadded rx expected mask n) : bequalMask (some rx) (some expected) mask n = .ub .oobRead := by
  obtain ⟨core, t, rfl, ht, hl, hm⟩ := h
  unfold bequalMask
  simp only
  rw [if_neg (by omega), if_neg (by rw [List.length_append]; omega)]
  cases mask with
  | none =>
    simp only [memcmpEq]
    rw [if_neg (by rw [List.length_append]; omega)]
  | some m =>
    simp only
    rw [maskLoop_oob _ _ _ _ 0 (by omega) (by rw [List.length_append]; omega) (by omega), if_neg]
    rw [agree_prefix_iff core t expected m hl]
    exact fun hn => hn hm

/-- **C24 does not hold**: with padding a matching frame makes the comparison read out of bounds. -/
theorem C24_false : ¬ C24_statement := by
  intro h
  have h1 : MatchesPadded [1#8, 2#8] [1#8] none 1 := ⟨[1#8], [2#8], rfl, rfl, rfl, fun _ _ => rfl⟩
  have h2 := h _ _ _ _ h1
  have h3 := C24_padding_reads_outside _ _ _ _ (by decide) h1
  rw [h2] at h3
  simp at h3

/-- **C24, the part that holds**: without padding the comparison is exact, a received frame of a wrong length is
rejected without reading anything, and the comparison with padding never accepts a frame that is not the expected
one followed by `n` bytes. Missing: with padding, matching frames are accepted (false, see `C24_false`). -/
theorem C24_padding_partial (rx expected : Buf) (mask : Option Buf) (n : Nat) :
    (n = 0 → ∃ r, bequalMask (some rx) (some expected) mask n = .ok r ∧
      (r = true ↔ MatchesPadded rx expected mask n)) ∧
    (rx.length ≠ expected.length + n → bequalMask (some rx) (some expected) mask n = .ok false) ∧
    (bequalMask (some rx) (some expected) mask n = .ok true → MatchesPadded rx expected mask n) := by
  have h0 : ∀ rx expected mask, ∃ r, bequalMask (some rx) (some expected) mask (0 : Nat) = .ok r ∧
      (r = true ↔ MatchesPadded rx expected mask 0) := by
    intro rx expected mask
    obtain ⟨r, h1, h2⟩ := bequalMask_zero rx expected mask
    refine ⟨r, h1, h2.trans ?_⟩
    constructor
    · intro h; exact ⟨rx, [], by simp, rfl, h⟩
    · rintro ⟨core, t, rfl, ht, h⟩
      have : t = [] := List.length_eq_zero_iff.mp ht
      subst this
      simpa using h
  refine ⟨fun hn => by subst hn; exact h0 rx expected mask, fun hl => ?_, fun h => ?_⟩
  · unfold bequalMask
    simp only
    rw [if_neg (by omega), if_pos (by omega)]
  · by_cases hn : n = 0
    · subst hn
      obtain ⟨r, h1, h2⟩ := h0 rx expected mask
      rw [h] at h1
      simp only [Out.ok.injEq] at h1
      exact h2.mp h1.symm
    · exfalso
      unfold bequalMask at h
      simp only at h
      rw [if_neg (by omega)] at h
      split at h
      · simp at h
      · rename_i hl
        cases mask with
        | none =>
          simp only [memcmpEq] at h
          rw [if_neg (by omega)] at h
          simp at h
        | some m =>
          simp only at h
          rw [maskLoop_oob _ _ _ _ 0 (by omega) (by omega) (by omega)] at h
          split at h <;> simp at h

example : bequalMask (some [1#8, 2#8, 3#8]) (some [1#8, 2#8]) none (2 : Nat) = .ok false := by decide

/-! ## C25: an expected frame matches itself -/

/-- **C25** (comparison part): a frame matches itself under any mask. -/
theorem C25_self_match (b : Buf) (mask : Option Buf) : bequalMask (some b) (some b) mask 0 = .ok true := by
  obtain ⟨r, h1, h2⟩ := bequalMask_zero b b mask
  rw [h1, h2.mpr ⟨rfl, fun _ _ => rfl⟩]

/-! ## C26: equality and copies -/

/-- **C26.** Comparing two buffers tells whether they are the same (a missing buffer equals only a missing one);
clones and copies of fields, headers and frames are equal to the originals. Values are immutable in the model, so
independence of the copies is built in. -/
theorem C26_equal_and_copies :
    (∀ a b : Option Buf, ∃ r, bequal a b = .ok r ∧ (r = true ↔ a = b)) ∧
    (∀ a : Option Buf, bequal (bclone a) a = .ok true) ∧
    (∀ f : Field, fieldCopy f = f) ∧ (∀ h : Hdr, hdrCopy h = h) ∧ (∀ f : Frame, frameCopy f = f) := by
  have h1 : ∀ a b : Option Buf, ∃ r, bequal a b = .ok r ∧ (r = true ↔ a = b) := by
    intro a b
    cases a with
    | none => cases b <;> exact ⟨_, rfl, by simp⟩
    | some a =>
      cases b with
      | none => exact ⟨_, rfl, by simp⟩
      | some b =>
        unfold bequal
        simp only
        split
        · rename_i hl
          refine ⟨false, rfl, ?_⟩
          simp only [Bool.false_eq_true, Option.some.injEq, false_iff]
          rintro rfl
          exact hl rfl
        · rename_i hl
          unfold memcmpEq
          rw [if_pos (by omega)]
          refine ⟨_, rfl, ?_⟩
          have e : List.length a = List.length b := by omega
          rw [beq_iff_eq, List.take_length, e, List.take_length]
          simp
  have hb : ∀ a : Option Buf, bclone a = a := by intro a; cases a <;> rfl
  have h3 : ∀ f : Field, fieldCopy f = f := by intro f; unfold fieldCopy; simp [hb]
  have h4 : ∀ h : Hdr, hdrCopy h = h := by
    intro h
    unfold hdrCopy
    have : h.fields.map fieldCopy = h.fields := by
      have e : fieldCopy = id := funext h3
      rw [e, List.map_id]
    rw [this]
  refine ⟨h1, ?_, h3, h4, ?_⟩
  · intro a
    obtain ⟨r, h, h'⟩ := h1 (bclone a) a
    rw [h, h'.mpr (hb a)]
  · intro f
    unfold frameCopy
    have e : hdrCopy = id := funext h4
    rw [e, List.map_id]

example : bequal (some [1#8, 2#8]) (some [1#8, 3#8]) = .ok false ∧ bequal none (some []) = .ok false := by decide

/-! ## C21: ignored fields -/

/-- **C21, full statement**: for every frame accepted on the command line, a received frame that differs from the
generated one only in the bits of an ignored field matches. -/
def C21_statement : Prop :=
  ∀ (argv : List CStr) (n : Nat) (f f' : Frame) (b m : Buf), argcFrame argv = .ok (some (n, f)) →
    frameToBuf f = .ok (f', b) → frameMaskToBuf f' = .ok m →
    ∀ pre x post, f'.stack = pre ++ x :: post → ∀ g ∈ x.fields, g.rxSkip = true →
    ∀ rx : Buf, rx.length = b.length →
      (∀ i, ¬ (8 * totalSize pre + g.offset ≤ i ∧ i < 8 * totalSize pre + g.offset + g.width) → bit rx i = bit b i) →
      bequalMask (some rx) (some b) (some m) 0 = .ok true

/-- **C21, the part that holds**: the claim for fields that share no bit with a field that is not ignored. Missing:
overlay fields, where it is false (`C21_false`). That 'FIELD ign' marks the field is `C22`. -/
theorem C21_ignored_field_partial (f f' : Frame) (b m : Buf) (_h : frameToBuf f = .ok (f', b))
    (hm : frameMaskToBuf f' = .ok m) (hfit : ∀ x ∈ f'.stack, HdrFitsMask x)
    (pre : List Hdr) (x : Hdr) (post : List Hdr) (hs : f'.stack = pre ++ x :: post)
    (g : Field) (hg : g.offset + g.width ≤ 8 * x.size)
    (hdis : ∀ k ∈ x.fields, k.rxSkip = false → ∀ i, ¬ (covers g i ∧ covers k i))
    (rx : Buf) (hl : rx.length = b.length)
    (hrx : ∀ i, ¬ (8 * totalSize pre + g.offset ≤ i ∧ i < 8 * totalSize pre + g.offset + g.width) →
      bit rx i = bit b i) :
    bequalMask (some rx) (some b) (some m) 0 = .ok true := by
  obtain ⟨r, h1, h2⟩ := bequalMask_zero rx b (some m)
  rw [h1]
  congr 1
  rw [h2]
  refine ⟨hl, fun i hc => ?_⟩
  apply hrx
  rintro ⟨hi1, hi2⟩
  obtain ⟨m', hm', hlen, hbits, _⟩ := C20_mask_bits f' hfit
  rw [hm] at hm'
  simp only [Out.ok.injEq] at hm'
  subst hm'
  have ht : totalSize f'.stack = totalSize pre + (x.size + totalSize post) := by
    rw [hs]; simp [totalSize]
  have hbit := hc (by omega)
  have := (hbits pre x post hs (i - 8 * totalSize pre) (by omega)).mp (by
    rw [show 8 * totalSize pre + (i - 8 * totalSize pre) = i by omega]; exact hbit)
  obtain ⟨k, hk, hks, hkc⟩ := this
  exact hdis k hk hks (i - 8 * totalSize pre) ⟨by unfold covers; omega, hkc⟩

/-- Result of parsing and serialising a command line, for concrete checks. -/
def built (argv : List CStr) : Option (Nat × Frame × Frame × Buf × Buf) :=
  match argcFrame argv with
  | .ok (some (n, f)) =>
    match frameToBuf f with
    | .ok (f', b) =>
      match frameMaskToBuf f' with
      | .ok m => some (n, f, f', b, m)
      | _ => none
    | _ => none
  | _ => none

theorem built_some {argv n f f' b m} (h : built argv = some (n, f, f', b, m)) :
    argcFrame argv = .ok (some (n, f)) ∧ frameToBuf f = .ok (f', b) ∧ frameMaskToBuf f' = .ok m := by
  unfold built at h
  split at h
  · rename_i h1
    split at h
    · rename_i h2
      split at h
      · rename_i h3
        simp only [Option.some.injEq, Prod.mk.injEq] at h
        obtain ⟨rfl, rfl, rfl, rfl, rfl⟩ := h
        exact ⟨h1, h2, h3⟩
      · simp at h
    · simp at h
  · simp at h

/-- The hypotheses of `C21_ignored_field_partial` are met by the `pcp` field in `eth ctag vid 100 pcp ign`. -/
example : ∃ f f' b m pre x post g, frameToBuf f = .ok (f', b) ∧ frameMaskToBuf f' = .ok m ∧
    (∀ x ∈ f'.stack, HdrFitsMask x) ∧ f'.stack = pre ++ x :: post ∧ g ∈ x.fields ∧ g.rxSkip = true ∧ g.width = 3 ∧
    g.offset + g.width ≤ 8 * x.size ∧
    (∀ k ∈ x.fields, k.rxSkip = false → ∀ i, ¬ (covers g i ∧ covers k i)) := by
  have hd : (built [c!"eth", c!"ctag", c!"vid", c!"100", c!"pcp", c!"ign"]).any (fun r =>
      (r.2.2.1.stack.all fun x => decide (0 < x.size) && x.fields.all fun f => decide (f.width ≤ 8 * x.size) &&
        decide (f.offset + f.width ≤ 8 * x.size) && decide (f.width < 2 ^ 60)) &&
      r.2.2.1.stack.any fun x => x.fields.any fun g => g.rxSkip && g.width == 3 &&
        x.fields.all fun k => k.rxSkip || decide (k.offset + k.width ≤ g.offset) || decide (g.offset + g.width ≤ k.offset))
      = true := by decide +kernel
  rw [Option.any_eq_true] at hd
  obtain ⟨⟨n, f, f', b, m⟩, h1, h2⟩ := hd
  simp only [Bool.and_eq_true, Bool.or_eq_true, List.any_eq_true, List.all_eq_true, beq_iff_eq, decide_eq_true_eq] at h2
  obtain ⟨hfit, x, hx, g, hg, ⟨hg1, hg2⟩, hg3⟩ := h2
  obtain ⟨_, e1, e2⟩ := built_some h1
  obtain ⟨pre, post, hs⟩ := List.append_of_mem hx
  refine ⟨f, f', b, m, pre, x, post, g, e1, e2, ?_, hs, hg, hg1, hg2, ((hfit x hx).2 g hg).1.2, ?_⟩
  · exact fun y hy => Or.inr ⟨(hfit y hy).1, fun q hq =>
      ⟨((hfit y hy).2 q hq).1.1, fun _ => ((hfit y hy).2 q hq).1.2, ((hfit y hy).2 q hq).2⟩⟩
  · intro k hk hks i ⟨c1, c2⟩
    have := hg3 k hk
    rw [hks] at this
    unfold covers at c1 c2
    rcases this with (h | h) | h
    · simp at h
    · omega
    · omega

/-- **C21 does not hold** for overlay fields: in `ifh-oc1 b0-masq ign` bit 1 of the header is still compared,
because the alternative layout's field `b1-rew-mac` covers it too. -/
theorem C21_false : ¬ C21_statement := by
  intro h
  have hb : ∃ n f f' b m, built [c!"ifh-oc1", c!"b0-masq", c!"ign"] = some (n, f, f', b, m) ∧
      (∃ x, f'.stack = [] ++ x :: [] ∧ ∃ g ∈ x.fields, g.rxSkip = true ∧ g.offset = 1 ∧ g.width = 1) ∧
      b = zeros 60 ∧
      bequalMask (some (0x40#8 :: zeros 59)) (some b) (some m) 0 = .ok false := by
    have hd : (built [c!"ifh-oc1", c!"b0-masq", c!"ign"]).any (fun r =>
        r.2.2.1.stack.length == 1 &&
        (r.2.2.1.stack.any fun x => x.fields.any fun g => g.rxSkip && g.offset == 1 && g.width == 1) &&
        r.2.2.2.1 == zeros 60 &&
        decide (bequalMask (some (0x40#8 :: zeros 59)) (some r.2.2.2.1) (some r.2.2.2.2) 0 = .ok false)) = true := by
      decide +kernel
    rw [Option.any_eq_true] at hd
    obtain ⟨⟨n, f, f', b, m⟩, h1, h2⟩ := hd
    simp only [Bool.and_eq_true, List.any_eq_true, beq_iff_eq, decide_eq_true_eq] at h2
    obtain ⟨⟨⟨hl, x, hx, g, hg, ⟨hg1, hg2⟩, hg3⟩, hb⟩, hr⟩ := h2
    refine ⟨n, f, f', b, m, h1, ⟨x, ?_, g, hg, hg1, hg2, hg3⟩, hb, hr⟩
    obtain ⟨y, hy⟩ := List.length_eq_one_iff.mp hl
    rw [hy] at hx ⊢
    rw [List.mem_singleton] at hx
    rw [hx]
    rfl
  obtain ⟨n, f, f', b, m, h1, ⟨x, hx, g, hg, hg1, hg2, hg3⟩, hb, hr⟩ := hb
  obtain ⟨h2, h3, h4⟩ := built_some h1
  have := h _ n f f' b m h2 h3 h4 [] x [] hx g hg hg1 (0x40#8 :: zeros 59) (by rw [hb]; rfl) (by
    intro i hi
    rw [hb, hg2, hg3] at *
    simp only [totalSize, List.map_nil, List.sum_nil] at hi
    by_cases h8 : i < 8
    · have : i = 0 ∨ i = 2 ∨ i = 3 ∨ i = 4 ∨ i = 5 ∨ i = 6 ∨ i = 7 := by omega
      rcases this with rfl | rfl | rfl | rfl | rfl | rfl | rfl <;> rfl
    · have e1 : (0x40#8 :: zeros 59 : Buf) = [0x40#8] ++ zeros 59 := rfl
      have e2 : (zeros 60 : Buf) = [0#8] ++ zeros 59 := rfl
      rw [e1, e2, bit_append, bit_append, if_neg (by simpa using h8), if_neg (by simpa using h8)]
      rfl)
  rw [hr] at this
  simp at this

end Ef.Props
