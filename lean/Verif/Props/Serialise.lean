import Verif.Lemmas.Wild
import Verif.Model.Args

/-!
# Properties C12, C13, C15, C17, C18, C19, C20: from fields to bytes
-/

namespace Ef.Props

open Ef Spec

/-! ## C12, C13: writing one field -/

/-- **C12.** Writing a field that lies inside the buffer, from a value at least as wide as the field, succeeds,
keeps the length, sets the bits of the field to the low-order bits of the value, and leaves every other bit
alone. Positions are counted from the start of the buffer; the header starts at byte `offset`. -/
theorem C12_write_field_exact (b : Buf) (offset : Nat) (f : Field) (val : Buf)
    (hb : 8 * offset + f.offset + f.width ≤ 8 * b.length) (hw : f.width ≤ 8 * val.length)
    (hv : 8 * val.length < 2 ^ 64) :
    ∃ b', writeField b offset f val = .ok b' ∧ b'.length = b.length ∧
      (∀ k, k < f.width → bit b' (8 * offset + f.offset + k) = bit val (8 * val.length - f.width + k)) ∧
      (∀ i, (i < 8 * offset + f.offset ∨ 8 * offset + f.offset + f.width ≤ i) → bit b' i = bit b i) := by
  obtain ⟨b', e, l, g⟩ := writeField_ok b offset f val (by omega) hw hv
  refine ⟨b', e, l, fun k hk => ?_, fun i hi => ?_⟩
  · rw [g, if_pos (by omega)]; congr 1; omega
  · rw [g, if_neg (by omega)]

/-- **C12** (outside the buffer): a field that does not lie inside the buffer is never written, the program
stops at an assertion. -/
theorem C12_write_field_outside_aborts (b : Buf) (offset : Nat) (f : Field) (val : Buf)
    (hb : 8 * b.length < 8 * offset + f.offset + f.width) : writeField b offset f val = .abort :=
  writeField_abort b offset f val (by omega)

/-- The hypotheses of C12 are met by a 4 bit field across a byte boundary of the second header byte. -/
example : ∃ b', writeField [1#8, 2#8, 3#8, 4#8] 1 { name := [], width := 4, offset := 6 } [0xab#8] = .ok b' ∧
    b'.length = 4 := by
  obtain ⟨b', e, l, _⟩ := C12_write_field_exact [1#8, 2#8, 3#8, 4#8] 1 { name := [], width := 4, offset := 6 }
    [0xab#8] (by decide) (by decide) (by decide)
  exact ⟨b', e, l⟩

/-- **C13.** Reading the field back as an unsigned number gives the number denoted by the value modulo
`2 ^ width`. -/
theorem C13_read_back (b : Buf) (offset : Nat) (f : Field) (val : Buf)
    (hb : 8 * offset + f.offset + f.width ≤ 8 * b.length) (hw : f.width ≤ 8 * val.length)
    (hv : 8 * val.length < 2 ^ 64) :
    ∃ b', writeField b offset f val = .ok b' ∧
      numAt b' (8 * offset + f.offset) f.width = beNat val % 2 ^ f.width := by
  obtain ⟨b', e, _, g, _⟩ := C12_write_field_exact b offset f val hb hw hv
  refine ⟨b', e, ?_⟩
  rw [← numAt_low val f.width hw]
  exact numAt_congr g

example : ∃ b', writeField [0xff#8, 0xff#8] 0 { name := [], width := 12, offset := 3 } [0x12#8, 0x34#8, 0x56#8] = .ok b' ∧
    numAt b' 3 12 = 0x123456 % 2 ^ 12 := by
  obtain ⟨b', e, h⟩ := C13_read_back [0xff#8, 0xff#8] 0 { name := [], width := 12, offset := 3 }
    [0x12#8, 0x34#8, 0x56#8] (by decide) (by decide) (by decide)
  exact ⟨b', e, h⟩

/-! ## C15: a frame is the concatenation of its headers -/

/-- **C15.** If, after the defaults have been computed, all headers keep their written fields inside, then the
frame consists of the bytes of its headers in stack order (each determined by that header alone), followed by
zero bytes up to 60, and has length `max 60 (sum of header sizes)`. -/
theorem C15_frame_bytes (f f' : Frame) (b : Buf) (h : frameToBuf f = .ok (f', b))
    (hf : ∀ x ∈ f'.stack, HdrFits x) :
    b = (f'.stack.map hdrBytes).flatten ++ zeros (60 - totalSize f'.stack) ∧
      b.length = max 60 (totalSize f'.stack) := by
  unfold frameToBuf at h
  rw [Out.bind_eq_ok] at h
  obtain ⟨st, h1, h2⟩ := h
  rw [Out.bind_eq_ok] at h2
  obtain ⟨b1, h2, h3⟩ := h2
  simp only [Out.ok.injEq, Prod.mk.injEq] at h3
  obtain ⟨rfl, rfl⟩ := h3
  simp only at hf ⊢
  rw [totalSize_eq]
  have key := copyHdrs_ok false st [] (zeros (60 - sumSizes st)) (fun x hx => (hf x hx).fits)
  simp only [List.nil_append, List.length_nil] at key
  have e : balloc (frameSize st) = zeros (sumSizes st) ++ zeros (60 - sumSizes st) := by
    rw [← zeros_append]
    unfold frameSize balloc zeros
    congr 1
    split <;> omega
  rw [e, key] at h2
  simp only [Out.ok.injEq] at h2
  have e2 : st.map (render false) = st.map hdrBytes := by
    apply List.map_congr_left; intro x _; exact render_wire x
  rw [e2] at h2
  refine ⟨h2.symm, ?_⟩
  rw [← h2, ← e2, List.length_append]
  have := renderAll_length false st
  unfold renderAll at this
  rw [this]
  simp only [zeros, List.length_replicate]
  omega

/-- Size of the bytes of one header. -/
theorem hdrBytes_length (h : Hdr) : (hdrBytes h).length = h.size := packBits_length _ _

theorem flatten_hdrBytes_length (hs : List Hdr) : ((hs.map hdrBytes).flatten).length = totalSize hs := by
  induction hs with
  | nil => rfl
  | cons x hs ih => simp [totalSize, hdrBytes_length] at *; omega

/-- Bits of one header inside the frame. -/
theorem frame_bit (f f' : Frame) (b : Buf) (h : frameToBuf f = .ok (f', b)) (hf : ∀ x ∈ f'.stack, HdrFits x)
    (pre post : List Hdr) (x : Hdr) (hs : f'.stack = pre ++ x :: post) (i : Nat) (hi : i < 8 * x.size) :
    bit b (8 * totalSize pre + i) = wireBit x.fields i := by
  rw [(C15_frame_bytes f f' b h hf).1, hs]
  simp only [List.map_append, List.map_cons, List.flatten_append, List.flatten_cons, List.append_assoc]
  rw [bit_append, flatten_hdrBytes_length, if_neg (by omega), bit_append, hdrBytes_length]
  have : 8 * totalSize pre + i - 8 * totalSize pre = i := by omega
  rw [this, if_pos hi, hdrBytes, bit_packBits, if_pos hi]

/-! ## C18: overlays, C17: values appear -/

/-- **C18.** Bit `i` of a header inside the frame is decided by the last field in declaration order which has a
value and covers the bit (`l2` are the fields after it), and it is 0 if there is no such field. The header has to keep
its written fields inside of itself; for the zero bits the headers before it have to as well. -/
theorem C18_last_overlay_wins (f f' : Frame) (b : Buf) (h : frameToBuf f = .ok (f', b))
    (pre post : List Hdr) (x : Hdr) (hs : f'.stack = pre ++ x :: post) (hf : HdrFits x) (i : Nat) (hi : i < 8 * x.size) :
    (∀ l1 g l2 v, x.fields = l1 ++ g :: l2 → covers g i → fieldValue g = some v →
      (∀ k ∈ l2, covers k i → fieldValue k = none) → bit b (8 * totalSize pre + i) = valueBit g v i) ∧
    ((∀ y ∈ pre, HdrFits y) → (∀ k ∈ x.fields, covers k i → fieldValue k = none) → bit b (8 * totalSize pre + i) = false) := by
  constructor
  · intro l1 g l2 v hx hc hv hl2
    rw [frame_bit_own h hs hf hi (Or.inl ⟨g, by rw [hx]; simp, hc, by rw [hv]; rfl⟩)]
    unfold wireBit
    rw [hx, List.reverse_append, List.reverse_cons, List.append_assoc, List.find?_append]
    have : List.find? (fun f => decide (covers f i) && (fieldValue f).isSome) l2.reverse = none := by
      rw [List.find?_eq_none]
      intro k hk hcon
      simp only [Bool.and_eq_true, decide_eq_true_eq] at hcon
      have := hl2 k (List.mem_reverse.mp hk) hcon.1
      simp [this] at hcon
    rw [this]
    simp [hc, hv]
  · intro hp hn
    rw [frame_bit_own h hs hf hi (Or.inr hp)]
    unfold wireBit
    have : List.find? (fun f => decide (covers f i) && (fieldValue f).isSome) x.fields.reverse = none := by
      rw [List.find?_eq_none]
      intro k hk hcon
      simp only [Bool.and_eq_true, decide_eq_true_eq] at hcon
      have := hn k (List.mem_reverse.mp hk) hcon.1
      simp [this] at hcon
    rw [this]

/-- **C17.** A field that does not share bits with a later field having a value carries its value (given by the
user or computed, else its documented default) modulo its width; a field with neither a value nor a default, not
sharing bits with any field that has a value, carries zero. The header has to keep its written fields inside of
itself; for the zeros the headers before it have to as well. The user's value is still the field's value after the
default computation by C27. -/
theorem C17_values_appear (f f' : Frame) (b : Buf) (h : frameToBuf f = .ok (f', b))
    (pre post : List Hdr) (x : Hdr) (hs : f'.stack = pre ++ x :: post) (hf : HdrFits x)
    (l1 l2 : List Field) (g : Field) (hx : x.fields = l1 ++ g :: l2) :
    (∀ v, fieldValue g = some v →
      (∀ k ∈ l2, (fieldValue k).isSome → ∀ i, ¬ (covers g i ∧ covers k i)) →
      numAt b (8 * totalSize pre + g.offset) g.width = beNat v % 2 ^ g.width) ∧
    ((∀ y ∈ pre, HdrFits y) → fieldValue g = none → g.offset + g.width ≤ 8 * x.size →
      (∀ k ∈ x.fields, (fieldValue k).isSome → ∀ i, ¬ (covers g i ∧ covers k i)) →
      numAt b (8 * totalSize pre + g.offset) g.width = 0) := by
  constructor
  · intro v hv hdis
    have hin : g.width = 0 ∨ Inside x.size g v := by
      rcases hf with ⟨_, h0⟩ | ⟨_, h0⟩
      · exact Or.inl (h0 g (by rw [hx]; simp)).1
      · exact Or.inr ((h0 g (by rw [hx]; simp)).2 v hv)
    rcases hin with hw | ⟨h1, h2, h3⟩
    · rw [hw]; simp [numAt, bitsAt, bitsNat, Nat.mod_one]
    · rw [← numAt_low v g.width h2]
      apply numAt_congr
      intro k hk
      have := (C18_last_overlay_wins f f' b h pre post x hs hf (g.offset + k) (by omega)).1 l1 g l2 v hx
        (by unfold covers; omega) hv (by
          intro q hq hcq
          cases hqv : fieldValue q with
          | none => rfl
          | some w => exact absurd ⟨by unfold covers; omega, hcq⟩ (hdis q hq (by simp [hqv]) (g.offset + k)))
      rw [Nat.add_assoc, this]
      unfold valueBit
      congr 1; omega
  · intro hp hv hin hdis
    have : ∀ k < g.width, bit b (8 * totalSize pre + g.offset + k) = bit [] (0 + k) := by
      intro k hk
      have := (C18_last_overlay_wins f f' b h pre post x hs hf (g.offset + k) (by omega)).2 hp (by
          intro q hq hcq
          cases hqv : fieldValue q with
          | none => rfl
          | some w => exact absurd ⟨by unfold covers; omega, hcq⟩ (hdis q hq (by simp [hqv]) (g.offset + k)))
      rw [Nat.add_assoc, this]
      rfl
    rw [numAt_congr this]
    have hz : bitsAt [] 0 g.width = List.replicate g.width false := by
      unfold bitsAt
      rw [List.eq_replicate_iff]
      refine ⟨by simp, ?_⟩
      intro x hx
      simp only [List.mem_map] at hx
      obtain ⟨k, _, rfl⟩ := hx
      rfl
    unfold numAt
    rw [hz]
    generalize g.width = n
    induction n with
    | zero => rfl
    | succ n ih => simpa [List.replicate_succ, bitsNat] using ih

/-! ## C19, C20: the mask -/

theorem frameMask_length_aux (mask : Bool) (hs : List Hdr) : ∀ (off : Nat) (b b' : Buf),
    copyHdrs mask hs off b = .ok b' → b'.length = b.length := by
  have hset : ∀ (b b' : Buf) p v, bitSet b p v = .ok b' → b'.length = b.length := by
    intro b b' p v h
    unfold bitSet at h
    split at h
    · simp only [Out.ok.injEq] at h; rw [← h]; simp
    · simp at h
  have hloop : ∀ val dst src n pos (b b' : Buf), writeLoop val dst src n pos b = .ok b' → b'.length = b.length := by
    intro val dst src n
    induction n with
    | zero => intro pos b b' h; simp [writeLoop] at h; rw [h]
    | succ n ih =>
      intro pos b b' h
      unfold writeLoop at h
      rw [Out.bind_eq_ok] at h
      obtain ⟨v, _, h⟩ := h
      rw [Out.bind_eq_ok] at h
      obtain ⟨b1, h1, h⟩ := h
      rw [ih _ _ _ h, hset _ _ _ _ h1]
  have hfield : ∀ offset (fs : List Field) (b b' : Buf), copyFields mask offset fs b = .ok b' → b'.length = b.length := by
    intro offset fs
    induction fs with
    | nil => intro b b' h; simp [copyFields] at h; rw [h]
    | cons g fs ih =>
      intro b b' h
      unfold copyFields at h
      split at h
      · simp at h; rw [h]
      · split at h
        · rw [Out.bind_eq_ok] at h
          obtain ⟨b1, h1, h⟩ := h
          rw [ih _ _ h]
          unfold writeField at h1
          split at h1
          · exact hloop _ _ _ _ _ _ _ h1
          · simp at h1
        · exact ih _ _ h
  induction hs with
  | nil => intro off b b' h; simp [copyHdrs] at h; rw [h]
  | cons x hs ih =>
    intro off b b' h
    unfold copyHdrs at h
    rw [Out.bind_eq_ok] at h
    obtain ⟨b1, h1, h⟩ := h
    rw [ih _ _ _ h]
    exact hfield _ _ _ _ h1

/-- **C19.** Whenever a frame and its mask are produced, both have the same number of bytes. -/
theorem C19_mask_length (f f' : Frame) (b m : Buf) (h : frameToBuf f = .ok (f', b))
    (hm : frameMaskToBuf f' = .ok m) : m.length = b.length := by
  unfold frameToBuf at h
  rw [Out.bind_eq_ok] at h
  obtain ⟨st, h1, h2⟩ := h
  rw [Out.bind_eq_ok] at h2
  obtain ⟨b1, h2, h3⟩ := h2
  simp only [Out.ok.injEq, Prod.mk.injEq] at h3
  obtain ⟨rfl, rfl⟩ := h3
  rw [frameMask_length_aux _ _ _ _ _ h2]
  unfold frameMaskToBuf at hm
  rw [frameMask_length_aux _ _ _ _ _ hm]
  simp only [balloc, List.length_append, List.length_replicate, frameSize]
  split <;> omega

/-- **C20.** If the fields of all headers stay inside, the mask can be built; the mask bit at a position of header
`x` is 1 exactly if some field of `x` that is not ignored covers the position; in the padding after the last
header all mask bits are 1. -/
theorem C20_mask_bits (f : Frame) (hf : ∀ x ∈ f.stack, HdrFitsMask x) :
    ∃ m, frameMaskToBuf f = .ok m ∧ m.length = max 60 (totalSize f.stack) ∧
      (∀ pre x post, f.stack = pre ++ x :: post → ∀ i, i < 8 * x.size →
        (bit m (8 * totalSize pre + i) = true ↔ ∃ g ∈ x.fields, g.rxSkip = false ∧ covers g i)) ∧
      (∀ i, 8 * totalSize f.stack ≤ i → i < 8 * m.length → bit m i = true) := by
  have key := copyHdrs_ok true f.stack [] (List.replicate (60 - sumSizes f.stack) 0xff#8)
    (fun x hx => (hf x hx).fits)
  simp only [List.nil_append, List.length_nil] at key
  have hlen := renderAll_length true f.stack
  have e : (f.stack.map (render true)).flatten = renderAll true f.stack := rfl
  have htot : frameSize f.stack - sumSizes f.stack = 60 - sumSizes f.stack := by
    unfold frameSize; split <;> omega
  refine ⟨renderAll true f.stack ++ List.replicate (60 - sumSizes f.stack) 0xff#8, ?_, ?_, ?_, ?_⟩
  · unfold frameMaskToBuf
    rw [← e]
    simp only [htot]
    exact key
  · rw [List.length_append, hlen, totalSize_eq, List.length_replicate]; omega
  · intro pre x post hs i hi
    have : renderAll true f.stack = renderAll true pre ++ (render true x ++ renderAll true post) := by
      rw [hs]; simp [renderAll]
    rw [this, List.append_assoc, bit_append, renderAll_length, totalSize_eq, if_neg (by omega), List.append_assoc,
      bit_append, render_length]
    have : 8 * sumSizes pre + i - 8 * sumSizes pre = i := by omega
    rw [this, if_pos hi, render_mask, hdrMask, bit_packBits, if_pos hi]
    simp [maskBit]
  · intro i h1 h2
    rw [List.length_append, hlen, List.length_replicate] at h2
    rw [totalSize_eq] at h1
    rw [bit_append, hlen, if_neg (by omega), bit_ones, decide_eq_true_eq]
    omega

/-! ## A concrete frame meets the hypotheses -/

/-- `eth dmac ::1 ctag vid 100 ign`-like frame used as a non-trivial instance. -/
def sample : Frame :=
  match argcFrame [c!"eth", c!"dmac", c!"::1", c!"ctag", c!"vid", c!"100", c!"pcp", c!"ign"] with
  | .ok (some (_, f)) => f
  | _ => {}

instance (size : Nat) (f : Field) (v : Buf) : Decidable (Inside size f v) := inferInstanceAs (Decidable (_ ∧ _ ∧ _))

/-- Decision procedure for `HdrFits`. -/
def hdrFitsB (h : Hdr) : Bool :=
  (h.size == 0 && h.fields.all (fun f => f.width == 0 && f.offset == 0)) ||
    (decide (0 < h.size) && h.fields.all (fun f => decide (f.width ≤ 8 * h.size) &&
      match fieldValue f with
      | some v => decide (Inside h.size f v)
      | none => true))

theorem hdrFitsB_iff (h : Hdr) : hdrFitsB h = true → HdrFits h := by
  intro hb
  unfold hdrFitsB at hb
  simp only [Bool.or_eq_true, Bool.and_eq_true, List.all_eq_true, decide_eq_true_eq, beq_iff_eq] at hb
  rcases hb with ⟨h1, h2⟩ | ⟨h1, h2⟩
  · exact Or.inl ⟨h1, h2⟩
  · refine Or.inr ⟨h1, fun f hf => ⟨(h2 f hf).1, fun v hv => ?_⟩⟩
    have := (h2 f hf).2
    rw [hv] at this
    simpa using this

/-- C15, C17, C18, C19 apply to this frame. -/
example : ∃ f' b, frameToBuf sample = .ok (f', b) ∧ f'.stack.length = 2 ∧ ∀ x ∈ f'.stack, HdrFits x := by
  have h : ∃ f' b, frameToBuf sample = .ok (f', b) ∧ f'.stack.length = 2 ∧ f'.stack.all hdrFitsB = true := by
    refine ⟨(match frameToBuf sample with | .ok (f', _) => f' | _ => {}),
      (match frameToBuf sample with | .ok (_, b) => b | _ => []), ?_⟩
    decide +kernel
  obtain ⟨f', b, h1, h2, h3⟩ := h
  exact ⟨f', b, h1, h2, fun x hx => hdrFitsB_iff x (List.all_eq_true.mp h3 x hx)⟩

/-- C20 applies to this frame, which has an ignored field. -/
example : sample.hasMask = true ∧ ∀ x ∈ sample.stack, HdrFitsMask x := by
  refine ⟨by decide +kernel, ?_⟩
  have h : ∀ x ∈ sample.stack, 0 < x.size ∧ ∀ f ∈ x.fields, f.width ≤ 8 * x.size ∧
      (f.rxSkip = false → f.offset + f.width ≤ 8 * x.size) ∧ f.width < 2 ^ 60 := by decide +kernel
  exact fun x hx => Or.inr (h x hx)

end Ef.Props
