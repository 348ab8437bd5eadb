import Verif.Lemmas.RelaxFill
import Verif.Lemmas.Built
import Verif.Props.Match

/-!
# Property C85: expectations which ignore values of the sent frame
-/

namespace Ef.Props

open Ef Spec

/-- **C85, full statement.** Take the words of a frame, replace some values by `ign` and ignore further fields. The
frame of the original words is then accepted by an expectation of the new words. -/
def C85_statement : Prop :=
  ∀ argv argv' f f' b g g' e m, Relaxed argv argv' → Sent argv f f' b → Sent argv' g g' e →
    argcFrame argv = .ok (some (argv.length, f)) → argcFrame argv' = .ok (some (argv'.length, g)) →
    frameMaskToBuf g' = .ok m → bequalMask (some b) (some e) (some m) 0 = .ok true

/-- **C85, the part that holds**: it holds for headers of a fixed size if no ignored field shares bits with a compared
one and nothing that is ignored goes into a checksum that is compared. Missing: the headers in `flexible`, ignored
fields which overlap compared ones, and checksums over ignored values (false, see `C85_false`). -/
theorem C85_ignored_values_partial {argv argv' : List CStr} {f f' g g' : Frame} {b e : Buf} (hr : Relaxed argv argv')
    (hs : Sent argv f f' b) (hs' : Sent argv' g g' e)
    (hn : argcFrame argv = .ok (some (argv.length, f))) (hn' : argcFrame argv' = .ok (some (argv'.length, g)))
    (hflex : ∀ x ∈ g.stack, x.name ∉ flexible)
    (hsep : ∀ x ∈ g'.stack, ∀ p ∈ x.fields, ∀ q ∈ x.fields, p.rxSkip = true → q.rxSkip = false →
      ∀ i, covers p i → ¬ covers q i)
    (hchk : ∀ pre x post pre' x' post', f.stack = pre ++ x :: post → g.stack = pre' ++ x' :: post' →
      pre.length = pre'.length → ChecksumSafe pre x post pre' x' post') :
    ∃ m, frameMaskToBuf g' = .ok m ∧ bequalMask (some b) (some e) (some m) 0 = .ok true := by
  -- the frames as given by the user
  have hrel : All2 RelH f.stack g.stack := by
    have h1 := hn
    have h2 := hn'
    unfold argcFrame at h1 h2
    split at h1
    · simp at h1
    split at h2
    · simp at h2
    exact lock_frame frameStackMax argv.length argv'.length {} {} f g 0 0 argv argv' hr (Nat.le_refl _) (Nat.le_refl _) .nil
      (by simpa using h1) (by simpa using h2) hflex
  -- completed
  have hrel' : All2 RelH f'.stack g'.stack :=
    relax_stack hrel .nil (fun y hy => ⟨hs'.inst y hy, hflex y hy⟩)
      (fun l x post l' x' post' a1 a2 a3 => by simpa using hchk l x post l' x' post' a1 a2 a3)
      (frameToBuf_stack hs.bytes).1 (frameToBuf_stack hs'.bytes).1
  have hnames : ∀ x ∈ f.stack, x.name ∉ flexible := by
    intro x hx
    obtain ⟨y, hy, r⟩ := hrel.mem_left hx
    rw [← r.name]; exact hflex y hy
  have tame : ∀ x : Hdr, x.name ∉ flexible → Tame x := by
    intro x hx
    refine ⟨fun c => absurd ?_ hx, fun c => absurd ?_ hx⟩ <;> (rw [c]; decide)
  have hB : Built argv f f' b := ⟨hs, fun x hx => tame x (hnames x hx)⟩
  have hB' : Built argv' g g' e := ⟨hs', fun x hx => tame x (hflex x hx)⟩
  have hmask : ∀ y ∈ g'.stack, HdrFitsMask y := by
    intro y hy
    have hlen := hs'.goods.2.1
    obtain ⟨i, hi, rfl⟩ := List.mem_iff_getElem.mp hy
    have hi' : i < g.stack.length := by omega
    have hx := hflex _ (List.getElem_mem hi')
    refine (hB'.res i g.stack[i] _ (List.getElem?_eq_getElem hi') (List.getElem?_eq_getElem hi)).mask ?_ ?_ ?_ <;>
      (intro c; apply hx; rw [c]; decide)
  obtain ⟨m, hm, _, hm1, _⟩ := C20_mask_bits g' hmask
  refine ⟨m, hm, ?_⟩
  have c := C15_frame_bytes f f' b hs.bytes hB.fits
  have c' := C15_frame_bytes g g' e hs'.bytes hB'.fits
  have htot := relax_totalSize hrel'
  have hlen : b.length = e.length := by rw [c.2, c'.2, htot]
  have hml := C19_mask_length g g' e m hs'.bytes hm
  obtain ⟨r, h1, h2⟩ := bequalMask_zero b e (some m)
  rw [h1, h2.mpr ⟨hlen, ?_⟩]
  intro i hi
  by_cases hin : i < 8 * totalSize g'.stack
  · obtain ⟨pre', x', post', j, hst, rfl, hj⟩ := locate _ _ hin
    -- the same header of the sent frame
    obtain ⟨pre, x, post, hst0, hpre, r⟩ := All2.at_right pre' (hst ▸ hrel')
    have b1 := frame_bit f f' b hs.bytes hB.fits pre post x hst0 j (by rw [← r.size]; exact hj)
    have b2 := frame_bit g g' e hs'.bytes hB'.fits pre' post' x' hst j hj
    rw [relax_totalSize hpre] at b1
    have hbit : bit m (8 * totalSize pre' + j) = true := by
      apply hi
      rw [hml, c'.2]
      omega
    obtain ⟨q0, hq0, hq1, hq2⟩ := (hm1 pre' x' post' hst j hj).mp hbit
    rw [b1, b2]
    refine relax_wireBit r.fields fun q hq hcov => ?_
    cases hsk : q.rxSkip with
    | false => rfl
    | true => exact absurd hq2 (hsep x' (by rw [hst]; simp) q hq q0 hq0 hsk hq1 j hcov)
  · rw [c.1, c'.1, bit_append, bit_append, flatten_hdrBytes_length, flatten_hdrBytes_length, htot, if_neg hin, if_neg hin]

theorem ChecksumSafe.of_settled {pre x post pre' x' post'} (h1 : x'.name ≠ c!"icmp")
    (h2 : x'.name ∈ [c!"ipv4", c!"udp", c!"tcp"] → Settled x') : ChecksumSafe pre x post pre' x' post' :=
  ⟨fun c => Or.inl (h2 (by simp [c])), fun c => Or.inl (h2 (by
    rcases c with c | c | c
    · simp [c]
    · simp [c]
    · exact absurd c h1)), fun c => absurd c h1⟩

/-- The sender's words. -/
def relaxTx : List CStr :=
  [c!"eth", c!"dmac", c!"::7", c!"ipv4", c!"sip", c!"1.2.3.4", c!"dip", c!"5.6.7.8", c!"udp", c!"dport", c!"99"]

/-- Two values are ignored, and so are the checksums and a further field. -/
def relaxRx : List CStr :=
  [c!"eth", c!"dmac", c!"ign", c!"smac", c!"ign", c!"ipv4", c!"chksum", c!"ign", c!"sip", c!"ign", c!"dip", c!"5.6.7.8",
   c!"udp", c!"chksum", c!"ign", c!"dport", c!"99"]

/-- All conditions on these two lines of words. -/
def relaxCheck : Bool :=
  match built relaxTx, built relaxRx with
  | some (n, _, _, b, _), some (n', g, g', e, k) =>
    n == relaxTx.length && n' == relaxRx.length && b != e && decide (bequalMask (some b) (some e) (some k) 0 = .ok true) &&
    decide (∀ x ∈ g.stack, x.name ∉ flexible) &&
    decide (∀ x ∈ g.stack, x.name ≠ c!"icmp" ∧ (x.name ∈ [c!"ipv4", c!"udp", c!"tcp"] → Settled x)) &&
    decide (∀ x ∈ g'.stack, ∀ p ∈ x.fields, ∀ q ∈ x.fields, p.rxSkip = true → q.rxSkip = false →
      p.offset + p.width ≤ q.offset ∨ q.offset + q.width ≤ p.offset)
  | _, _ => false

/-- The conditions of `C85_ignored_values_partial` can be met, with ignored values, a compared value, checksums and
different frames. -/
example : ∃ f f' b g g' e m, Sent relaxTx f f' b ∧ Sent relaxRx g g' e ∧ Relaxed relaxTx relaxRx ∧ b ≠ e ∧
    argcFrame relaxTx = .ok (some (relaxTx.length, f)) ∧ argcFrame relaxRx = .ok (some (relaxRx.length, g)) ∧
    (∀ x ∈ g.stack, x.name ∉ flexible) ∧
    (∀ x ∈ g'.stack, ∀ p ∈ x.fields, ∀ q ∈ x.fields, p.rxSkip = true → q.rxSkip = false → ∀ i, covers p i → ¬ covers q i) ∧
    (∀ pre x post pre' x' post', f.stack = pre ++ x :: post → g.stack = pre' ++ x' :: post' →
      pre.length = pre'.length → ChecksumSafe pre x post pre' x' post') ∧
    frameMaskToBuf g' = .ok m ∧ bequalMask (some b) (some e) (some m) 0 = .ok true := by
  have h : relaxCheck = true := by decide +kernel
  unfold relaxCheck at h
  split at h
  · rename_i n f f' b m n' g g' e k e1 e2
    simp only [Bool.and_eq_true, beq_iff_eq, bne_iff_ne, decide_eq_true_eq] at h
    obtain ⟨⟨⟨⟨⟨⟨rfl, rfl⟩, hne⟩, heq⟩, hfl⟩, hset⟩, hsep⟩ := h
    obtain ⟨a1, a2, a3⟩ := built_some e1
    obtain ⟨b1, b2, b3⟩ := built_some e2
    refine ⟨f, f', b, g, g', e, k, ⟨by unfold ShortWords; decide, ⟨_, a1⟩, a2⟩, ⟨by unfold ShortWords; decide, ⟨_, b1⟩, b2⟩,
      ?_, hne, a1, b1, hfl, ?_, ?_, b3, heq⟩
    · refine .word _ (by decide) (.value (by decide +kernel) (by decide +kernel) (.extra (by decide +kernel) (.word _ (by decide)
        (.extra (by decide +kernel) (.value (by decide +kernel) (by decide +kernel) ?_)))))
      exact .word _ (by decide) (.word _ (by decide) (.word _ (by decide) (.extra (by decide +kernel)
        (.word _ (by decide) (.word _ (by decide) .nil)))))
    · intro x hx p hp q hq h1 h2 i c1 c2
      have := hsep x hx p hp q hq h1 h2
      unfold covers at c1 c2
      omega
    · intro pre x post pre' x' post' _ h2 _
      have := hset x' (by rw [h2]; simp)
      exact ChecksumSafe.of_settled this.1 this.2
  · simp at h

/-- The words for which the expectation fails. -/
def relaxBad : Bool :=
  match built [c!"eth", c!"ipv4", c!"sip", c!"1.2.3.4"], built [c!"eth", c!"ipv4", c!"sip", c!"ign"] with
  | some (n, _, _, b, _), some (n', _, _, e, k) =>
    n == 4 && n' == 4 && decide (bequalMask (some b) (some e) (some k) 0 = .ok false)
  | _, _ => false

/-- **C85 does not hold**: `eth ipv4 sip ign` does not accept `eth ipv4 sip 1.2.3.4`, as the checksum is still
compared. -/
theorem C85_false : ¬ C85_statement := by
  intro hC
  have h : relaxBad = true := by decide +kernel
  unfold relaxBad at h
  split at h
  · rename_i n f f' b m n' g g' e k e1 e2
    simp only [Bool.and_eq_true, beq_iff_eq, decide_eq_true_eq] at h
    obtain ⟨⟨rfl, rfl⟩, heq⟩ := h
    obtain ⟨a1, a2, a3⟩ := built_some e1
    obtain ⟨b1, b2, b3⟩ := built_some e2
    have := hC _ _ f f' b g g' e k (.word _ (by decide) (.word _ (by decide) (.value (by decide +kernel) (by decide +kernel) .nil)))
      ⟨by unfold ShortWords; decide, ⟨_, a1⟩, a2⟩ ⟨by unfold ShortWords; decide, ⟨_, b1⟩, b2⟩ a1 b1 b3
    rw [heq] at this
    simp at this
  · simp at h

end Ef.Props
