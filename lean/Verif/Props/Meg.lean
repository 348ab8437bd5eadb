import Verif.Props.Values
import Verif.Props.Defaults

/-!
# Property C116: the maintenance entity group id of `oam-ccm`
-/

namespace Ef.Props

open Ef Spec

/-- A hex string has an even number of digits behind its first character, or is a delimiter first; none is `ign` or `ignore`. -/
theorem hexText_not_ign {v : CStr} {bs : Buf} (h : HexText v bs) : ¬ IgnWord v := by
  have nd : ∀ {c : Byte} {d : Nat}, Digit c d → c ≠ ch!"i" := by
    intro c d h
    cases h with
    | dec d hd => have : ∀ d : Nat, d < 10 → BitVec.ofNat 8 (48 + d) ≠ ch!"i" := by decide
                  exact this d hd
    | lower d h1 h2 => have : ∀ d : Nat, d < 16 → BitVec.ofNat 8 (87 + d) ≠ ch!"i" := by decide
                       exact this d (by omega)
    | upper d h1 h2 => have : ∀ d : Nat, d < 16 → BitVec.ofNat 8 (55 + d) ≠ ch!"i" := by decide
                       exact this d (by omega)
  rintro (rfl | rfl) <;>
    (cases h with
     | delim hd _ => revert hd; unfold Delim; decide
     | pair h1 _ _ => exact nd h1 rfl)

/-- Where the field is. -/
theorem meg_field : (findField HDR_CCM c!"meg_id").map (fun f => (f.offset, f.width, f.parser, f.dflt)) =
    some (8 * 10, 384, .fieldHex, none) ∧ disjB HDR_CCM = true ∧ HDR_CCM.size = 78 := by decide +kernel

/-- The bytes that a text denotes as a maintenance entity group id: at most 48 bytes in hex, zeros behind them. -/
inductive MegText : CStr → Buf → Prop
  | mk {v : CStr} {bs : Buf} : HexText v bs → bs ≠ [] → bs.length ≤ 48 → MegText v (bs ++ zeros (48 - bs.length))

theorem MegText.length {v : CStr} {w : Buf} (h : MegText v w) : w.length = 48 := by
  obtain ⟨h1, h2, h3⟩ := h
  simp only [List.length_append, zeros, List.length_replicate]
  omega

theorem parseFieldHex_meg {v : CStr} {w : Buf} (h : MegText v w) : parseFieldHex v 48 = .ok (some w) := by
  obtain ⟨h1, h2, h3⟩ := h
  unfold parseFieldHex
  rw [(C09_hex_strings v 0).1 _ h1 h2, Out.ok_bind]
  simp only [Nat.zero_sub, zeros, List.replicate_zero, List.append_nil]
  rw [if_neg (by omega), if_neg (by omega)]
  rfl

theorem parseFieldHex_other {v : CStr} (h : ¬ ∃ w, MegText v w) : parseFieldHex v 48 = .ok none := by
  unfold parseFieldHex
  by_cases hx : ∃ b, b ≠ [] ∧ HexText v b
  · obtain ⟨b, h1, h2⟩ := hx
    rw [(C09_hex_strings v 0).1 _ h2 h1, Out.ok_bind]
    simp only [Nat.zero_sub, zeros, List.replicate_zero, List.append_nil]
    rw [if_pos]
    have : ¬ b.length ≤ 48 := fun hl => h ⟨_, .mk h2 h1 hl⟩
    omega
  · rw [(C09_hex_strings v 0).2 hx, Out.ok_bind]

/-- **C116**: the 48 bytes of `meg_id` in an `oam-ccm` header are the bytes of the text given last, with zeros behind them. A text
that is not such a text (no hex string, or more than 48 bytes) and no text at all give 48 zeros (if the headers in front stay inside
their own bytes, see C16). -/
theorem C116_meg_id {argv pre rest lead : List CStr} {f0 f f' : Frame} {b : Buf} {as : List (CStr × CStr)}
    (hA : Assigned argv pre f0 HDR_CCM lead as rest) (hB : Sent argv f f' b)
    {hp hq hp' hq' : List Hdr} {x x' : Hdr} (ha : At f f' hp x hq hp' x' hq') (hpos : hp.length = f0.stack.length)
    {v : CStr} (hl : lastOf as c!"meg_id" = some v) :
    (∀ w, MegText v w → slice b (totalSize hp' + 10) 48 = w) ∧
    ((¬ ∃ w, MegText v w) → (∀ y ∈ hp, Tame y) → slice b (totalSize hp' + 10) 48 = zeros 48) := by
  obtain ⟨h1, hdj, h78⟩ := meg_field
  obtain ⟨ft, hft, h1⟩ := Option.map_eq_some_iff.mp h1
  simp only [Prod.mk.injEq] at h1
  obtain ⟨q1, q2, q3, q4⟩ := h1
  obtain ⟨l1, l2, hs⟩ := sep_of_disj hdj hft
  have hne : as ≠ [] := by rintro rfl; simp [lastOf] at hl
  have hsz := wire_size hA hB (by decide) ha hpos hne
  have hlong := hB.long ha
  have hsl : slice b (totalSize hp' + 10) 48 = beBytes 48 (numAt b (8 * totalSize hp' + ft.offset) ft.width) := by
    unfold slice
    rw [slice_eq b _ _ (by omega), show 8 * (totalSize hp' + 10) = 8 * totalSize hp' + ft.offset by omega, show 8 * 48 = ft.width by omega]
  have hpv : parseVal ft v = parseFieldHex v 48 := by unfold parseVal; rw [q3, q2]; rfl
  rw [hsl]
  constructor
  · intro w hw
    have hni : ¬ IgnWord v := by
      obtain ⟨h1, _, _⟩ := hw
      exact hexText_not_ign h1
    obtain ⟨o', e1, e2, e3⟩ := wire_value hA hB (by decide) ha hpos hs.split (by rw [hs.name]; exact hs.fresh) (by
      intro k hk i hc
      have := hs.after k hk
      unfold covers at hc
      omega) (by rw [hs.name]; exact hl) hni
    rw [hpv, parseFieldHex_meg hw] at e1
    rw [e3 _ (Out.ok.inj e1).symm, q2, show 2 ^ 384 = 256 ^ 48 by decide, beBytes_mod]
    have := beBytes_beNat w
    rw [hw.length] at this
    exact this
  · intro hw ht
    have hg : given x c!"meg_id" = none := by
      obtain ⟨n, hn⟩ := hB.parsed
      rw [hA.words] at hn
      obtain ⟨e1, e2⟩ := asgn_header hA.pre hA.tmpl hA.kind hA.fresh hA.lead hA.plain hA.stop (Or.inr hne) hn
      have hx := at_header ha hpos e1
      obtain ⟨_, g2⟩ := asgn_given (tmpl_vals _ hA.tmpl) (lead := lead) e2 c!"meg_id"
      rw [hx]
      by_cases hi : IgnWord v
      · exact (g2 v hl).1 hi
      · have := (g2 v hl).2 hi ft hft
        rw [hpv, parseFieldHex_other hw] at this
        exact (Out.ok.inj this).symm
    have hinst : Inst HDR_CCM x := by
      obtain ⟨n, hn⟩ := hB.parsed
      rw [hA.words] at hn
      obtain ⟨e1, e2⟩ := asgn_header hA.pre hA.tmpl hA.kind hA.fresh hA.lead hA.plain hA.stop (Or.inr hne) hn
      have hx := at_header ha hpos e1
      have hnm : x.name = c!"oam-ccm" := by rw [hx, (assignAll_fill as lead HDR_CCM).2]; rfl
      obtain ⟨u, hu, u', hv, hi, hty⟩ := (hB.place ha).inst
      have hun : u.name = HDR_CCM.name := by rw [← variant_name hv, ← hi.name]; exact hnm
      have : u = HDR_CCM := tmpl_name_inj u hu _ hA.tmpl hun
      subst this
      generalize hG : HDR_CCM = G at hv
      cases hv with
      | same => exact hi
      | coap k => exact absurd (congrArg Hdr.name hG) (by decide +kernel)
      | pnet k => exact absurd (congrArg Hdr.name hG) (by decide +kernel)
      | opt => exact absurd (congrArg Hdr.name hG) (by decide +kernel)
      | parms => exact absurd (congrArg Hdr.name hG) (by decide +kernel)
      | data => exact absurd (congrArg Hdr.name hG) (by decide +kernel)
    have hr0 : ¬ Reshapes x.fill := by rw [hinst.fill]; exact (reshaped_table _ hA.tmpl (by decide)).1
    have hg' : given x' c!"meg_id" = none := by
      rw [← hg]
      exact fillHdr_other hr0 (by rw [hinst.fill]; decide) x' (hB.place ha).filled
    have := field_on_wire hB ha hinst hr0 hs (by omega) (fun _ _ => ht)
    rw [this, hg']
    have : numOf ft none = 0 := by unfold numOf; rw [q4]; rfl
    rw [this]
    decide +kernel

/-- Non-vacuity: two bytes; the rest is zero. -/
example : MegText c!"12-3f" ([0x12#8, 0x3f#8] ++ zeros 46) :=
  .mk (HexText.pair (Digit.dec 1 (by decide)) (Digit.dec 2 (by decide))
    (HexText.delim (Or.inr (Or.inr (Or.inl rfl)))
      (HexText.pair (Digit.dec 3 (by decide)) (Digit.lower 15 (by decide) (by decide)) HexText.nil))) (by simp) (by decide)

example : holdsAt [c!"eth", c!"oam-ccm", c!"meg_id", c!"12-3f"] 1 (fun _ _ b _ _ pre' _ =>
      decide (slice b (totalSize pre' + 10) 48 = [0x12#8, 0x3f#8] ++ zeros 46)) = true ∧
    holdsAt [c!"eth", c!"oam-ccm", c!"meg_id", c!"1"] 1 (fun _ _ b _ _ pre' _ =>
      decide (slice b (totalSize pre' + 10) 48 = zeros 48)) = true := by
  constructor <;> decide +kernel

end Ef.Props
