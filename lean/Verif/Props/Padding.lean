import Verif.Lemmas.PaddingExact
import Verif.Props.Names
import Verif.Spec.Command
import Verif.Spec.Run

/-!
# Properties of trailing padding (C91)
-/

namespace Ef.Props

open Ef Ef.Spec

/-! ## C91: `padding N` -/

/-- The words `ws'` describe the same bytes and the same mask as the words `ws`, followed by `n` ignored bytes. -/
def OnlyPads (ws ws' : List CStr) (n : Nat) : Prop :=
  ∀ f b m, FrameWords ws f b m → ∃ f', FrameWords ws' f' b m ∧
    ∀ (c : Cmd) (x : Buf), Wants { c with frame := some f', buf := some b, mask := m } x ↔ MatchesPadded x b m n

/-- **C91, full statement.** Behind the words of a frame, `padding N` adds nothing but `N` ignored bytes to it. -/
def C91_statement : Prop :=
  ∀ (ws : List CStr) (f0 : Frame) (s : CStr) (n : Nat), ShortWords ws → argcFrame ws = .ok (some (ws.length, f0)) →
    (∀ h, f0.stack.getLast? = some h → (h.name, c!"padding") ∉ nameClashes) → Literal s n → n < 2 ^ 31 →
    ws.length + 2 ≤ 100 → OnlyPads ws (ws ++ [c!"padding", s]) n

/-- The headers which announce the header behind them, with the field. -/
def announcers : List (CStr × CStr) := [(c!"eth", c!"et"), (c!"ctag", c!"et"), (c!"stag", c!"et"), (c!"rtag", c!"et"),
  (c!"htag", c!"et"), (c!"ipv4", c!"proto"), (c!"ipv6", c!"next")]

theorem announcer_table : ∀ t ∈ hdrTmpls, (t.fill = .etherType → (t.name, c!"et") ∈ announcers) ∧
    (t.fill = .ipv4 → (t.name, c!"proto") ∈ announcers) ∧ (t.fill = .ipv6 → (t.name, c!"next") ∈ announcers) := by
  decide +kernel

theorem announcer_inst {y : Hdr} (h : IsInst y) : (y.fill = .etherType → (y.name, c!"et") ∈ announcers) ∧
    (y.fill = .ipv4 → (y.name, c!"proto") ∈ announcers) ∧ (y.fill = .ipv6 → (y.name, c!"next") ∈ announcers) := by
  obtain ⟨t, ht, t', hv, hi, _⟩ := h
  rw [hi.fill, hi.name]
  cases hv with
  | same => exact announcer_table t ht
  | coap k _ => simp [coapShape]
  | pnet k _ => simp [pnetShape]
  | opt k m _ _ _ => simp [optShape]
  | parms k _ => simp [parmsShape]
  | data k _ => simp [dataShape]

theorem notField_of_clash {ws : List CStr} {f0 : Frame} {t : Hdr} (hpre : argcFrame ws = .ok (some (ws.length, f0)))
    (ht : t ∈ hdrTmpls) (hc : ∀ h, f0.stack.getLast? = some h → (h.name, t.name) ∉ nameClashes) : NotField f0 t.name := by
  intro h hh g hg
  obtain ⟨_, u, hu1, hu2, hu3⟩ := argcFrame_shaped hpre h (List.mem_of_getLast? hh)
  have := hc h hh
  rw [hu3] at this
  obtain ⟨i, hi, e⟩ := List.getElem_of_mem hg
  have hn := names_at hu2 i
  rw [List.getElem?_eq_getElem hi, e] at hn
  cases hgu : u.fields[i]? with
  | none => rw [hgu] at hn; simp at hn
  | some gu =>
    rw [hgu] at hn
    simp only [Option.map_some, Option.some.injEq] at hn
    rw [hn]
    exact clash_table u hu1 t ht this gu (List.mem_of_getElem? hgu)

/-- **C91, the part that holds**: `padding N` adds `N` ignored bytes and changes nothing else if the last header does not
announce its successor or its announcement is given. A number from 2^31 on makes the expectation one that no frame
fulfils. Missing: a last header `eth`, `ctag`, `stag`, `rtag`, `htag`, `ipv4` or `ipv6` without explicit
announcement. -/
theorem C91_padding_partial (ws : List CStr) (f0 : Frame) (s : CStr) (n : Nat)
    (hsw : ShortWords ws) (hpre : argcFrame ws = .ok (some (ws.length, f0)))
    (hcl : ∀ h, f0.stack.getLast? = some h → (h.name, c!"padding") ∉ nameClashes) (hs : Literal s n) (hn : n < 2 ^ 32)
    (hl : ws.length + 2 ≤ 100)
    (hq : ∀ h, f0.stack.getLast? = some h → ∀ p ∈ announcers, h.name = p.1 → given h p.2 ≠ none) :
    (n < 2 ^ 31 → OnlyPads ws (ws ++ [c!"padding", s]) n) ∧
    (2 ^ 31 ≤ n → ∀ f b m, FrameWords (ws ++ [c!"padding", s]) f b m →
      ∀ (c : Cmd) (x : Buf), ¬ Wants { c with frame := some f, buf := some b, mask := m } x) := by
  have hpad : HDR_PADDING ∈ hdrTmpls := by decide +kernel
  have hname : HDR_PADDING.name = c!"padding" := by decide +kernel
  have hend : NotField f0 c!"padding" := by
    have := notField_of_clash hpre hpad (by rw [hname]; exact hcl)
    rw [hname] at this
    exact this
  have hw := pad_words hpre hend hs hn (by unfold frameStackMax; exact hl)
  have hquiet : ∀ x, f0.stack.getLast? = some x → Quiet x := by
    intro x hx
    obtain ⟨a1, a2, a3⟩ := announcer_inst (argcFrame_inst hsw hpre x (List.mem_of_getLast? hx))
    exact ⟨fun h => hq x hx _ (a1 h) rfl, fun h => hq x hx _ (a2 h) rfl, fun h => hq x hx _ (a3 h) rfl⟩
  constructor
  · rintro hn31 f b m ⟨hne, g0, h1, h2, h3⟩
    rw [hpre] at h1
    cases h1
    unfold frameToBuf at h2
    rw [Out.bind_eq_ok] at h2
    obtain ⟨st, h4, h2⟩ := h2
    rw [Out.bind_eq_ok] at h2
    obtain ⟨b', h5, h2⟩ := h2
    cases h2
    refine ⟨⟨st ++ [HDR_PADDING], u32ToInt n, f0.hasMask⟩, ⟨by simp, _, by simpa using hw, ?_, ?_⟩, ?_⟩
    · unfold frameToBuf
      simp only
      rw [pad_fillStack _ hquiet h4, Out.ok_bind, pad_copy]
      unfold frameSize at h5 ⊢
      rw [pad_sum, h5]
      rfl
    · rcases h3 with h3 | ⟨h3, x, h6, h7⟩
      · exact Or.inl h3
      · refine Or.inr ⟨h3, x, h6, ?_⟩
        unfold frameMaskToBuf frameSize at h7 ⊢
        simp only at h7 ⊢
        rw [pad_copy, pad_sum]
        exact h7
    · intro c x
      have hu : u32ToInt n = n := by unfold u32ToInt; rw [if_pos hn31]
      constructor
      · rintro ⟨e, f', e1, e2, _, e4⟩
        cases e1
        cases e2
        rw [hu] at e4
        simpa using e4
      · intro hx
        refine ⟨b, _, rfl, rfl, ?_, ?_⟩
        · rw [hu]; exact Int.natCast_nonneg n
        · rw [hu]; simpa using hx
  · rintro hn31 f b m ⟨_, g0, h1, h2, _⟩ c x ⟨e, f', e1, e2, e3, _⟩
    cases e2
    rw [hw] at h1
    simp only [Out.ok.injEq, Option.some.injEq, Prod.mk.injEq] at h1
    obtain ⟨_, rfl⟩ := h1
    unfold frameToBuf at h2
    rw [Out.bind_eq_ok] at h2
    obtain ⟨st, _, h2⟩ := h2
    rw [Out.bind_eq_ok] at h2
    obtain ⟨b', _, h2⟩ := h2
    cases h2
    simp only at e3
    unfold u32ToInt at e3
    rw [if_neg (by omega)] at e3
    omega

/-- **C91, for all frames**: `padding N` behind the words of a frame adds `N` ignored bytes, and a last header `eth`, `ctag`,
`stag`, `rtag`, `htag`, `ipv4` or `ipv6` without explicit announcement announces 0; nothing else changes. -/
theorem C91_exactly (ws : List CStr) (f0 : Frame) (s : CStr) (n : Nat)
    (hsw : ShortWords ws) (hpre : argcFrame ws = .ok (some (ws.length, f0)))
    (hcl : ∀ h, f0.stack.getLast? = some h → (h.name, c!"padding") ∉ nameClashes) (hs : Literal s n) (hn : n < 2 ^ 31)
    (hl : ws.length + 2 ≤ 100) (b : Buf) (m : Option Buf) :
    ((∃ f, FrameWords (ws ++ [c!"padding", s]) f b m) ↔ Gives { f0 with stack := zeroLast f0.stack } b m) ∧
    (∀ f, FrameWords (ws ++ [c!"padding", s]) f b m →
      ∀ (c : Cmd) (x : Buf), Wants { c with frame := some f, buf := some b, mask := m } x ↔ MatchesPadded x b m n) := by
  have hpad : HDR_PADDING ∈ hdrTmpls := by decide +kernel
  have hname : HDR_PADDING.name = c!"padding" := by decide +kernel
  have hend : NotField f0 c!"padding" := by
    have := notField_of_clash hpre hpad (by rw [hname]; exact hcl)
    rw [hname] at this
    exact this
  have hw := pad_words hpre hend hs (by omega : n < 2 ^ 32) (by unfold frameStackMax; exact hl)
  have hu : u32ToInt n = n := by unfold u32ToInt; rw [if_pos hn]
  have hst := pad_fillStack_exact (fun x hx => argcFrame_inst hsw hpre x hx) []
  have hlen : (ws ++ [c!"padding", s]).length = ws.length + 2 := by simp
  have hbuf : frameToBuf ⟨f0.stack ++ [HDR_PADDING], u32ToInt n, f0.hasMask⟩ =
      (frameToBuf { f0 with stack := zeroLast f0.stack } >>= fun p =>
        .ok (⟨p.1.stack ++ [HDR_PADDING], u32ToInt n, f0.hasMask⟩, p.2)) := by
    unfold frameToBuf
    simp only
    rw [hst]
    cases hr : fillStack [] (zeroLast f0.stack) with
    | ok st =>
      simp only [Out.ok_bind]
      rw [pad_copy]
      unfold frameSize
      rw [pad_sum]
      cases copyHdrs false st 0 (balloc (if sumSizes st < 60 then 60 else sumSizes st)) <;> rfl
    | ub u => rfl
    | abort => rfl
    | exit c => rfl
  have hmask : ∀ st : List Hdr, frameMaskToBuf ⟨st ++ [HDR_PADDING], u32ToInt n, f0.hasMask⟩ =
      frameMaskToBuf { f0 with stack := st } := by
    intro st
    unfold frameMaskToBuf frameSize
    simp only
    rw [pad_copy, pad_sum]
  have hstack : ∀ f, frameToBuf { f0 with stack := zeroLast f0.stack } = .ok f → f.1 = { f0 with stack := f.1.stack } := by
    intro f hf
    unfold frameToBuf at hf
    rw [Out.bind_eq_ok] at hf
    obtain ⟨st, _, hf⟩ := hf
    rw [Out.bind_eq_ok] at hf
    obtain ⟨b', _, hf⟩ := hf
    cases hf
    rfl
  refine ⟨⟨?_, ?_⟩, ?_⟩
  · rintro ⟨f, _, g0, h1, h2, h3⟩
    rw [hw, hlen] at h1
    cases h1
    rw [hbuf, Out.bind_eq_ok] at h2
    obtain ⟨p, h4, h2⟩ := h2
    have hp := hstack p h4
    cases h2
    refine ⟨p.1, h4, ?_⟩
    rcases h3 with ⟨h3, rfl⟩ | ⟨h3, x, rfl, h5⟩
    · exact .inl ⟨by rw [hp]; exact h3, rfl⟩
    · refine .inr ⟨by rw [hp]; exact h3, x, rfl, ?_⟩
      rw [hp, ← hmask]
      exact h5
  · rintro ⟨f, h2, h3⟩
    have hp : f = { f0 with stack := f.stack } := hstack _ h2
    refine ⟨⟨f.stack ++ [HDR_PADDING], u32ToInt n, f0.hasMask⟩, by simp, _, by rw [hw, hlen], ?_, ?_⟩
    · rw [hbuf, h2]; rfl
    · rcases h3 with ⟨h3, rfl⟩ | ⟨h3, x, rfl, h5⟩
      · exact .inl ⟨by rw [hp] at h3; exact h3, rfl⟩
      · refine .inr ⟨by rw [hp] at h3; exact h3, x, rfl, ?_⟩
        rw [hmask]
        rw [hp] at h5
        exact h5
  · rintro f ⟨_, g0, h1, h2, _⟩ c x
    rw [hw, hlen] at h1
    cases h1
    rw [hbuf, Out.bind_eq_ok] at h2
    obtain ⟨p, _, h2⟩ := h2
    cases h2
    constructor
    · rintro ⟨e, f', e1, e2, _, e4⟩
      cases e1
      cases e2
      rw [hu] at e4
      simpa using e4
    · intro hx
      refine ⟨_, _, rfl, rfl, ?_, ?_⟩
      · rw [hu]; exact Int.natCast_nonneg n
      · rw [hu]; simpa using hx

/-- The bytes and the mask of the words, if they are all used. -/
def wordBytes (ws : List CStr) : Option Buf :=
  match argcFrame ws with
  | .ok (some (n, f)) => if n = ws.length then (match frameToBuf f with | .ok (g, b) => if g.hasMask then none else some b | _ => none) else none
  | _ => none

theorem wordBytes_some {ws : List CStr} {b : Buf} (hne : ws ≠ []) (h : wordBytes ws = some b) :
    ∃ f, FrameWords ws f b none := by
  unfold wordBytes at h
  split at h
  · rename_i n f hf
    split at h
    · rename_i hn
      subst hn
      split at h
      · rename_i g b' hg
        split at h
        · simp at h
        · rename_i hm
          cases h
          exact ⟨g, hne, f, hf, hg, Or.inl ⟨by simpa using hm, rfl⟩⟩
      · simp at h
    · simp at h
  · simp at h

theorem frameWords_det {ws : List CStr} {f g : Frame} {b b' : Buf} {m m' : Option Buf} (h : FrameWords ws f b m)
    (h' : FrameWords ws g b' m') : b = b' := by
  obtain ⟨_, f0, h1, h2, _⟩ := h
  obtain ⟨_, g0, h3, h4, _⟩ := h'
  rw [h1] at h3
  cases h3
  rw [h2] at h4
  cases h4
  rfl

/-- `eth dmac ::1 padding 4` and `eth dmac ::1` differ in the Ethernet type. -/
theorem eth_padding : (wordBytes [c!"eth", c!"dmac", c!"::1"]).isSome = true ∧
    (wordBytes [c!"eth", c!"dmac", c!"::1", c!"padding", c!"4"]).isSome = true ∧
    wordBytes [c!"eth", c!"dmac", c!"::1"] ≠ wordBytes [c!"eth", c!"dmac", c!"::1", c!"padding", c!"4"] := by decide +kernel

/-- Non-vacuity of `C91_exactly`: the type announced by `eth`, the protocol announced by `ipv4` become 0. -/
example : wordBytes [c!"eth", c!"dmac", c!"::1", c!"padding", c!"4"] = wordBytes [c!"eth", c!"dmac", c!"::1", c!"et", c!"0"] ∧
    wordBytes [c!"ipv4", c!"padding", c!"4"] = wordBytes [c!"ipv4", c!"proto", c!"0"] ∧
    wordBytes [c!"ipv4", c!"padding", c!"4"] ≠ wordBytes [c!"ipv4"] := by decide +kernel

/-- **C91 does not hold**: `eth dmac ::1 padding 4` expects the Ethernet type 0 in place of 0xaaaa. -/
theorem C91_false : ¬ C91_statement := by
  intro h
  obtain ⟨h1, h2, h3⟩ := eth_padding
  obtain ⟨b, hb⟩ := Option.isSome_iff_exists.mp h1
  obtain ⟨b', hb'⟩ := Option.isSome_iff_exists.mp h2
  obtain ⟨f, hf⟩ := wordBytes_some (by simp) hb
  obtain ⟨f', hf'⟩ := wordBytes_some (by simp) hb'
  obtain ⟨_, f0, e1, _⟩ := id hf
  have hlast : ∀ h, f0.stack.getLast? = some h → (h.name, c!"padding") ∉ nameClashes := by
    have key : parsedB [c!"eth", c!"dmac", c!"::1"] (fun _ f => match f.stack.getLast? with
      | some h => decide ((h.name, c!"padding") ∉ nameClashes) | none => true) = true := by decide +kernel
    obtain ⟨k, g, e2, e3⟩ := parsed_of key
    rw [e1] at e2
    cases e2
    intro h hh
    rw [hh] at e3
    simpa using e3
  have hlit : Literal c!"4" 4 := .dec _ _ (.snoc [] 0 _ 4 .nil (.dec 4 (by decide)) (by decide))
  obtain ⟨g, hg, _⟩ := h _ f0 c!"4" 4 (by decide +kernel) e1 hlast hlit (by decide) (by decide) f b none hf
  rw [hb, hb'] at h3
  exact h3 (congrArg some (frameWords_det hg hf'))

/-- Non-vacuity: `eth ipv4 udp padding 0x10` describes the bytes of `eth ipv4 udp`, and a frame with 16 more bytes is
expected. -/
example : (wordBytes [c!"eth", c!"ipv4", c!"udp"]).isSome = true ∧
    wordBytes [c!"eth", c!"ipv4", c!"udp", c!"padding", c!"0x10"] = wordBytes [c!"eth", c!"ipv4", c!"udp"] ∧
    parsedB [c!"eth", c!"ipv4", c!"udp", c!"padding", c!"0x10"] (fun n f => n == 5 && f.padding == 16) = true ∧
    parsedB [c!"eth", c!"ipv4", c!"udp"] (fun _ f => match f.stack.getLast? with
      | some h => h.name == c!"udp" && decide (∀ p ∈ announcers, h.name ≠ p.1) && decide ((h.name, c!"padding") ∉ nameClashes)
      | none => false) = true := by decide +kernel

/-- With the Ethernet type given, `padding` does not change it. -/
example : wordBytes [c!"eth", c!"et", c!"0xaaaa", c!"padding", c!"4"] = wordBytes [c!"eth"] ∧
    (wordBytes [c!"eth"]).isSome = true := by decide +kernel

end Ef.Props
