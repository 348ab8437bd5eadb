import Verif.Spec.Safe
import Verif.Lemmas.FillStack
import Verif.Props.Parse
import Verif.Lemmas.ValueText

/-! # Parsing does not crash on sane command lines -/

namespace Ef

open Spec

/-! ## Texts -/

theorem parseBytesHex_ends {d : CStr} {n : Nat} (h : d.length ≤ 2 * n) : ∃ r, parseBytesHex d n = .ok r := by
  unfold parseBytesHex
  simp only
  split
  · exact ⟨_, rfl⟩
  · rename_i h1
    split
    · exact ⟨_, rfl⟩
    · rename_i h2
      simp only [Bool.or_eq_true, decide_eq_true_eq, not_or] at h1
      obtain ⟨bs, hbs⟩ := hexScan_sound (s := d) (by simpa using h1.1) (by simpa using h2)
      have hl := hexText_length hbs
      have e : balloc n = zeros (n - bs.length) ++ zeros bs.length ++ [] := by
        rw [List.append_nil, ← zeros_add]
        unfold balloc zeros
        congr 1
        omega
      have e2 : ((n : Int) - (((hexScan d).cnt / 2 : Nat) : Int)) = ((zeros (n - bs.length)).length : Nat) := by
        rw [hexScan_text hbs]
        simp only [zeros, List.length_replicate]
        omega
      rw [e, e2, hexWrite_text hbs _ _ _ rfl, Out.ok_bind]
      exact ⟨_, rfl⟩

theorem numeral2_of_bits (d : CStr) (h : ∀ c ∈ d, isBit c = true) : ∃ n, Numeral 2 d n := by
  rcases List.eq_nil_or_concat d with rfl | ⟨s, c, rfl⟩
  · exact ⟨0, Numeral.nil⟩
  · obtain ⟨n, hn⟩ := numeral2_of_bits s (fun x hx => h x (by simp [hx]))
    have hc := h c (by simp)
    have key : ∀ c : Byte, isBit c = true → ∃ k, k < 2 ∧ hexDigit c = some k := by decide +kernel
    obtain ⟨k, hk, hd⟩ := key c hc
    exact ⟨_, by rw [List.concat_eq_append]; exact Numeral.snoc s n c k hn ((digit_iff c k).2 hd) hk⟩
  termination_by d.length
  decreasing_by simp_all

theorem parseBytesBinary_ends {d : CStr} {n : Nat} (h : d.length ≤ 8 * n) : ∃ r, parseBytesBinary d n = .ok r := by
  by_cases hb : ∀ c ∈ d, isBit c = true
  · obtain ⟨k, hk⟩ := numeral2_of_bits d hb
    by_cases hd : d = []
    · subst hd; exact ⟨_, rfl⟩
    · by_cases hm : d.length % 8 = 0
      · exact ⟨_, parseBytesBinary_fits hk n hd hm (by omega)⟩
      · exact ⟨_, parseBytesBinary_misaligned hk n hm⟩
  · unfold parseBytesBinary
    have : d.any (fun c => !isBit c) = true := by
      rw [List.any_eq_true]
      by_cases hx : ∃ x ∈ d, (!isBit x) = true
      · exact hx
      · exact absurd (fun c hc => by
          cases e : isBit c with
          | true => rfl
          | false => exact absurd ⟨c, hc, by simp [e]⟩ hx) hb
    simp only [this, Bool.true_or, if_true]
    exact ⟨_, rfl⟩

theorem splitPrefix_x {s d : CStr} (h : splitPrefix s = (.x, d)) : s = c!"0x" ++ d := by
  unfold splitPrefix at h
  split at h
  · rename_i e
    simp only [Prod.mk.injEq, true_and] at h
    rw [← e, ← h, List.take_append_drop]
  · split at h
    · simp at h
    · split at h <;> simp at h

theorem splitPrefix_b {s d : CStr} (h : splitPrefix s = (.b, d)) : s = c!"0b" ++ d := by
  unfold splitPrefix at h
  split at h
  · simp at h
  · split at h
    · simp at h
    · split at h
      · rename_i e
        simp only [Prod.mk.injEq, true_and] at h
        rw [← e, ← h, List.take_append_drop]
      · simp at h

theorem numBase_x {p : Prefix} {d : CStr} (h : numBase p d = 16) : p = .x := by
  unfold numBase at h
  split at h
  · rename_i e; exact e.1
  · split at h
    · omega
    · split at h
      · omega
      · split at h <;> omega

theorem numBase_b {p : Prefix} {d : CStr} (h : numBase p d = 2) : p = .b := by
  unfold numBase at h
  split at h
  · omega
  · split at h
    · omega
    · split at h
      · omega
      · split at h
        · rename_i e; exact e.1
        · omega

/-- A text gives a value or is rejected, if it fits. -/
theorem parseBytes_ends {s : CStr} {n : Nat} (h : n ≤ 8 ∨ RoomFor s (8 * n)) : ∃ r, parseBytes s n = .ok r := by
  unfold parseBytes
  cases hs : splitPrefix s with
  | mk p d =>
    simp only
    split
    · split <;> exact ⟨_, rfl⟩
    · rename_i h1
      split
      · rename_i h2
        have hp := numBase_x h2
        subst hp
        have e := splitPrefix_x hs
        rcases h with h | h
        · exact absurd ⟨by omega, h⟩ h1
        · have := h.1 d e
          exact parseBytesHex_ends (by omega)
      · split
        · rename_i h2
          have hp := numBase_b h2
          subst hp
          have e := splitPrefix_b hs
          rcases h with h | h
          · exact absurd ⟨by omega, h⟩ h1
          · exact parseBytesBinary_ends (h.2 d e)
        · split
          · exact ⟨_, rfl⟩
          · split
            · obtain ⟨r, hr, _⟩ := parseMac_total d
              exact ⟨r, hr⟩
            · split <;> exact ⟨_, rfl⟩

theorem parseVarBytesHex_ends (s : CStr) (n : Nat) : ∃ r, parseVarBytesHex s n = .ok r := by
  by_cases h : ∃ bs, bs ≠ [] ∧ HexText s bs
  · obtain ⟨bs, h1, h2⟩ := h
    exact ⟨_, parseVarBytesHex_text h2 h1 n⟩
  · exact ⟨_, parseVarBytesHex_not_text h n⟩

theorem parseUint32_ends (s : CStr) : ∃ r, parseUint32 s = .ok r := by
  unfold parseUint32
  obtain ⟨r, hr⟩ := parseBytes_ends (s := s) (n := 4) (Or.inl (by omega))
  rw [hr, Out.ok_bind]
  cases r with
  | none => exact ⟨_, rfl⟩
  | some b =>
    have := parseBytes_length hr
    match b, this with
    | [a, b, c, d], _ => exact ⟨_, rfl⟩

theorem parseUint8_ends (s : CStr) : ∃ r, parseUint8 s = .ok r := by
  unfold parseUint8
  obtain ⟨r, hr⟩ := parseBytes_ends (s := s) (n := 1) (Or.inl (by omega))
  rw [hr, Out.ok_bind]
  cases r with
  | none => exact ⟨_, rfl⟩
  | some b =>
    have := parseBytes_length hr
    match b, this with
    | [a], _ => exact ⟨_, rfl⟩

theorem parseVarBytes1_ends (argv : List CStr) : ∃ r, parseVarBytes1 argv = .ok r := by
  unfold parseVarBytes1
  split
  · exact ⟨_, rfl⟩
  · rename_i w rest
    split
    · exact ⟨_, rfl⟩
    split
    · split
      · rename_i a l
        obtain ⟨r, hr⟩ := parseVarBytesHex_ends a 0
        rw [hr]; exact ⟨_, rfl⟩
      · exact ⟨_, rfl⟩
    split
    · split <;> exact ⟨_, rfl⟩
    split
    · split <;> exact ⟨_, rfl⟩
    split
    · split
      · rename_i a b l
        have : ∃ r, parseVarBytesRepeat a b = .ok r := by
          unfold parseVarBytesRepeat
          obtain ⟨r, hr⟩ := parseUint32_ends a
          rw [hr, Out.ok_bind]
          cases r with
          | none => exact ⟨_, rfl⟩
          | some n =>
            simp only
            obtain ⟨r, hr⟩ := parseUint8_ends b
            rw [hr, Out.ok_bind]
            cases r <;> exact ⟨_, rfl⟩
        obtain ⟨r, hr⟩ := this
        rw [hr]; exact ⟨_, rfl⟩
      · exact ⟨_, rfl⟩
    split
    · split
      · rename_i a b l
        have : ∃ r, parseVarBytesPattern a b = .ok r := by
          unfold parseVarBytesPattern
          obtain ⟨r, hr⟩ := parseUint32_ends b
          rw [hr, Out.ok_bind]
          cases r with
          | none => exact ⟨_, rfl⟩
          | some n =>
            simp only
            repeat' split
            all_goals exact ⟨_, rfl⟩
        obtain ⟨r, hr⟩ := this
        rw [hr]; exact ⟨_, rfl⟩
      · exact ⟨_, rfl⟩
    · exact ⟨_, rfl⟩

/-- Some bytes are stored if words were consumed. -/
theorem parseVarBytesLoop_ends (fuel : Nat) : ∀ (argv : List CStr) (i : Nat) (acc : Option Buf), (acc = none → i = 0) →
    ∃ r, parseVarBytesLoop fuel argv i acc = .ok r ∧ ∀ n, r = some (n, none) → n = 0 := by
  induction fuel with
  | zero =>
    intro argv i acc h
    refine ⟨_, rfl, fun n hn => ?_⟩
    simp only [Option.some.injEq, Prod.mk.injEq] at hn
    rw [← hn.1]; exact h hn.2
  | succ fuel ih =>
    intro argv i acc h
    have here : ∃ r, (Out.ok (some (i, acc)) : Out (Option (Nat × Option Buf))) = .ok r ∧ ∀ n, r = some (n, none) → n = 0 := by
      refine ⟨_, rfl, fun n hn => ?_⟩
      simp only [Option.some.injEq, Prod.mk.injEq] at hn
      rw [← hn.1]; exact h hn.2
    unfold parseVarBytesLoop
    split
    · exact here
    · obtain ⟨r, hr⟩ := parseVarBytes1_ends argv
      rw [hr, Out.ok_bind]
      cases r with
      | err => exact ⟨none, rfl, by simp⟩
      | stop => exact here
      | seg b used => exact ih _ _ _ (by simp)

theorem parseVarBytes_ends (argv : List CStr) :
    ∃ r, parseVarBytes argv = .ok r ∧ ∀ n, r = some (n, none) → n = 0 := parseVarBytesLoop_ends _ _ _ _ (by simp)

/-! ## Values of fields -/

theorem fixed_tables : ∀ t ∈ hdrTmpls, ∀ f ∈ t.fields, f.parser = .fieldHex → 4 ≤ bitToByte f.width := by decide +kernel

theorem wide_tables : ∀ t ∈ hdrTmpls, ∀ f ∈ t.fields, f.parser = .none → 64 < f.width → f.width % 8 = 0 := by decide +kernel

/-- Fields without a special parser are those of the template, or small. -/
theorem variant_plain {B : Nat} {t t' : Hdr} (hv : Variant B t t') (hp : t.parser = .fields) {f : Field} (hf : f ∈ t'.fields) :
    (f.parser = .none → f.multi = .none → 64 < f.width → f ∈ t.fields) ∧ (f.parser = .fieldHex → f ∈ t.fields) := by
  cases hv with
  | same => exact ⟨fun _ _ _ => hf, fun _ => hf⟩
  | coap k hk =>
    simp only [coapShape, List.mem_cons, List.not_mem_nil, or_false] at hf
    rcases hf with rfl | rfl | rfl | rfl | rfl | rfl <;> simp
  | pnet k hk =>
    simp only [pnetShape, List.mem_cons, List.not_mem_nil, or_false] at hf
    rcases hf with rfl | rfl | rfl | rfl | rfl | rfl | rfl | rfl | rfl | rfl | rfl | rfl <;> simp
  | opt k m _ _ _ =>
    simp only [optShape, List.mem_cons, List.not_mem_nil, or_false] at hf
    rcases hf with rfl | rfl <;> simp
  | parms k hk =>
    simp only [parmsShape, List.mem_cons, List.not_mem_nil, or_false] at hf
    subst hf; simp
  | data k hk => exact absurd hp (by decide +kernel)

theorem bitToByte_le {w : Nat} (h : w ≤ 64) : bitToByte w ≤ 8 := by unfold bitToByte; omega

theorem runFieldParser_ends {B : Nat} {t t' h : Hdr} {w v : CStr} {f : Field} (ht : t ∈ hdrTmpls) (hp : t.parser = .fields)
    (hv : Variant B t t') (hi : Inst t' h) (hf : findField h w = some f) (hm : ¬ (f.parser = .none ∧ f.multi ≠ .none))
    (hr : ∀ g ∈ t.fields, g.name = w → g.parser = .none → ¬ TooLong v (bitToByte g.width)) (h0 : Hdr) :
    ∃ r, runFieldParser h0 f v = .ok r := by
  obtain ⟨ft, hft, hfi⟩ := hi.find hf
  obtain ⟨hmem, hname⟩ := find_mem hft
  obtain ⟨p1, p2⟩ := variant_plain hv hp hmem
  have hpar := hfi.parser
  have hmul := hfi.multi
  have hwid := hfi.width
  unfold runFieldParser
  cases hfp : f.parser with
  | none =>
    have : ∃ r, parseBytes v (bitToByte f.width) = .ok r := by
      rcases parseBytes_outcomes v (bitToByte f.width) with h | ⟨x, h, _⟩ | ⟨_, h⟩
      · exact ⟨_, h⟩
      · exact ⟨_, h⟩
      · exfalso
        have h8 : 64 < f.width := by
          refine Classical.byContradiction fun hc => ?_
          have := bitToByte_le (w := f.width) (by omega)
          have := h.1
          omega
        have hm0 : f.multi = .none := by
          cases e : f.multi with
          | none => rfl
          | coapOptVal => exact absurd ⟨hfp, by rw [e]; simp⟩ hm
          | coapParms => exact absurd ⟨hfp, by rw [e]; simp⟩ hm
        have hft2 := p1 (by rw [← hpar, hfp]) (by rw [← hmul]; exact hm0) (by omega)
        rw [hwid] at h
        exact hr ft hft2 hname (by rw [← hpar, hfp]) h
    obtain ⟨r, hr⟩ := this
    simp only
    rw [hr]; exact ⟨_, rfl⟩
  | coapCode => exact ⟨_, rfl⟩
  | coapToken =>
    simp only
    unfold coapParseToken
    obtain ⟨r, hr⟩ := parseVarBytesHex_ends v 1
    rw [hr, Out.ok_bind]
    cases r with
    | none => exact ⟨_, rfl⟩
    | some b => simp only; split <;> exact ⟨_, rfl⟩
  | profinetData =>
    simp only
    unfold profinetDataParser
    obtain ⟨r, hr⟩ := parseVarBytesHex_ends v 40
    rw [hr, Out.ok_bind]
    cases r <;> exact ⟨_, rfl⟩
  | opcUint16 =>
    simp only
    have : ∃ r, opcParseUint16 v = .ok r := by
      unfold opcParseUint16
      obtain ⟨r, hr⟩ := parseBytes_ends (s := v) (n := 2) (Or.inl (by omega))
      rw [hr, Out.ok_bind]
      cases r with
      | none => exact ⟨_, rfl⟩
      | some b =>
        have := parseBytes_length hr
        match b, this with
        | [a, b], _ => exact ⟨_, rfl⟩
    obtain ⟨r, hr⟩ := this
    rw [hr]; exact ⟨_, rfl⟩
  | fieldHex =>
    simp only
    have hft2 := p2 (by rw [← hpar, hfp])
    have h4 := fixed_tables t ht ft hft2 (by rw [← hpar, hfp])
    have : ∃ r, parseFieldHex v (bitToByte f.width) = .ok r := by
      unfold parseFieldHex
      obtain ⟨r, hr⟩ := parseVarBytesHex_ends v 0
      rw [hr, Out.ok_bind]
      cases r with
      | none => exact ⟨_, rfl⟩
      | some b =>
        simp only
        split
        · exact ⟨_, rfl⟩
        · rw [hwid, if_neg (by omega)]; exact ⟨_, rfl⟩
    obtain ⟨r, hr⟩ := this
    rw [hr]; exact ⟨_, rfl⟩

theorem find_updField_self {h : Hdr} {n : CStr} {f : Field} (hf : findField h n = some f) (g : Field → Field)
    (hg : ∀ f, (g f).name = f.name) : findField (updField h n g) n = some (g f) := by
  rw [show findField (updField h n g) n = (findField h n).map g from ?_, hf]
  · rfl
  · unfold findField updField
    simp only
    clear hf
    induction h.fields with
    | nil => rfl
    | cons x xs ih =>
      unfold updFirst
      by_cases hx : (x.name == n) = true
      · rw [if_pos hx, find_pos _ hx, find_pos _ (by rw [hg]; exact hx)]
        rfl
      · rw [if_neg hx, find_neg _ hx, find_neg _ hx]
        exact ih

theorem optVal_ends {h : Hdr} {n : CStr} {f : Field} (hf : findField h n = some f) (argv : List CStr) :
    ∃ r, coapParseOptionValue h n argv = .ok r := by
  unfold coapParseOptionValue fieldParseMultiVarByte
  obtain ⟨r, hr, hz⟩ := parseVarBytes_ends argv
  rw [hr]
  simp only [Out.ok_bind]
  cases r with
  | none =>
    simp only [Out.ok_bind]
    rw [if_neg (by omega)]
    exact ⟨_, rfl⟩
  | some p =>
    obtain ⟨res, bo⟩ := p
    cases bo with
    | none =>
      have := hz res rfl
      simp only
      rw [if_neg (by omega)]
      simp only [Out.ok_bind]
      rw [if_neg (by omega)]
      exact ⟨_, rfl⟩
    | some b =>
      simp only
      by_cases hc : res > 1 ∧ res ≤ argv.length
      · rw [if_pos hc]
        simp only [Out.ok_bind]
        rw [if_pos hc]
        have : findField { updField h n (fun f => { f with val := some b, width := b.length * 8 }) with
            size := (updField h n (fun f => { f with val := some b, width := b.length * 8 })).size + b.length } n =
            some { f with val := some b, width := b.length * 8 } :=
          find_updField_self hf (fun f => { f with val := some b, width := b.length * 8 }) (fun _ => rfl)
        unfold getField
        rw [this]
        simp only [Out.ok_bind]
        split <;> exact ⟨_, rfl⟩
      · rw [if_neg hc]
        simp only [Out.ok_bind]
        rw [if_neg (by omega)]
        exact ⟨_, rfl⟩

theorem parms_names : ∀ t ∈ hdrTmpls, ∀ f ∈ t.fields, f.multi = .coapParms → f.name = c!"par" := by decide +kernel

theorem find_setVal {h : Hdr} {n : CStr} {f : Field} (hf : findField h n = some f) (v : Option Buf) :
    findField (setVal h n v) n = some { f with val := v } := find_updField_self hf _ (fun _ => rfl)

theorem variant_par {B : Nat} {t t' : Hdr} (ht : t ∈ hdrTmpls) (hv : Variant B t t') {f : Field} (hf : f ∈ t'.fields)
    (hm : f.multi = .coapParms) : f.name = c!"par" := by
  cases hv with
  | same => exact parms_names t ht f hf hm
  | coap k hk =>
    simp only [coapShape, List.mem_cons, List.not_mem_nil, or_false] at hf
    rcases hf with rfl | rfl | rfl | rfl | rfl | rfl <;> simp at hm
  | pnet k hk =>
    simp only [pnetShape, List.mem_cons, List.not_mem_nil, or_false] at hf
    rcases hf with rfl | rfl | rfl | rfl | rfl | rfl | rfl | rfl | rfl | rfl | rfl | rfl <;> simp at hm
  | opt k m _ _ _ =>
    simp only [optShape, List.mem_cons, List.not_mem_nil, or_false] at hf
    rcases hf with rfl | rfl <;> simp at hm
  | parms k hk =>
    simp only [parmsShape, List.mem_cons, List.not_mem_nil, or_false] at hf
    subst hf; rfl
  | data k hk =>
    simp only [dataShape, List.mem_cons, List.not_mem_nil, or_false] at hf
    subst hf; simp at hm

theorem runMultiParser_ends {B : Nat} {t t' h : Hdr} {w v : CStr} {rest : List CStr} {f : Field} (ht : t ∈ hdrTmpls)
    (hv : Variant B t t') (hi : Inst t' h) (hf : findField h w = some f)
    (hpar : w = c!"par" → ParmsText (v :: rest)) (hig : isIgn v = false) (hh : v ≠ c!"help") :
    ∃ r, runMultiParser (setVal h w none) f (v :: rest) = .ok r := by
  obtain ⟨ft, hft, hfi⟩ := hi.find hf
  obtain ⟨hmem, hname⟩ := find_mem hft
  unfold runMultiParser
  cases hm : f.multi with
  | none => exact ⟨_, rfl⟩
  | coapOptVal =>
    have : f.name = w := (find_mem hf).2
    rw [this]
    exact optVal_ends (find_setVal hf none) _
  | coapParms =>
    have hw : w = c!"par" := by
      rw [← hname]
      exact variant_par ht hv hmem (by rw [← hfi.multi, hm])
    have hi2 : ¬ (v = c!"ign" ∨ v = c!"ignore") := by
      intro h
      unfold isIgn at hig
      rcases h with h | h <;> simp [h] at hig
    rcases hpar hw v rest rfl with h | h | h | ⟨segs, tail, h1, h2, h3, h4⟩
    · exact absurd (Or.inl h) hi2
    · exact absurd (Or.inr h) hi2
    · exact absurd h hh
    · simp only
      unfold coapParseParms
      rw [h3, (Props.C10_payload_concatenates segs h2).1 tail h4, Out.ok_bind, if_neg h1]
      simp only
      split <;> exact ⟨_, rfl⟩

theorem parseFieldsLoop_ends {t : Hdr} (ht : t ∈ hdrTmpls) (hp : t.parser = .fields) : ∀ (fuel B : Nat) (t' h : Hdr) (m : Bool)
    (i : Nat) (argv : List CStr), Variant B t t' → Inst t' h → argv.length ≤ 100 → SafeWords argv →
    ∃ r, parseFieldsLoop fuel h m i argv = .ok r := by
  intro fuel
  induction fuel with
  | zero => intro B t' h m i argv _ _ _ _; exact ⟨_, rfl⟩
  | succ fuel ih =>
    intro B t' h m i argv hv hi hl hs
    unfold parseFieldsLoop
    split
    · exact ⟨_, rfl⟩
    · rename_i w rest
      have hs1 : SafeWords rest := hs.suffix (List.suffix_cons _ _)
      have hl' : rest.length ≤ 100 := by simp at hl; omega
      split
      · exact ⟨_, rfl⟩
      split
      · exact ih B t' _ _ _ _ hv hi.skipAll hl' hs1
      split
      · exact ⟨_, rfl⟩
      · rename_i f hf
        simp only
        split
        · exact ⟨_, rfl⟩
        · rename_i v rest'
          have hl2 : rest'.length ≤ 100 := by simp at hl'; omega
          have hs2 : SafeWords rest' := hs1.suffix (List.suffix_cons _ _)
          split
          · exact ih B t' _ _ _ _ hv ((hi.unset w).upd w _ (fun _ _ _ hr _ => hr.setSkip true)) hl2 hs2
          rename_i hig
          split
          · exact ⟨_, rfl⟩
          rename_i hh
          split
          · rename_i hpm
            obtain ⟨⟨h2, cnt⟩, hr⟩ := runMultiParser_ends (rest := rest') ht hv hi hf
              (fun hw => hs.parms _ (by rw [← hw]; exact List.suffix_rfl)) (by simpa using hig) hh
            rw [hr, Out.ok_bind]
            simp only
            split
            · rename_i hc
              obtain ⟨t'', hv2, hi2, _⟩ := multi_step ht hv hi hf hpm.2 hs1.short hl' hr hc.1
              exact ih (B + 1) t'' _ _ _ _ hv2 hi2 (by rw [List.length_drop]; omega) (hs1.suffix (List.drop_suffix _ _))
            · exact ⟨_, rfl⟩
          · rename_i hpm
            obtain ⟨⟨h2, b⟩, hr⟩ := runFieldParser_ends ht hp hv hi hf hpm
              (fun g hg hn h1 => hs.literals w v rest' List.suffix_rfl t ht g hg hn h1) (setVal h w none)
            rw [hr, Out.ok_bind]
            simp only
            obtain ⟨t'', hv2, hi2, _⟩ := field_step ht hv hi hf hpm (hs1.short v (by simp)) hr
            exact ih B t'' _ _ _ _ hv2 hi2 hl2 hs2

theorem runHdrParser_ends {t : Hdr} (ht : t ∈ hdrTmpls) (pad : Int) (m : Bool) {argv : List CStr} (hl : argv.length ≤ 100)
    (hs : SafeWords argv) : ∃ r, runHdrParser t pad m argv = .ok r := by
  unfold runHdrParser
  split
  · rename_i hp
    obtain ⟨r, hr⟩ := parseFieldsLoop_ends ht hp argv.length 0 t t m 0 argv (Variant.same t) (Inst.refl (tmpl_vals t ht)) hl hs
    unfold parseFields
    rw [hr, Out.ok_bind]
    cases r <;> exact ⟨_, rfl⟩
  · obtain ⟨r, hr, hz⟩ := parseVarBytes_ends argv
    have : ∃ r, payloadParser t argv = .ok r := by
      unfold payloadParser
      rw [hr, Out.ok_bind]
      cases r with
      | none => exact ⟨_, rfl⟩
      | some p =>
        obtain ⟨res, bo⟩ := p
        simp only
        split
        · exact ⟨_, rfl⟩
        · rename_i h0
          cases bo with
          | none => exact absurd (hz res rfl) h0
          | some b => exact ⟨_, rfl⟩
    obtain ⟨r, hr⟩ := this
    rw [hr, Out.ok_bind]
    cases r <;> exact ⟨_, rfl⟩
  · have : ∃ r, paddingParser argv = .ok r := by
      unfold paddingParser
      split
      · exact ⟨_, rfl⟩
      · rename_i w _
        obtain ⟨r, hr⟩ := parseUint32_ends w
        rw [hr, Out.ok_bind]
        cases r <;> exact ⟨_, rfl⟩
    obtain ⟨r, hr⟩ := this
    rw [hr, Out.ok_bind]
    cases r <;> exact ⟨_, rfl⟩

theorem argcFrameLoop_ends (fuel : Nat) : ∀ (f : Frame) (i : Nat) (argv : List CStr), f.stack.length + argv.length ≤ 100 →
    SafeWords argv → ∃ r, argcFrameLoop frameStackMax fuel f i argv = .ok r := by
  induction fuel with
  | zero => intro f i argv _ _; exact ⟨_, rfl⟩
  | succ fuel ih =>
    intro f i argv hl hs
    unfold argcFrameLoop
    split
    · exact ⟨_, rfl⟩
    · rename_i w rest
      simp only [List.length_cons] at hl
      split
      · exact ⟨_, rfl⟩
      · cases e : findTmpl w with
        | none => exact ⟨_, rfl⟩
        | some t =>
          have ht : t ∈ hdrTmpls := List.mem_of_find?_eq_some e
          have hs1 : SafeWords rest := hs.suffix (List.suffix_cons _ _)
          simp only
          have hpush : pushHdr frameStackMax f t = .ok { f with stack := f.stack ++ [hdrCopy t] } := by
            unfold pushHdr frameStackMax; rw [if_pos (by omega)]
          rw [hpush, Out.ok_bind, hdrCopy_eq]
          obtain ⟨r, hr⟩ := runHdrParser_ends ht f.padding f.hasMask (argv := rest) (by omega) hs1
          rw [hr, Out.ok_bind]
          cases r with
          | none => exact ⟨_, rfl⟩
          | some x =>
            obtain ⟨n, h, pad, m⟩ := x
            simp only
            apply ih
            · simp only [List.length_append, List.length_cons, List.length_nil, List.length_drop]; omega
            · exact hs1.suffix (List.drop_suffix _ _)

theorem argcFrame_ends {argv : List CStr} (hs : SafeWords argv) : ∃ r, argcFrame argv = .ok r := by
  unfold argcFrame
  split
  · exact ⟨_, rfl⟩
  · rename_i h
    exact argcFrameLoop_ends _ _ _ _ (by simp only [frameStackMax] at h; simp; omega) hs

end Ef
