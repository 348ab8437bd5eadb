import Verif.Lemmas.Inst
import Verif.Spec.Tame

/-! # Parsing produces instances of the templates -/

namespace Ef

open Spec

/-! ## Lengths of variable-length values -/

theorem hexText_length {s : CStr} {b : Buf} (h : HexText s b) : 2 * b.length ≤ s.length := by
  induction h with
  | nil => simp
  | delim _ _ ih => simp; omega
  | pair _ _ _ ih => simp; omega

theorem parseVarBytesHex_length {s : CStr} {n : Nat} {b : Buf} (h : parseVarBytesHex s n = .ok (some b)) :
    b.length ≤ max n s.length ∧ n ≤ b.length ∧ 0 < b.length := by
  by_cases ht : ∃ bs, bs ≠ [] ∧ HexText s bs
  · obtain ⟨bs, hne, ht⟩ := ht
    rw [parseVarBytesHex_text ht hne] at h
    simp only [Out.ok.injEq, Option.some.injEq] at h
    have := hexText_length ht
    have h0 : bs.length ≠ 0 := by simpa using hne
    rw [← h, List.length_append]
    simp only [zeros, List.length_replicate]
    omega
  · rw [parseVarBytesHex_not_text ht] at h
    simp at h

theorem be32_lt (a b c d : Byte) : be32 a b c d < 2 ^ 32 := by
  unfold be32
  have := a.isLt; have := b.isLt; have := c.isLt; have := d.isLt
  omega

theorem parseUint32_lt {s : CStr} {n : Nat} (h : parseUint32 s = .ok (some n)) : n < 2 ^ 32 := by
  unfold parseUint32 at h
  rw [Out.bind_eq_ok] at h
  obtain ⟨r, _, h⟩ := h
  cases r with
  | none => simp at h
  | some v =>
    simp only at h
    split at h
    · simp only [Out.ok.injEq, Option.some.injEq] at h
      rw [← h]; exact be32_lt _ _ _ _
    · simp at h

theorem cntPattern_length (n : Nat) : ∀ v, (cntPattern n v).length = n := by
  induction n with
  | zero => intro v; rfl
  | succ n ih => intro v; simp [cntPattern, ih]

theorem parseVarBytes1_length {argv : List CStr} {b : Buf} {used : Nat} (hs : ShortWords argv)
    (h : parseVarBytes1 argv = .ok (.seg b used)) : b.length ≤ 2 ^ 32 ∧ 2 ≤ used ∧ used ≤ argv.length := by
  unfold parseVarBytes1 at h
  split at h
  · simp at h
  · rename_i w rest
    split at h
    · simp at h
    split at h
    · split at h
      · rename_i a l
        rw [Out.bind_eq_ok] at h
        obtain ⟨r, h1, h⟩ := h
        cases r with
        | none => simp [Seg.ofOpt] at h
        | some v =>
          simp only [Seg.ofOpt, Out.ok.injEq, Seg.seg.injEq] at h
          obtain ⟨rfl, rfl⟩ := h
          have := parseVarBytesHex_length h1
          have := hs a (by simp)
          simp
          omega
      · simp at h
    split at h
    · split at h
      · rename_i a l
        simp only [parseVarBytesAscii, Out.ok.injEq, Seg.seg.injEq] at h
        obtain ⟨rfl, rfl⟩ := h
        have := hs a (by simp)
        simp; omega
      · simp at h
    split at h
    · split at h
      · rename_i a l
        simp only [parseVarBytesAscii0, Out.ok.injEq, Seg.seg.injEq] at h
        obtain ⟨rfl, rfl⟩ := h
        have := hs a (by simp)
        simp; omega
      · simp at h
    split at h
    · split at h
      · rename_i a c l
        rw [Out.bind_eq_ok] at h
        obtain ⟨r, h1, h⟩ := h
        cases r with
        | none => simp [Seg.ofOpt] at h
        | some v =>
          simp only [Seg.ofOpt, Out.ok.injEq, Seg.seg.injEq] at h
          obtain ⟨rfl, rfl⟩ := h
          unfold parseVarBytesRepeat at h1
          rw [Out.bind_eq_ok] at h1
          obtain ⟨r1, h2, h1⟩ := h1
          cases r1 with
          | none => simp at h1
          | some n =>
            simp only at h1
            rw [Out.bind_eq_ok] at h1
            obtain ⟨r2, h3, h1⟩ := h1
            cases r2 with
            | none => simp at h1
            | some x =>
              simp only [Out.ok.injEq, Option.some.injEq] at h1
              have := parseUint32_lt h2
              rw [← h1]; simp; omega
      · simp at h
    split at h
    · split at h
      · rename_i a c l
        rw [Out.bind_eq_ok] at h
        obtain ⟨r, h1, h⟩ := h
        cases r with
        | none => simp [Seg.ofOpt] at h
        | some v =>
          simp only [Seg.ofOpt, Out.ok.injEq, Seg.seg.injEq] at h
          obtain ⟨rfl, rfl⟩ := h
          unfold parseVarBytesPattern at h1
          rw [Out.bind_eq_ok] at h1
          obtain ⟨r1, h2, h1⟩ := h1
          cases r1 with
          | none => simp at h1
          | some n =>
            have hn := parseUint32_lt h2
            simp only at h1
            split at h1
            · simp only [Out.ok.injEq, Option.some.injEq] at h1
              rw [← h1, cntPattern_length]; simp; omega
            · split at h1
              · simp only [Out.ok.injEq, Option.some.injEq] at h1
                rw [← h1]; simp; omega
              · split at h1
                · simp only [Out.ok.injEq, Option.some.injEq] at h1
                  rw [← h1]; simp; omega
                · simp at h1
      · simp at h
    · simp at h

theorem Spec.ShortWords.drop {argv : List CStr} (h : ShortWords argv) (n : Nat) : ShortWords (argv.drop n) :=
  fun w hw => h w (List.mem_of_mem_drop hw)

theorem Spec.ShortWords.tail {w : CStr} {argv : List CStr} (h : ShortWords (w :: argv)) : ShortWords argv :=
  fun x hx => h x (by simp [hx])

theorem parseVarBytesLoop_length : ∀ (fuel : Nat) (argv : List CStr) (i : Nat) (acc : Option Buf) (A res : Nat)
    (b : Buf), ShortWords argv → (∀ a, acc = some a → a.length ≤ A) →
    parseVarBytesLoop fuel argv i acc = .ok (some (res, some b)) → b.length ≤ A + fuel * 2 ^ 32 := by
  intro fuel
  induction fuel with
  | zero =>
    intro argv i acc A res b _ ha h
    simp only [parseVarBytesLoop, Out.ok.injEq, Option.some.injEq, Prod.mk.injEq] at h
    have := ha b h.2
    omega
  | succ fuel ih =>
    intro argv i acc A res b hs ha h
    unfold parseVarBytesLoop at h
    split at h
    · simp only [Out.ok.injEq, Option.some.injEq, Prod.mk.injEq] at h
      have := ha b h.2
      omega
    · rw [Out.bind_eq_ok] at h
      obtain ⟨sg, h1, h⟩ := h
      cases sg with
      | err => simp at h
      | stop =>
        simp only [Out.ok.injEq, Option.some.injEq, Prod.mk.injEq] at h
        have := ha b h.2
        omega
      | seg v used =>
        have hl := (parseVarBytes1_length hs h1).1
        have := ih _ _ _ (A + 2 ^ 32) _ _ (hs.drop used) (by
          intro a he
          simp only [Option.some.injEq] at he
          cases hacc : acc with
          | none => rw [hacc] at he; simp only at he; rw [← he]; omega
          | some r =>
            rw [hacc] at he; simp only at he
            have := ha r hacc
            rw [← he, List.length_append]; omega) h
        omega

theorem parseVarBytes_length {argv : List CStr} {res : Nat} {b : Buf} (hs : ShortWords argv) (hl : argv.length ≤ 100)
    (h : parseVarBytes argv = .ok (some (res, some b))) : b.length < 2 ^ 40 := by
  have := parseVarBytesLoop_length _ _ _ _ 0 _ _ hs (by simp) h
  omega

/-! ## One `name value` pair -/

theorem variant_fields : ∀ t ∈ hdrTmpls, ∀ f ∈ t.fields, FixedField f ∨
    (t = HDR_COAP ∧ f.parser = .coapToken ∧ f.multi = .none) ∨
    (t = HDR_PNET_RTC ∧ f.parser = .profinetData ∧ f.multi = .none) ∨
    (t = HDR_COAP_OPTIONS ∧ f.parser = .none ∧ f.multi = .coapOptVal) ∨
    (t = HDR_COAP_PARMS ∧ f.parser = .none ∧ f.multi = .coapParms) := by decide +kernel

theorem tmpl_vals : ∀ t ∈ hdrTmpls, ∀ f ∈ t.fields, f.val = none := by decide +kernel

theorem variant_cases {B : Nat} {t t' : Hdr} (ht : t ∈ hdrTmpls) (hv : Variant B t t') {f : Field} (hf : f ∈ t'.fields) :
    FixedField f ∨
    (∃ k, k ≤ 8 ∧ t = HDR_COAP ∧ t' = coapShape k ∧ f.parser = .coapToken ∧ f.multi = .none) ∨
    (∃ k, k < maxVar ∧ t = HDR_PNET_RTC ∧ t' = pnetShape k ∧ f.parser = .profinetData ∧ f.multi = .none) ∨
    (∃ k m, k ≤ m ∧ k < maxVar ∧ m ≤ B * 2 ^ 40 ∧ t = HDR_COAP_OPTIONS ∧ t' = optShape k m ∧ f.parser = .none ∧ f.multi = .coapOptVal) ∨
    (∃ k, k < maxVar ∧ t = HDR_COAP_PARMS ∧ t' = parmsShape k ∧ f.parser = .none ∧ f.multi = .coapParms) := by
  cases hv with
  | same =>
    rcases variant_fields t ht f hf with h | ⟨h, h1, h2⟩ | ⟨h, h1, h2⟩ | ⟨h, h1, h2⟩ | ⟨h, h1, h2⟩
    · exact Or.inl h
    · exact Or.inr (Or.inl ⟨0, by omega, h, by rw [h, coap_shape], h1, h2⟩)
    · exact Or.inr (Or.inr (Or.inl ⟨40, by decide, h, by rw [h, pnet_shape], h1, h2⟩))
    · exact Or.inr (Or.inr (Or.inr (Or.inl ⟨0, 0, by omega, by decide, by omega, h, by rw [h, opt_shape], h1, h2⟩)))
    · exact Or.inr (Or.inr (Or.inr (Or.inr ⟨0, by decide, h, by rw [h, parms_shape], h1, h2⟩)))
  | coap k hk =>
    simp only [coapShape, List.mem_cons, List.not_mem_nil, or_false] at hf
    rcases hf with rfl | rfl | rfl | rfl | rfl | rfl
    all_goals first
      | exact Or.inl (by decide)
      | exact Or.inr (Or.inl ⟨k, hk, rfl, rfl, rfl, rfl⟩)
  | pnet k hk =>
    simp only [pnetShape, List.mem_cons, List.not_mem_nil, or_false] at hf
    rcases hf with rfl | rfl | rfl | rfl | rfl | rfl | rfl | rfl | rfl | rfl | rfl | rfl
    all_goals first
      | exact Or.inl ⟨rfl, Or.inl rfl⟩
      | exact Or.inr (Or.inr (Or.inl ⟨k, hk, rfl, rfl, rfl, rfl⟩))
  | opt k m hkm hk hB =>
    simp only [optShape, List.mem_cons, List.not_mem_nil, or_false] at hf
    rcases hf with rfl | rfl
    · exact Or.inl ⟨rfl, Or.inl rfl⟩
    · exact Or.inr (Or.inr (Or.inr (Or.inl ⟨k, m, hkm, hk, hB, rfl, rfl, rfl, rfl⟩)))
  | parms k hk =>
    simp only [parmsShape, List.mem_cons, List.not_mem_nil, or_false] at hf
    subst hf
    exact Or.inr (Or.inr (Or.inr (Or.inr ⟨k, hk, rfl, rfl, rfl, rfl⟩)))
  | data k hk =>
    simp only [dataShape, List.mem_cons, List.not_mem_nil, or_false] at hf
    subst hf
    exact Or.inl ⟨rfl, Or.inl rfl⟩

theorem find_mem {fs : List Field} {n : CStr} {f : Field} (h : fs.find? (fun f : Field => f.name == n) = some f) :
    f ∈ fs ∧ f.name = n := by
  refine ⟨List.mem_of_find?_eq_some h, ?_⟩
  have := List.find?_some h
  simpa using this

theorem updField_type (h : Hdr) (n : CStr) (g : Field → Field) : (updField h n g).type = h.type := rfl

theorem setVal_type (h : Hdr) (n : CStr) (v : Option Buf) : (setVal h n v).type = h.type := rfl

theorem allRel_cons_inv {R : Field → Field → Prop} {t : Field} {ts hs : List Field} (h : AllRel R (t :: ts) hs) :
    ∃ f fs, hs = f :: fs ∧ R t f ∧ AllRel R ts fs := by
  cases h with
  | cons hr hrest => exact ⟨_, _, rfl, hr, hrest⟩

theorem allRel_nil_inv {R : Field → Field → Prop} {hs : List Field} (h : AllRel R [] hs) : hs = [] := by
  cases h; rfl

theorem FieldInst.move {ft fh : Field} (h : FieldInst ft fh) (o : Nat) :
    FieldInst { ft with offset := o } { fh with offset := o } := by
  refine ⟨?_, h.len⟩
  conv => lhs; rw [h.eq]

/-- Resizing a field and giving it a value of the new size. -/
theorem FieldInst.resize {ft fh : Field} (h : FieldInst ft fh) (w o : Nat) (s : Bool) (v : Option Buf)
    (hv : ∀ x, v = some x → w ≤ 8 * x.length ∧ 8 * x.length ≤ w + 7) :
    FieldInst { ft with width := w, offset := o } { fh with width := w, offset := o, val := v, rxSkip := s } := by
  refine ⟨?_, fun x hx => ?_⟩
  · conv => lhs; rw [h.eq]
  · have := hv x hx
    constructor
    · exact this.1
    · exact Nat.le_trans this.2 (Nat.le_add_right _ _)

theorem token_step {k : Nat} {h h2 : Hdr} {w v : CStr} {f : Field} {b : Option Buf} (hk : k ≤ 8)
    (hi : Inst (coapShape k) h) (hf : findField h w = some f) (hp : f.parser = .coapToken)
    (hr : coapParseToken (setVal h w none) v = .ok (h2, b)) :
    ∃ k', k' ≤ 8 ∧ Inst (coapShape k') (updField h2 w (fun f => { f with val := b, rxSkip := false })) ∧
      h2.type = h.type := by
  obtain ⟨ft, hft, hfi⟩ := hi.find hf
  have hw : w = c!"token" := by
    obtain ⟨hm, hn⟩ := find_mem hft
    rw [hfi.parser] at hp
    simp only [coapShape, List.mem_cons, List.not_mem_nil, or_false] at hm
    rcases hm with rfl | rfl | rfl | rfl | rfl | rfl <;> first | (simp at hp; done) | exact hn.symm
  subst hw
  unfold coapParseToken at hr
  rw [Out.bind_eq_ok] at hr
  obtain ⟨r, h1, hr⟩ := hr
  have hnone : h2 = setVal h c!"token" none ∧ b = none →
      ∃ k', k' ≤ 8 ∧ Inst (coapShape k') (updField h2 c!"token" (fun f => { f with val := b, rxSkip := false })) ∧
        h2.type = h.type := by
    rintro ⟨rfl, rfl⟩
    exact ⟨k, hk, (hi.unset _).upd _ _ (fun _ _ _ hr _ => hr.setVal false none (by simp)), rfl⟩
  cases r with
  | none =>
    simp only [Out.ok.injEq, Prod.mk.injEq] at hr
    exact hnone ⟨hr.1.symm, hr.2.symm⟩
  | some x =>
    simp only at hr
    split at hr
    · simp only [Out.ok.injEq, Prod.mk.injEq] at hr
      exact hnone ⟨hr.1.symm, hr.2.symm⟩
    · rename_i hx
      simp only [Out.ok.injEq, Prod.mk.injEq] at hr
      obtain ⟨rfl, rfl⟩ := hr
      refine ⟨x.length, by omega, ?_, ?_⟩
      · have hfs := hi.fields
        obtain ⟨f0, l, e0, r0, hfs⟩ := allRel_cons_inv hfs
        obtain ⟨f1, l, rfl, r1, hfs⟩ := allRel_cons_inv hfs
        obtain ⟨f2, l, rfl, r2, hfs⟩ := allRel_cons_inv hfs
        obtain ⟨f3, l, rfl, r3, hfs⟩ := allRel_cons_inv hfs
        obtain ⟨f4, l, rfl, r4, hfs⟩ := allRel_cons_inv hfs
        obtain ⟨f5, l, rfl, r5, hfs⟩ := allRel_cons_inv hfs
        obtain rfl := allRel_nil_inv hfs
        have n0 := r0.name; have n1 := r1.name; have n2 := r2.name; have n3 := r3.name; have n4 := r4.name
        have n5 := r5.name
        have w0 := r0.width; have w1 := r1.width; have w2 := r2.width; have w3 := r3.width; have w4 := r4.width
        simp only at n0 n1 n2 n3 n4 n5 w0 w1 w2 w3 w4
        refine ⟨hi.name, ?_, hi.fill, hi.parser, ?_⟩
        · simp [updField, setVal, relayoutHdr, relayout, e0, updFirst, n0, n1, n2, n3, n4, n5, w0, w1, w2, w3, w4, coapShape]
          omega
        · simp [updField, setVal, relayoutHdr, relayout, e0, updFirst, n0, n1, n2, n3, n4, n5, w0, w1, w2, w3, w4, coapShape]
          refine AllRel.cons (by simpa [n0, w0] using r0.move 0) (AllRel.cons (by simpa [n1, w1] using r1.move 2)
            (AllRel.cons (by simpa [n2, w2] using r2.move 4) (AllRel.cons (by simpa [n3, w3] using r3.move 8)
            (AllRel.cons (by simpa [n4, w4] using r4.move 16) (AllRel.cons (?_) AllRel.nil)))))
          have := r5.resize (x.length * 8) 32 false (some x) (by intro y hy; cases hy; omega)
          simpa [n5] using this
      · rfl

theorem pnet_step {k : Nat} {h h2 : Hdr} {w v : CStr} {f : Field} {b : Option Buf} (hk : k < maxVar)
    (hv : v.length < 2 ^ 32)
    (hi : Inst (pnetShape k) h) (hf : findField h w = some f) (hp : f.parser = .profinetData)
    (hr : profinetDataParser (setVal h w none) v = .ok (h2, b)) :
    ∃ k', k' < maxVar ∧ Inst (pnetShape k') (updField h2 w (fun f => { f with val := b, rxSkip := false })) ∧
      h2.type = h.type := by
  obtain ⟨ft, hft, hfi⟩ := hi.find hf
  have hw : w = c!"data" := by
    obtain ⟨hm, hn⟩ := find_mem hft
    rw [hfi.parser] at hp
    simp only [pnetShape, List.mem_cons, List.not_mem_nil, or_false] at hm
    rcases hm with rfl | rfl | rfl | rfl | rfl | rfl | rfl | rfl | rfl | rfl | rfl | rfl <;>
      first | (simp at hp; done) | exact hn.symm
  subst hw
  unfold profinetDataParser at hr
  rw [Out.bind_eq_ok] at hr
  obtain ⟨r, h1, hr⟩ := hr
  cases r with
  | none =>
    simp only [Out.ok.injEq, Prod.mk.injEq] at hr
    obtain ⟨rfl, rfl⟩ := hr
    exact ⟨k, hk, (hi.unset _).upd _ _ (fun _ _ _ hr _ => hr.setVal false none (by simp)), rfl⟩
  | some x =>
    have hx := (parseVarBytesHex_length h1).1
    simp only [Out.ok.injEq, Prod.mk.injEq] at hr
    obtain ⟨rfl, rfl⟩ := hr
    refine ⟨x.length, by unfold maxVar; omega, ?_, rfl⟩
    have hfs := hi.fields
    obtain ⟨f0, l, e0, r0, hfs⟩ := allRel_cons_inv hfs
    obtain ⟨f1, l, rfl, r1, hfs⟩ := allRel_cons_inv hfs
    obtain ⟨f2, l, rfl, r2, hfs⟩ := allRel_cons_inv hfs
    obtain ⟨f3, l, rfl, r3, hfs⟩ := allRel_cons_inv hfs
    obtain ⟨f4, l, rfl, r4, hfs⟩ := allRel_cons_inv hfs
    obtain ⟨f5, l, rfl, r5, hfs⟩ := allRel_cons_inv hfs
    obtain ⟨f6, l, rfl, r6, hfs⟩ := allRel_cons_inv hfs
    obtain ⟨f7, l, rfl, r7, hfs⟩ := allRel_cons_inv hfs
    obtain ⟨f8, l, rfl, r8, hfs⟩ := allRel_cons_inv hfs
    obtain ⟨f9, l, rfl, r9, hfs⟩ := allRel_cons_inv hfs
    obtain ⟨f10, l, rfl, r10, hfs⟩ := allRel_cons_inv hfs
    obtain ⟨f11, l, rfl, r11, hfs⟩ := allRel_cons_inv hfs
    obtain rfl := allRel_nil_inv hfs
    have n0 := r0.name; have w0 := r0.width
    have n1 := r1.name; have w1 := r1.width
    have n2 := r2.name; have w2 := r2.width
    have n3 := r3.name; have w3 := r3.width
    have n4 := r4.name; have w4 := r4.width
    have n5 := r5.name; have w5 := r5.width
    have n6 := r6.name; have w6 := r6.width
    have n7 := r7.name; have w7 := r7.width
    have n8 := r8.name; have w8 := r8.width
    have n9 := r9.name; have w9 := r9.width
    have n10 := r10.name; have w10 := r10.width
    have n11 := r11.name; have w11 := r11.width
    simp only at n0 w0 n1 w1 n2 w2 n3 w3 n4 w4 n5 w5 n6 w6 n7 w7 n8 w8 n9 w9 n10 w10 n11 w11
    have e1 : (updField (relayoutHdr { setVal h c!"data" none with fields := (setVal h c!"data" none).fields.modify 1 (fun f => { f with width := x.length * 8 }) }) c!"data"
        (fun f => { f with val := some x, rxSkip := false })).fields = [
      { f0 with offset := 0 }, { f1 with width := x.length * 8, offset := 16, val := some x, rxSkip := false },
      { f2 with offset := 16 + x.length * 8 }, { f3 with offset := 32 + x.length * 8 }, { f4 with offset := 33 + x.length * 8 }, { f5 with offset := 34 + x.length * 8 }, { f6 with offset := 35 + x.length * 8 }, { f7 with offset := 36 + x.length * 8 }, { f8 with offset := 37 + x.length * 8 }, { f9 with offset := 38 + x.length * 8 }, { f10 with offset := 39 + x.length * 8 }, { f11 with offset := 40 + x.length * 8 }] := by
      simp [updField, setVal, relayoutHdr, relayout, e0, updFirst, n0, n1, n2, n3, n4, n5, n6, n7, n8, n9, n10, n11, w0, w2, w3, w4, w5, w6, w7, w8, w9, w10, w11]
      omega
    refine ⟨hi.name, ?_, hi.fill, hi.parser, ?_⟩
    · simp [updField, setVal, relayoutHdr, relayout, e0, updFirst, n0, n1, n2, n3, n4, n5, n6, n7, n8, n9, n10, n11, w0, w2, w3, w4, w5, w6, w7, w8, w9, w10, w11, pnetShape]
      omega
    · rw [e1]
      exact AllRel.cons (r0.move 0) (AllRel.cons (r1.resize (x.length * 8) 16 false (some x) (by intro y hy; cases hy; omega)) (AllRel.cons (r2.move (16 + x.length * 8)) (
        AllRel.cons (r3.move (32 + x.length * 8)) (AllRel.cons (r4.move (33 + x.length * 8)) (AllRel.cons (r5.move (34 + x.length * 8)) (
        AllRel.cons (r6.move (35 + x.length * 8)) (AllRel.cons (r7.move (36 + x.length * 8)) (AllRel.cons (r8.move (37 + x.length * 8)) (
        AllRel.cons (r9.move (38 + x.length * 8)) (AllRel.cons (r10.move (39 + x.length * 8)) (AllRel.cons (r11.move (40 + x.length * 8)) (
        AllRel.nil))))))))))))

theorem opt_step {k m cnt : Nat} {h h2 : Hdr} {w : CStr} {rest : List CStr} {f : Field}
    (hs : ShortWords rest) (hl : rest.length ≤ 100)
    (hi : Inst (optShape k m) h) (hf : findField h w = some f) (hp : f.multi = .coapOptVal)
    (hr : coapParseOptionValue (setVal h w none) f.name rest = .ok (h2, cnt)) (hc : 0 < cnt) :
    ∃ k' m', k' ≤ m' ∧ k' < maxVar ∧ m' ≤ m + 2 ^ 40 ∧ Inst (optShape k' m') (updField h2 w (fun f => { f with rxSkip := false })) ∧
      h2.type = h.type := by
  obtain ⟨ft, hft, hfi⟩ := hi.find hf
  have hfn : f.name = w := (find_mem hf).2
  have hw : w = c!"val" := by
    obtain ⟨hm, hn⟩ := find_mem hft
    rw [hfi.multi] at hp
    simp only [optShape, List.mem_cons, List.not_mem_nil, or_false] at hm
    rcases hm with rfl | rfl <;> first | (simp at hp; done) | exact hn.symm
  rw [hfn] at hr
  subst hw
  have hfs := hi.fields
  obtain ⟨f0, l, e0, r0, hfs⟩ := allRel_cons_inv hfs
  obtain ⟨f1, l, rfl, r1, hfs⟩ := allRel_cons_inv hfs
  obtain rfl := allRel_nil_inv hfs
  have n0 := r0.name; have n1 := r1.name
  have hsz := hi.size
  simp only at n0 n1
  unfold coapParseOptionValue fieldParseMultiVarByte at hr
  rw [Out.bind_eq_ok] at hr
  obtain ⟨⟨h1, res⟩, hr1, hr⟩ := hr
  rw [Out.bind_eq_ok] at hr1
  obtain ⟨pv, hpv, hr1⟩ := hr1
  cases pv with
  | none =>
    simp only [Out.ok.injEq, Prod.mk.injEq] at hr1
    obtain ⟨rfl, rfl⟩ := hr1
    simp at hr; omega
  | some pr =>
    obtain ⟨res', bo⟩ := pr
    cases bo with
    | none =>
      simp only at hr1
      split at hr1
      · simp at hr1
      · simp only [Out.ok.injEq, Prod.mk.injEq] at hr1
        obtain ⟨rfl, rfl⟩ := hr1
        simp at hr; omega
    | some b =>
      have hb := parseVarBytes_length hs hl hpv
      simp only at hr1
      split at hr1
      · rename_i hres
        simp only [Out.ok.injEq, Prod.mk.injEq] at hr1
        obtain ⟨rfl, rfl⟩ := hr1
        simp only at hr
        rw [if_pos hres] at hr
        have efs : (updField (setVal h c!"val" none) c!"val" (fun f => { f with val := some b, width := b.length * 8 })).fields
            = [f0, { f1 with val := some b, width := b.length * 8 }] := by
          simp [updField, setVal, e0, updFirst, n0, n1]
        rw [Out.bind_eq_ok] at hr
        obtain ⟨g, hg, hr⟩ := hr
        have hgv : g.val = some b := by
          unfold getField findField at hg
          simp only [efs] at hg
          simp [n0, n1] at hg
          rw [← hg]
        rw [hgv] at hr
        simp only at hr
        split at hr
        · simp only [Out.ok.injEq, Prod.mk.injEq] at hr
          obtain ⟨rfl, rfl⟩ := hr
          refine ⟨0, m, by omega, by decide, by omega, ⟨hi.name, ?_, hi.fill, hi.parser, ?_⟩, rfl⟩
          · simp [updField, setVal, hsz, optShape]
          · have : (updField ({ updField ({ updField (setVal h c!"val" none) c!"val" (fun f => { f with val := some b, width := b.length * 8 }) with size := (updField (setVal h c!"val" none) c!"val" (fun f => { f with val := some b, width := b.length * 8 })).size + b.length }) c!"val" (fun f => { f with val := some [], width := 0 }) with size := (updField ({ updField (setVal h c!"val" none) c!"val" (fun f => { f with val := some b, width := b.length * 8 }) with size := (updField (setVal h c!"val" none) c!"val" (fun f => { f with val := some b, width := b.length * 8 })).size + b.length }) c!"val" (fun f => { f with val := some [], width := 0 })).size - b.length }) c!"val" (fun f => { f with rxSkip := false })).fields = [f0, { f1 with val := some [], width := 0, rxSkip := false }] := by
              simp [updField, setVal, e0, updFirst, n0, n1]
            rw [this]
            have r1' := r1.resize 0 16 false (some []) (by intro y hy; cases hy; simp)
            have o1 := r1.offset
            simp only at o1
            refine AllRel.cons r0 (AllRel.cons ?_ AllRel.nil)
            simpa [o1] using r1'
        · simp only [Out.ok.injEq, Prod.mk.injEq] at hr
          obtain ⟨rfl, rfl⟩ := hr
          refine ⟨b.length, m + b.length, by omega, by unfold maxVar; omega, by omega, ⟨hi.name, ?_, hi.fill, hi.parser, ?_⟩, rfl⟩
          · simp [updField, setVal, hsz, optShape]; omega
          · have : (updField ({ updField (setVal h c!"val" none) c!"val" (fun f => { f with val := some b, width := b.length * 8 }) with size := (updField (setVal h c!"val" none) c!"val" (fun f => { f with val := some b, width := b.length * 8 })).size + b.length }) c!"val" (fun f => { f with rxSkip := false })).fields = [f0, { f1 with val := some b, width := b.length * 8, rxSkip := false }] := by
              simp [updField, setVal, e0, updFirst, n0, n1]
            rw [this]
            have r1' := r1.resize (b.length * 8) 16 false (some b) (by intro y hy; cases hy; omega)
            have o1 := r1.offset
            simp only at o1
            refine AllRel.cons r0 (AllRel.cons ?_ AllRel.nil)
            simpa [o1] using r1'
      · simp only [Out.ok.injEq, Prod.mk.injEq] at hr1
        obtain ⟨rfl, rfl⟩ := hr1
        simp at hr; omega

theorem parms_step {k cnt : Nat} {h h2 : Hdr} {w : CStr} {rest : List CStr} {f : Field}
    (hs : ShortWords rest) (hl : rest.length ≤ 100)
    (hi : Inst (parmsShape k) h) (hf : findField h w = some f)
    (hr : coapParseParms (setVal h w none) f.name rest = .ok (h2, cnt)) (hc : 0 < cnt) :
    ∃ k', k' < maxVar ∧ Inst (parmsShape k') (updField h2 w (fun f => { f with rxSkip := false })) ∧
      h2.type = h.type := by
  obtain ⟨ft, hft, hfi⟩ := hi.find hf
  have hfn : f.name = w := (find_mem hf).2
  have hw : w = c!"par" := by
    obtain ⟨hm, hn⟩ := find_mem hft
    simp only [parmsShape, List.mem_cons, List.not_mem_nil, or_false] at hm
    subst hm; exact hn.symm
  rw [hfn] at hr
  subst hw
  have hfs := hi.fields
  obtain ⟨f0, l, e0, r0, hfs⟩ := allRel_cons_inv hfs
  obtain rfl := allRel_nil_inv hfs
  have n0 := r0.name
  simp only at n0
  unfold coapParseParms at hr
  rw [Out.bind_eq_ok] at hr
  obtain ⟨pv, hpv, hr⟩ := hr
  split at hr
  · rename_i res b
    have hb := parseVarBytes_length hs hl hpv
    split at hr
    · simp only [Out.ok.injEq, Prod.mk.injEq] at hr
      obtain ⟨rfl, rfl⟩ := hr
      refine ⟨b.length + 1, by unfold maxVar; omega, ⟨hi.name, ?_, hi.fill, hi.parser, ?_⟩, rfl⟩
      · simp [updField, setVal, parmsShape]
      · have r0' := r0.resize ((0xff#8 :: b).length * 8) 0 false (some (0xff#8 :: b)) (by intro y hy; cases hy; omega)
        have o0 := r0.offset
        simp only at o0
        simp only [updField, setVal, e0, updFirst, n0, beq_self_eq_true, if_true, parmsShape]
        refine AllRel.cons ?_ AllRel.nil
        simpa [n0, o0] using r0'
    · simp only [Out.ok.injEq, Prod.mk.injEq] at hr
      omega
  · simp at hr

/-! ## The loop -/

theorem field_step {B : Nat} {t t' h h2 : Hdr} {w v : CStr} {f : Field} {b : Option Buf} (ht : t ∈ hdrTmpls)
    (hv : Variant B t t')
    (hi : Inst t' h) (hf : findField h w = some f) (hm : ¬ (f.parser = .none ∧ f.multi ≠ .none)) (hl : v.length < 2 ^ 32)
    (hr : runFieldParser (setVal h w none) f v = .ok (h2, b)) :
    ∃ t'', Variant B t t'' ∧ Inst t'' (updField h2 w (fun f => { f with val := b, rxSkip := false })) ∧
      h2.type = h.type := by
  obtain ⟨ft, hft, hfi⟩ := hi.find hf
  have hpar := hfi.parser
  have hmul := hfi.multi
  have hwid := hfi.width
  rcases variant_cases ht hv (find_mem hft).1 with hfix | ⟨k, hk, rfl, rfl, hp, _⟩ | ⟨k, hk, rfl, rfl, hp, _⟩ |
    ⟨k, m, _, _, _, _, _, hp, hmu⟩ | ⟨k, _, _, _, hp, hmu⟩
  · have hfixf : FixedField f := by
      unfold FixedField; rw [hpar, hmul, hwid]; exact hfix
    obtain ⟨rfl, hb⟩ := runFieldParser_fixed hfixf hr
    refine ⟨t', hv, (hi.unset w).updFind w _ (fun ft' g hg hgi => ?_), rfl⟩
    rw [hft] at hg
    cases hg
    apply hgi.setVal
    have hvl : varLen f = varLen ft := by unfold varLen; rw [hpar, hmul]
    rw [← hwid, ← hvl]; exact hb
  · rw [← hpar] at hp
    unfold runFieldParser at hr
    rw [hp] at hr
    obtain ⟨k', hk', h1, h2⟩ := token_step hk hi hf hp hr
    exact ⟨_, Variant.coap k' hk', h1, h2⟩
  · rw [← hpar] at hp
    unfold runFieldParser at hr
    rw [hp] at hr
    obtain ⟨k', hk', h1, h2⟩ := pnet_step hk hl hi hf hp hr
    exact ⟨_, Variant.pnet k' hk', h1, h2⟩
  · exact absurd ⟨by rw [hpar]; exact hp, by rw [hmul, hmu]; simp⟩ hm
  · exact absurd ⟨by rw [hpar]; exact hp, by rw [hmul, hmu]; simp⟩ hm

theorem multi_step {B : Nat} {t t' h h2 : Hdr} {w : CStr} {rest : List CStr} {f : Field} {cnt : Nat} (ht : t ∈ hdrTmpls)
    (hv : Variant B t t') (hi : Inst t' h) (hf : findField h w = some f) (hm : f.multi ≠ .none)
    (hs : ShortWords rest) (hl : rest.length ≤ 100)
    (hr : runMultiParser (setVal h w none) f rest = .ok (h2, cnt)) (hc : 0 < cnt) :
    ∃ t'', Variant (B + 1) t t'' ∧ Inst t'' (updField h2 w (fun f => { f with rxSkip := false })) ∧
      h2.type = h.type := by
  obtain ⟨ft, hft, hfi⟩ := hi.find hf
  have hmul := hfi.multi
  rcases variant_cases ht hv (find_mem hft).1 with hfix | ⟨k, hk, _, _, _, hp⟩ | ⟨k, hk, _, _, _, hp⟩ |
    ⟨k, m, _, _, hB, rfl, rfl, hp, hmu⟩ | ⟨k, _, rfl, rfl, hp, hmu⟩
  · exact absurd (by rw [hmul]; exact hfix.1) hm
  · exact absurd (by rw [hmul]; exact hp) hm
  · exact absurd (by rw [hmul]; exact hp) hm
  · rw [← hmul] at hmu
    unfold runMultiParser at hr
    rw [hmu] at hr
    obtain ⟨k', m', h1, h2, hm', h3, h4⟩ := opt_step hs hl hi hf hmu hr hc
    exact ⟨_, Variant.opt k' m' h1 h2 (by omega), h3, h4⟩
  · rw [← hmul] at hmu
    unfold runMultiParser at hr
    rw [hmu] at hr
    obtain ⟨k', h2, h3, h4⟩ := parms_step hs hl hi hf hr hc
    exact ⟨_, Variant.parms k' h2, h3, h4⟩

theorem parseFieldsLoop_inst {t : Hdr} (ht : t ∈ hdrTmpls) : ∀ (fuel B : Nat) (t' h : Hdr) (m : Bool) (i : Nat)
    (argv : List CStr) (n : Nat) (h' : Hdr) (m' : Bool), Variant B t t' → Inst t' h → ShortWords argv →
    argv.length ≤ 100 → parseFieldsLoop fuel h m i argv = .ok (some (n, h', m')) →
    ∃ t'', Variant (B + fuel) t t'' ∧ Inst t'' h' ∧ h'.type = h.type := by
  intro fuel
  induction fuel with
  | zero =>
    intro B t' h m i argv n h' m' hv hi _ _ hr
    simp only [parseFieldsLoop, Out.ok.injEq, Option.some.injEq, Prod.mk.injEq] at hr
    obtain ⟨_, rfl, _⟩ := hr
    exact ⟨t', hv.mono (by omega), hi, rfl⟩
  | succ fuel ih =>
    intro B t' h m i argv n h' m' hv hi hs hl hr
    have bump : ∀ {x : Hdr}, x.type = h.type → (∃ t'', Variant (B + fuel) t t'' ∧ Inst t'' h' ∧ h'.type = x.type) →
        ∃ t'', Variant (B + (fuel + 1)) t t'' ∧ Inst t'' h' ∧ h'.type = h.type := by
      rintro x hx ⟨t'', h1, h2, h3⟩
      exact ⟨t'', h1.mono (by omega), h2, by rw [h3, hx]⟩
    unfold parseFieldsLoop at hr
    split at hr
    · simp only [Out.ok.injEq, Option.some.injEq, Prod.mk.injEq] at hr
      obtain ⟨_, rfl, _⟩ := hr
      exact ⟨t', hv.mono (by omega), hi, rfl⟩
    · rename_i w rest
      have hl' : rest.length ≤ 100 := by simp at hl; omega
      split at hr
      · simp at hr
      split at hr
      · exact bump rfl (ih B t' (Ef.skipAll h) _ _ _ _ _ _ hv hi.skipAll hs.tail hl' hr)
      split at hr
      · simp only [Out.ok.injEq, Option.some.injEq, Prod.mk.injEq] at hr
        obtain ⟨_, rfl, _⟩ := hr
        exact ⟨t', hv.mono (by omega), hi, rfl⟩
      · rename_i f hf
        simp only at hr
        split at hr
        · simp at hr
        · rename_i v rest'
          have hl2 : rest'.length ≤ 100 := by simp at hl'; omega
          split at hr
          · exact bump rfl (ih B t' (updField (setVal h w none) w (fun f => { f with rxSkip := true })) _ _ _ _ _ _ hv ((hi.unset w).upd w _ (fun _ _ _ hr _ => hr.setSkip true)) hs.tail.tail hl2 hr)
          split at hr
          · simp at hr
          split at hr
          · rename_i hpm
            rw [Out.bind_eq_ok] at hr
            obtain ⟨⟨h2, cnt⟩, hr1, hr⟩ := hr
            simp only at hr
            split at hr
            · rename_i hc
              obtain ⟨t'', hv2, hi2, hty⟩ := multi_step ht hv hi hf hpm.2 hs.tail hl' hr1 hc.1
              obtain ⟨t3, hv3, hi3, hty3⟩ := ih (B + 1) t'' _ _ _ _ _ _ _ hv2 hi2 (hs.tail.drop cnt)
                (by rw [List.length_drop]; omega) hr
              exact ⟨t3, hv3.mono (by omega), hi3, by rw [hty3]; exact hty⟩
            · simp at hr
          · rename_i hpm
            rw [Out.bind_eq_ok] at hr
            obtain ⟨⟨h2, b⟩, hr1, hr⟩ := hr
            simp only at hr
            obtain ⟨t'', hv2, hi2, hty⟩ := field_step ht hv hi hf hpm (hs v (by simp)) hr1
            obtain ⟨t3, hv3, hi3, hty3⟩ := ih B t'' _ _ _ _ _ _ _ hv2 hi2 hs.tail.tail hl2 hr
            exact ⟨t3, hv3.mono (by omega), hi3, by rw [hty3]; exact hty⟩

/-- The header is an instance of a template of the table, with its type number. -/
def IsInst (h : Hdr) : Prop := ∃ t ∈ hdrTmpls, ∃ t', Variant 100 t t' ∧ Inst t' h ∧ h.type = t.type

theorem bclone_eq (b : Option Buf) : bclone b = b := by cases b <;> rfl

theorem hdrCopy_eq (t : Hdr) : hdrCopy t = t := by
  have : fieldCopy = id := by
    funext f
    simp only [fieldCopy, bclone_eq, id]
  simp [hdrCopy, this]

theorem tmpl_payload : ∀ t ∈ hdrTmpls, t.parser = .payload → t = HDR_PAYLOAD := by decide +kernel

theorem runHdrParser_inst {t : Hdr} {pad pad' : Int} {m m' : Bool} {argv : List CStr} {n : Nat} {h : Hdr}
    (ht : t ∈ hdrTmpls) (hs : ShortWords argv) (hl : argv.length ≤ 100)
    (hr : runHdrParser t pad m argv = .ok (some (n, h, pad', m'))) : IsInst h := by
  have hself : Inst t t := Inst.refl (tmpl_vals t ht)
  unfold runHdrParser at hr
  split at hr
  · rw [Out.bind_eq_ok] at hr
    obtain ⟨r, hr1, hr⟩ := hr
    cases r with
    | none => simp at hr
    | some x =>
      obtain ⟨n', h', m''⟩ := x
      simp only [Out.ok.injEq, Option.some.injEq, Prod.mk.injEq] at hr
      obtain ⟨_, rfl, _, _⟩ := hr
      obtain ⟨t'', h1, h2, h3⟩ := parseFieldsLoop_inst ht _ 0 t _ _ _ _ _ _ _ (Variant.same t) hself hs hl hr1
      exact ⟨t, ht, t'', h1.mono (by omega), h2, h3⟩
  · rename_i hp
    have := tmpl_payload t ht hp
    subst this
    rw [Out.bind_eq_ok] at hr
    obtain ⟨r, hr1, hr⟩ := hr
    cases r with
    | none => simp at hr
    | some x =>
      obtain ⟨n', h'⟩ := x
      simp only [Out.ok.injEq, Option.some.injEq, Prod.mk.injEq] at hr
      obtain ⟨_, rfl, _, _⟩ := hr
      unfold payloadParser at hr1
      rw [Out.bind_eq_ok] at hr1
      obtain ⟨r2, hr2, hr1⟩ := hr1
      cases r2 with
      | none => simp at hr1
      | some y =>
        obtain ⟨res, bo⟩ := y
        simp only at hr1
        split at hr1
        · simp only [Out.ok.injEq, Option.some.injEq, Prod.mk.injEq] at hr1
          obtain ⟨_, rfl⟩ := hr1
          exact ⟨HDR_PAYLOAD, ht, HDR_PAYLOAD, Variant.same _, hself, rfl⟩
        · cases bo with
          | none => simp at hr1
          | some b =>
            simp only [Out.ok.injEq, Option.some.injEq, Prod.mk.injEq] at hr1
            obtain ⟨_, rfl⟩ := hr1
            have hb := parseVarBytes_length hs hl hr2
            refine ⟨HDR_PAYLOAD, ht, dataShape b.length b.length, Variant.data _ (by unfold maxVar; omega), ?_, rfl⟩
            rw [data_shape]
            refine ⟨rfl, rfl, rfl, rfl, ?_⟩
            refine AllRel.cons ⟨rfl, ?_⟩ AllRel.nil
            intro v hv
            simp only at hv ⊢
            cases hv
            omega
  · rw [Out.bind_eq_ok] at hr
    obtain ⟨r, hr1, hr⟩ := hr
    cases r with
    | none => simp at hr
    | some x =>
      simp only [Out.ok.injEq, Option.some.injEq, Prod.mk.injEq] at hr
      obtain ⟨_, rfl, _, _⟩ := hr
      exact ⟨t, ht, t, Variant.same t, hself, rfl⟩

theorem argcFrameLoop_inst : ∀ (fuel : Nat) (f : Frame) (i : Nat) (argv : List CStr) (n : Nat) (f' : Frame),
    ShortWords argv → argv.length ≤ 100 → (∀ h ∈ f.stack, IsInst h) →
    argcFrameLoop frameStackMax fuel f i argv = .ok (some (n, f')) → ∀ h ∈ f'.stack, IsInst h := by
  intro fuel
  induction fuel with
  | zero =>
    intro f i argv n f' _ _ hf hr
    simp only [argcFrameLoop, Out.ok.injEq, Option.some.injEq, Prod.mk.injEq] at hr
    obtain ⟨_, rfl⟩ := hr
    exact hf
  | succ fuel ih =>
    intro f i argv n f' hs hl hf hr
    unfold argcFrameLoop at hr
    split at hr
    · simp only [Out.ok.injEq, Option.some.injEq, Prod.mk.injEq] at hr
      obtain ⟨_, rfl⟩ := hr
      exact hf
    · rename_i w rest
      have hl' : rest.length ≤ 100 := by simp at hl; omega
      split at hr
      · simp at hr
      split at hr
      · simp only [Out.ok.injEq, Option.some.injEq, Prod.mk.injEq] at hr
        obtain ⟨_, rfl⟩ := hr
        exact hf
      · rename_i t hft
        have ht : t ∈ hdrTmpls := List.mem_of_find?_eq_some hft
        rw [Out.bind_eq_ok] at hr
        obtain ⟨f1, _, hr⟩ := hr
        rw [Out.bind_eq_ok] at hr
        obtain ⟨r, hr1, hr⟩ := hr
        cases r with
        | none => simp at hr
        | some x =>
          obtain ⟨n', h', pad, m⟩ := x
          rw [hdrCopy_eq] at hr1
          have hinst := runHdrParser_inst ht hs.tail hl' hr1
          simp only at hr
          refine ih _ _ _ _ _ (hs.tail.drop n') (by rw [List.length_drop]; omega) ?_ hr
          intro h hh
          simp only [List.mem_append, List.mem_singleton] at hh
          rcases hh with hh | rfl
          · exact hf h hh
          · exact hinst

/-- Every header of an accepted frame is an instance of a template. -/
theorem argcFrame_inst {argv : List CStr} {n : Nat} {f : Frame} (hs : ShortWords argv)
    (h : argcFrame argv = .ok (some (n, f))) : ∀ x ∈ f.stack, IsInst x := by
  unfold argcFrame at h
  split at h
  · simp at h
  · rename_i hl
    exact argcFrameLoop_inst _ _ _ _ _ _ hs (by unfold frameStackMax at hl; omega) (by simp) h

end Ef
