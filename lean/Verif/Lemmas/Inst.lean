import Verif.Lemmas.NumText
import Verif.Lemmas.Address
import Verif.Model.Args

/-!
# Headers of an accepted frame are instances of the templates

`Inst t h`: `h` is the template `t` with some values and ignore flags set. Parsing only produces instances of
templates, or of templates whose one variable-length field has been resized.
-/

namespace Ef

open Spec

/-- 1 for a field whose width follows its value, else 0. -/
def varLen (f : Field) : Nat := if f.multi = .none ∧ f.parser ≠ .coapToken then 0 else 1

/-- `fh` is the template field `ft` with a value of suitable length and an ignore flag. -/
structure FieldInst (ft fh : Field) : Prop where
  eq : fh = { ft with val := fh.val, rxSkip := fh.rxSkip }
  len : ∀ v, fh.val = some v → ft.width ≤ 8 * v.length ∧ 8 * v.length ≤ ft.width + 7 + 128 * (1 - ft.width - varLen ft)

/-- `h` is an instance of `t` (the type number is not compared, `icmp` changes its own). -/
structure Inst (t h : Hdr) : Prop where
  name : h.name = t.name
  size : h.size = t.size
  fill : h.fill = t.fill
  parser : h.parser = t.parser
  fields : AllRel FieldInst t.fields h.fields

theorem FieldInst.name {ft fh : Field} (h : FieldInst ft fh) : fh.name = ft.name := by rw [h.eq]
theorem FieldInst.width {ft fh : Field} (h : FieldInst ft fh) : fh.width = ft.width := by rw [h.eq]
theorem FieldInst.offset {ft fh : Field} (h : FieldInst ft fh) : fh.offset = ft.offset := by rw [h.eq]
theorem FieldInst.dflt {ft fh : Field} (h : FieldInst ft fh) : fh.dflt = ft.dflt := by rw [h.eq]
theorem FieldInst.parser {ft fh : Field} (h : FieldInst ft fh) : fh.parser = ft.parser := by rw [h.eq]
theorem FieldInst.multi {ft fh : Field} (h : FieldInst ft fh) : fh.multi = ft.multi := by rw [h.eq]

theorem FieldInst.setSkip {ft fh : Field} (h : FieldInst ft fh) (s : Bool) : FieldInst ft { fh with rxSkip := s } := by
  refine ⟨?_, h.len⟩
  conv => lhs; rw [h.eq]

theorem FieldInst.setVal {ft fh : Field} (h : FieldInst ft fh) (s : Bool) (v : Option Buf)
    (hv : ∀ x, v = some x → ft.width ≤ 8 * x.length ∧ 8 * x.length ≤ ft.width + 7 + 128 * (1 - ft.width - varLen ft)) :
    FieldInst ft { fh with val := v, rxSkip := s } := by
  refine ⟨?_, hv⟩
  conv => lhs; rw [h.eq]

theorem FieldInst.setVal' {ft fh : Field} (h : FieldInst ft fh) (v : Option Buf)
    (hv : ∀ x, v = some x → ft.width ≤ 8 * x.length ∧ 8 * x.length ≤ ft.width + 7 + 128 * (1 - ft.width - varLen ft)) :
    FieldInst ft { fh with val := v } := h.setVal fh.rxSkip v hv

theorem allRel_updFirst {R : Field → Field → Prop} {ts hs : List Field} (h : AllRel R ts hs) (p : Field → Bool)
    (g : Field → Field) (hg : ∀ t f, t ∈ ts → R t f → p f = true → R t (g f)) : AllRel R ts (updFirst p g hs) := by
  induction h with
  | nil => exact AllRel.nil
  | cons hr _ ih =>
    unfold updFirst
    split
    · rename_i hp
      exact AllRel.cons (hg _ _ (by simp) hr hp) (by assumption)
    · exact AllRel.cons hr (ih (fun t f ht => hg t f (by simp [ht])))

theorem allRel_map {R : Field → Field → Prop} {ts hs : List Field} (h : AllRel R ts hs)
    (g : Field → Field) (hg : ∀ t f, R t f → R t (g f)) : AllRel R ts (hs.map g) := by
  induction h with
  | nil => exact AllRel.nil
  | cons hr _ ih => exact AllRel.cons (hg _ _ hr) ih

theorem find_pos {a : Field} {n : CStr} (as : List Field) (h : (a.name == n) = true) :
    (a :: as).find? (fun f : Field => f.name == n) = some a := List.find?_cons_of_pos (p := fun f : Field => f.name == n) h

theorem find_neg {a : Field} {n : CStr} (as : List Field) (h : ¬ (a.name == n) = true) :
    (a :: as).find? (fun f : Field => f.name == n) = as.find? (fun f : Field => f.name == n) :=
  List.find?_cons_of_neg (p := fun f : Field => f.name == n) h

/-- The same position holds the first field of a name in the template and in the instance. -/
theorem allRel_find {ts hs : List Field} (h : AllRel FieldInst ts hs) (n : CStr) :
    (∀ fh, hs.find? (fun f : Field => f.name == n) = some fh → ∃ ft, ts.find? (fun f : Field => f.name == n) = some ft ∧ FieldInst ft fh) ∧
    (∀ ft, ts.find? (fun f : Field => f.name == n) = some ft → ∃ fh, hs.find? (fun f : Field => f.name == n) = some fh ∧ FieldInst ft fh) := by
  induction h with
  | nil => simp
  | @cons a b as bs hr _ ih =>
    have hn := hr.name
    by_cases hb : a.name == n
    · have hb' : b.name == n := by rw [hn]; exact hb
      rw [find_pos _ hb', find_pos _ hb]
      constructor
      · intro fh e; cases e; exact ⟨a, rfl, hr⟩
      · intro fh e; cases e; exact ⟨b, rfl, hr⟩
    · have hb' : ¬ (b.name == n) = true := by rw [hn]; exact hb
      rw [find_neg _ hb', find_neg _ hb]
      exact ih

theorem Inst.find {t h : Hdr} (hi : Inst t h) {n : CStr} {fh : Field} (hf : findField h n = some fh) :
    ∃ ft, findField t n = some ft ∧ FieldInst ft fh := (allRel_find hi.fields n).1 fh hf

theorem Inst.find' {t h : Hdr} (hi : Inst t h) {n : CStr} {ft : Field} (hf : findField t n = some ft) :
    ∃ fh, findField h n = some fh ∧ FieldInst ft fh := (allRel_find hi.fields n).2 ft hf

theorem Inst.find_none {t h : Hdr} (hi : Inst t h) {n : CStr} (hf : findField t n = none) : findField h n = none := by
  cases e : findField h n with
  | none => rfl
  | some f =>
    obtain ⟨ft, h1, _⟩ := hi.find e
    rw [hf] at h1; simp at h1

theorem Inst.upd {t h : Hdr} (hi : Inst t h) (n : CStr) (g : Field → Field)
    (hg : ∀ ft f, ft ∈ t.fields → FieldInst ft f → f.name = n → FieldInst ft (g f)) : Inst t (updField h n g) :=
  ⟨hi.name, hi.size, hi.fill, hi.parser, allRel_updFirst hi.fields _ g (fun ft f ht hr hp => hg ft f ht hr (by simpa using hp))⟩

theorem Inst.skipAll {t h : Hdr} (hi : Inst t h) : Inst t (Ef.skipAll h) :=
  ⟨hi.name, hi.size, hi.fill, hi.parser, allRel_map hi.fields _ (fun _ _ hr => hr.setSkip true)⟩

theorem Inst.unset {t h : Hdr} (hi : Inst t h) (n : CStr) : Inst t (Ef.setVal h n none) :=
  hi.upd n _ (fun _ _ _ hr _ => hr.setVal' none (by simp))

/-- Set the first field of that name in an instance, the value having the length of the first field of that name. -/
theorem allRel_updFirst_find {ts hs : List Field} (h : AllRel FieldInst ts hs) (n : CStr) (g : Field → Field)
    (hg : ∀ ft f, ts.find? (fun f : Field => f.name == n) = some ft → FieldInst ft f → FieldInst ft (g f)) :
    AllRel FieldInst ts (updFirst (fun f => f.name == n) g hs) := by
  induction h with
  | nil => exact AllRel.nil
  | @cons a b as bs hr _ ih =>
    unfold updFirst
    have hn := hr.name
    split
    · rename_i hp
      have : (a.name == n) = true := by rw [← hn]; exact hp
      exact AllRel.cons (hg _ _ (by rw [find_pos _ this]) hr) (by assumption)
    · rename_i hp
      have : ¬ (a.name == n) = true := by rw [← hn]; exact hp
      exact AllRel.cons hr (ih (fun ft f ht => hg ft f (by rw [find_neg _ this]; exact ht)))

theorem Inst.updFind {t h : Hdr} (hi : Inst t h) (n : CStr) (g : Field → Field)
    (hg : ∀ ft f, findField t n = some ft → FieldInst ft f → FieldInst ft (g f)) : Inst t (updField h n g) :=
  ⟨hi.name, hi.size, hi.fill, hi.parser, allRel_updFirst_find hi.fields n g hg⟩

theorem FieldInst.refl {f : Field} (h : f.val = none) : FieldInst f f := by
  refine ⟨?_, by simp [h]⟩
  cases f; rfl

theorem allRel_refl {fs : List Field} (h : ∀ f ∈ fs, f.val = none) : AllRel FieldInst fs fs := by
  induction fs with
  | nil => exact AllRel.nil
  | cons f fs ih => exact AllRel.cons (FieldInst.refl (h f (by simp))) (ih (fun g hg => h g (by simp [hg])))

theorem Inst.refl {t : Hdr} (h : ∀ f ∈ t.fields, f.val = none) : Inst t t :=
  ⟨rfl, rfl, rfl, rfl, allRel_refl h⟩

/-! ## The templates with a field of variable size -/

/-- `coap` with a token of `k` bytes. -/
def coapShape (k : Nat) : Hdr :=
  { name := c!"coap", type := 0, size := 4 + k, fill := .coap, parser := .fields, fields := [
    { name := c!"ver", width := 2, offset := 0, dflt := some [1#8] },
    { name := c!"type", width := 2, offset := 2, dflt := some [0#8] },
    { name := c!"tkl", width := 4, offset := 4, dflt := some [0#8] },
    { name := c!"code", width := 8, offset := 8, dflt := some [0#8], parser := .coapCode },
    { name := c!"msgid", width := 16, offset := 16, dflt := some [0#8, 0#8] },
    { name := c!"token", width := k * 8, offset := 32, parser := .coapToken }] }

theorem coap_shape : HDR_COAP = coapShape 0 := by decide +kernel

/-- `profinet-rtc` with `k` data bytes. -/
def pnetShape (k : Nat) : Hdr :=
  { name := c!"profinet-rtc", type := 34962, size := k + 6, fill := .none, parser := .fields, fields := [
    { name := c!"frameid", width := 16, offset := 0 },
    { name := c!"data", width := k * 8, offset := 16, parser := .profinetData },
    { name := c!"cycle", width := 16, offset := 16 + k * 8 },
    { name := c!"ignore", width := 1, offset := 32 + k * 8 },
    { name := c!"reserved2", width := 1, offset := 33 + k * 8 },
    { name := c!"station-ok", width := 1, offset := 34 + k * 8, dflt := some [1#8] },
    { name := c!"provider-state-run", width := 1, offset := 35 + k * 8, dflt := some [1#8] },
    { name := c!"reserved1", width := 1, offset := 36 + k * 8 },
    { name := c!"data-valid", width := 1, offset := 37 + k * 8, dflt := some [1#8] },
    { name := c!"redundancy", width := 1, offset := 38 + k * 8 },
    { name := c!"primary", width := 1, offset := 39 + k * 8, dflt := some [1#8] },
    { name := c!"transfer-status", width := 8, offset := 40 + k * 8 }] }

theorem pnet_shape : HDR_PNET_RTC = pnetShape 40 := by decide +kernel

/-- `coap-opt` with `k` bytes of value, in a header that has room for `m` bytes. -/
def optShape (k m : Nat) : Hdr :=
  { name := c!"coap-opt", type := 0, size := 2 + m, fill := .coapOpt, parser := .fields, fields := [
    { name := c!"num", width := 16, offset := 0 },
    { name := c!"val", width := k * 8, offset := 16, multi := .coapOptVal }] }

theorem opt_shape : HDR_COAP_OPTIONS = optShape 0 0 := by decide +kernel

/-- `coap-parms` with `k` bytes. -/
def parmsShape (k : Nat) : Hdr :=
  { name := c!"coap-parms", type := 0, size := max 1 k, fill := .none, parser := .fields, fields := [
    { name := c!"par", width := k * 8, offset := 0, multi := .coapParms }] }

theorem parms_shape : HDR_COAP_PARMS = parmsShape 0 := by decide +kernel

/-- `data` with `k` bytes in a header of size `s`. -/
def dataShape (k s : Nat) : Hdr :=
  { name := c!"data", type := 0, size := s, fill := .none, parser := .payload, fields := [
    { name := c!"hex", width := k * 8, offset := 0 }] }

theorem data_shape : HDR_PAYLOAD = dataShape 0 1 := by decide +kernel

/-- Largest number of bytes of a field of variable size in the statements below. -/
def maxVar : Nat := 2 ^ 50

/-- `t'` is the template `t`, resized if it has a field of variable size. `B` bounds how often the value of a
`coap-opt` was given. -/
inductive Variant (B : Nat) : Hdr → Hdr → Prop
  | same (t : Hdr) : Variant B t t
  | coap (k : Nat) : k ≤ 8 → Variant B HDR_COAP (coapShape k)
  | pnet (k : Nat) : k < maxVar → Variant B HDR_PNET_RTC (pnetShape k)
  | opt (k m : Nat) : k ≤ m → k < maxVar → m ≤ B * 2 ^ 40 → Variant B HDR_COAP_OPTIONS (optShape k m)
  | parms (k : Nat) : k < maxVar → Variant B HDR_COAP_PARMS (parmsShape k)
  | data (k : Nat) : k < maxVar → Variant B HDR_PAYLOAD (dataShape k k)

theorem Variant.mono {B B' : Nat} {t t' : Hdr} (h : Variant B t t') (hB : B ≤ B') : Variant B' t t' := by
  cases h with
  | same => exact Variant.same _
  | coap k h => exact Variant.coap k h
  | pnet k h => exact Variant.pnet k h
  | opt k m h1 h2 h3 => exact Variant.opt k m h1 h2 (Nat.le_trans h3 (Nat.mul_le_mul_right _ hB))
  | parms k h => exact Variant.parms k h
  | data k h => exact Variant.data k h

/-! ## Values produced by the field parsers have the length of the field -/

/-- A field of the given kind of which the parser leaves the header alone. -/
def FixedField (f : Field) : Prop :=
  f.multi = .none ∧ (f.parser = .none ∨ (f.parser = .coapCode ∧ f.width = 8) ∨
    (f.parser = .opcUint16 ∧ f.width = 16) ∨ f.parser = .fieldHex)

instance (f : Field) : Decidable (FixedField f) := inferInstanceAs (Decidable (_ ∧ _))

theorem bitToByte_bounds (w : Nat) : w ≤ 8 * bitToByte w ∧ 8 * bitToByte w ≤ w + 7 + (1 - w) := by
  unfold bitToByte; omega

theorem coapParseCode_length {s : CStr} {b : Buf} (h : coapParseCode s = some b) : b.length = 1 := by
  unfold coapParseCode at h
  split at h
  · split at h
    · simp only at h
      split at h
      · simp only [Option.some.injEq] at h; rw [← h]; rfl
      · simp at h
    · simp at h
  · simp at h

theorem opcParseUint16_length {s : CStr} {b : Buf} (h : opcParseUint16 s = .ok (some b)) : b.length = 2 := by
  unfold opcParseUint16 at h
  rw [Out.bind_eq_ok] at h
  obtain ⟨r, h1, h⟩ := h
  cases r with
  | none => simp at h
  | some v =>
    have hl := parseBytes_length h1
    simp only at h
    split at h
    · simp only [Out.ok.injEq, Option.some.injEq] at h
      rw [← h, ← hl]; rfl
    · simp at h

theorem parseFieldHex_length {s : CStr} {n : Nat} {b : Buf} (h : parseFieldHex s n = .ok (some b)) : b.length = n := by
  unfold parseFieldHex at h
  rw [Out.bind_eq_ok] at h
  obtain ⟨r, h1, h⟩ := h
  cases r with
  | none => simp at h
  | some v =>
    simp only at h
    split at h
    · simp at h
    · split at h
      · simp at h
      · simp only [Out.ok.injEq, Option.some.injEq] at h
        rw [← h]; simp [balloc]; omega

theorem runFieldParser_fixed {h h' : Hdr} {f : Field} {s : CStr} {b : Option Buf} (hf : FixedField f)
    (hr : runFieldParser h f s = .ok (h', b)) :
    h' = h ∧ ∀ v, b = some v → f.width ≤ 8 * v.length ∧ 8 * v.length ≤ f.width + 7 + 128 * (1 - f.width - varLen f) := by
  unfold runFieldParser at hr
  obtain ⟨hmu, hp | ⟨hp, hw⟩ | ⟨hp, hw⟩ | hp⟩ := hf
  all_goals have hvl : varLen f = 0 := by simp [varLen, hmu, hp]
  · rw [hp] at hr
    simp only [Out.bind_eq_ok, Out.ok.injEq, Prod.mk.injEq] at hr
    obtain ⟨a, h1, rfl, rfl⟩ := hr
    refine ⟨rfl, fun v hv => ?_⟩
    subst hv
    rw [parseBytes_length h1]; have := bitToByte_bounds f.width; omega
  · rw [hp] at hr
    simp only [Out.ok.injEq, Prod.mk.injEq] at hr
    obtain ⟨rfl, rfl⟩ := hr
    refine ⟨rfl, fun v hv => ?_⟩
    rw [coapParseCode_length hv, hw]; omega
  · rw [hp] at hr
    simp only [Out.bind_eq_ok, Out.ok.injEq, Prod.mk.injEq] at hr
    obtain ⟨a, h1, rfl, rfl⟩ := hr
    refine ⟨rfl, fun v hv => ?_⟩
    subst hv
    rw [opcParseUint16_length h1, hw]; omega
  · rw [hp] at hr
    simp only [Out.bind_eq_ok, Out.ok.injEq, Prod.mk.injEq] at hr
    obtain ⟨a, h1, rfl, rfl⟩ := hr
    refine ⟨rfl, fun v hv => ?_⟩
    subst hv
    rw [parseFieldHex_length h1]; have := bitToByte_bounds f.width; omega

end Ef
