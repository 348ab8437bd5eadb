import Verif.Lemmas.ValueText
import Verif.Props.Parse

/-!
# Property theorems: exactly which texts are accepted as a value (C86 - C88)

`parseBytes s n` is the value the tool reads from the text `s` for a field of `n` bytes, `.ok none` when it
rejects the text. C01 - C06 say what well-formed texts mean, here it is the other way round: whatever is
accepted has one of these forms.
-/

namespace Ef.Props

open Ef Ef.Spec

/-! ## C86 -/

/-- **C86, as a user would want it** (false, see `C86_false`): a text with a colon is accepted for a field of
6 bytes only if it is a MAC address, and the value is this address. -/
def C86_statement : Prop :=
  ∀ (s : CStr) (v : Buf), ch!":" ∈ s → parseBytes s 6 = .ok (some v) → ProperMac s v

/-- The elements of a text without a double colon are six. -/
theorem joinColon_colons {A : List CStr} {bs : Buf} (h : AllRel MacElem A bs) :
    (joinColon A).countP isColon + 1 = max A.length 1 := by
  have hz : ∀ {s : CStr} {b : Byte}, MacElem s b → s.countP isColon = 0 := by
    intro s b hs
    obtain ⟨n, hn, _⟩ := hs
    rw [List.countP_eq_zero]
    intro c hc
    obtain ⟨d, hd, _⟩ := numeral_mem hn c hc
    simp [(digit_class hd).2.2.1]
  induction h with
  | nil => rfl
  | @cons s b A bs hs hA ih =>
    cases A with
    | nil => simp [joinColon, hz hs]
    | cons s2 A =>
      simp only [joinColon, List.countP_append, hz hs]
      simp only [List.length_cons] at ih ⊢
      have : c!":".countP isColon = 1 := by decide
      omega

/-- `1:2:3` is accepted, as 00:00:00:01:02:03. -/
theorem C86_false : ¬ C86_statement := by
  intro h
  have h1 := h c!"1:2:3" [0, 0, 0, 1, 2, 3] (by decide) (by decide +kernel)
  generalize hs : c!"1:2:3" = s at h1
  generalize ([0, 0, 0, 1, 2, 3] : Buf) = v at h1
  cases h1 with
  | full hA hl =>
    have := joinColon_colons hA
    rw [← hs, hl] at this
    revert this
    decide
  | @split A B as bs hA hB hl =>
    have hin : c!"::" <:+: c!"1:2:3" := ⟨joinColon A, joinColon B, hs.symm⟩
    revert hin
    decide

/-- **C86, proved part:** the exact set of texts with a colon that are accepted for a field of 6 bytes, and
their values. Missing compared with `C86_statement`: `MacText` also allows fewer than six elements without a
double colon and one stray colon at each end; texts that begin with `0b` are rejected (C05). -/
theorem C86_mac_texts_partial (s : CStr) (v : Buf) (hc : ch!":" ∈ s) :
    parseBytes s 6 = .ok (some v) ↔ MacText s v ∧ s.take 2 ≠ c!"0b" := by
  rw [parseBytes_iff]
  constructor
  · intro h
    cases h with
    | number hn hk _ =>
      exfalso
      have hd : ∀ {base k s}, Numeral base s k → ch!":" ∉ s := by
        intro base k s h hm
        obtain ⟨d, hd, _⟩ := numeral_mem h _ hm
        have := (digit_class hd).2.2.1
        revert this
        decide
      cases hk with
      | dec _ _ h => exact hd h hc
      | hex _ _ h => exact hd h (by simpa using hc)
      | oct _ _ h => exact hd h (by simpa using hc)
      | bin _ _ h => exact hd h (by simpa using hc)
    | hex hn => omega
    | bin hn => omega
    | quad hn => omega
    | mac _ hm _ hb => exact ⟨hm, hb⟩
    | ip6 hn => omega
  · rintro ⟨hm, hb⟩
    exact Value.mac rfl hm hc hb

/-- Every proper address is among them. -/
theorem properMac_macText {s : CStr} {v : Buf} (h : ProperMac s v) : MacText s v := by
  cases h with
  | full hA hl =>
    have := MacText.plain (Or.inl rfl) (Or.inl rfl) hA (by omega)
    have hb := allRel_length hA
    have h6 : 6 - v.length = 0 := by omega
    simpa [h6, zeros] using this
  | split hA hB hl =>
    have := MacText.split (Or.inl rfl) (Or.inl rfl) (fun _ => rfl) (fun _ => rfl) hA hB hl
    simpa using this

example : parseBytes c!":1:2:" 6 = .ok (some [0, 0, 0, 0, 1, 2]) := by decide +kernel
example : parseBytes c!"1::2::3" 6 = .ok none := by decide +kernel
example : parseBytes c!"1:2:3:4:5:6:7" 6 = .ok none := by decide +kernel
example : parseBytes c!"123:1::" 6 = .ok none := by decide +kernel

/-! ## C87 -/

/-- **C87.** A text with a colon that does not begin with `0b` is accepted for a field of 16 bytes exactly when
it is an IPv6 address in one of the forms of RFC 4291, section 2.2, including the one that ends in a dotted
quad, and the value is this address; every other text with a colon is rejected. -/
theorem C87_ipv6_texts (s : CStr) (hc : ch!":" ∈ s) :
    (∀ v, s.take 2 ≠ c!"0b" → (parseBytes s 16 = .ok (some v) ↔ Ip6Text s v)) ∧
    ((s.take 2 = c!"0b" ∨ ¬ ∃ v, Ip6Text s v) → parseBytes s 16 = .ok none) := by
  have hd : ∀ {base k s}, Numeral base s k → ch!":" ∉ s := by
    intro base k s h hm
    obtain ⟨d, hd, _⟩ := numeral_mem h _ hm
    have := (digit_class hd).2.2.1
    revert this
    decide
  have sound : ∀ v, parseBytes s 16 = .ok (some v) → Ip6Text s v ∧ s.take 2 ≠ c!"0b" := by
    intro v h
    rw [parseBytes_iff] at h
    cases h with
    | number hn => omega
    | hex _ h => exact absurd (by simpa using hc) (hd h)
    | bin _ h => exact absurd (by simpa using hc) (hd h)
    | quad hn => omega
    | mac hn => omega
    | ip6 _ hm _ hb => exact ⟨hm, hb⟩
  refine ⟨fun v hb => ⟨fun h => (sound v h).1, fun h => (parseBytes_iff _ _ _).mpr (Value.ip6 rfl h hc hb)⟩, fun h => ?_⟩
  rcases parseBytes_outcomes s 16 with h1 | ⟨v, h1, _⟩ | ⟨_, _, h1⟩
  · exact h1
  · obtain ⟨h2, h3⟩ := sound v h1
    rcases h with h | h
    · exact absurd h h3
    · exact absurd ⟨v, h2⟩ h
  · rcases h1 with ⟨d, k, hk, rfl, _⟩ | ⟨d, k, hk, rfl, _⟩
    · exact absurd (by simpa using hc) (hd hk)
    · exact absurd (by simpa using hc) (hd hk)

example : Ip6Text c!"::ffff:10.0.0.1" [0, 0, 0, 0, 0, 0, 0, 0, 0, 0, 0xff, 0xff, 10, 0, 0, 1] :=
  ((C87_ipv6_texts c!"::ffff:10.0.0.1" (by decide)).1 _ (by decide)).mp (by decide +kernel)
example : parseBytes c!"1:2:3:4:5:6:7" 16 = .ok none := by decide +kernel
example : parseBytes c!"1::2::3" 16 = .ok none := by decide +kernel
example : parseBytes c!"::10.0.0.256" 16 = .ok none := by decide +kernel
example : parseBytes c!"1:2:3:4:5:6:7:8::" 16 = .ok none := by decide +kernel

/-! ## C88 -/

/-- **C88, as a user would want it** (false, see `C88_false`): what is accepted for a field of `n` bytes is a
text for a value of `n` bytes, and the rest is rejected. -/
def C88_statement : Prop :=
  ∀ (s : CStr) (n : Nat), (∀ v, parseBytes s n = .ok (some v) ↔ Value n s v) ∧
    ((¬ ∃ v, Value n s v) → parseBytes s n = .ok none)

theorem tooLong_ub {s : CStr} {n : Nat} (h : TooLong s n) : parseBytes s n = .ub .oobWrite := by
  obtain ⟨hn, ⟨d, k, hk, rfl, he, hl⟩ | ⟨d, k, hk, rfl, he, hl⟩⟩ := h
  · rw [parseBytes_long_hex hk n hn, parseBytesHex_overflow hk _ he hl]
  · rw [parseBytes_long_bin hk n hn, parseBytesBinary_overflow hk _ he hl]

theorem tooLong_example : TooLong (c!"0x" ++ List.replicate 20 ch!"0") 9 :=
  ⟨by decide, Or.inl ⟨_, 0, numeral_zeros 16 (by decide) 20, rfl, by decide, by decide⟩⟩

theorem C88_false : ¬ C88_statement := by
  intro h
  have hu := tooLong_ub tooLong_example
  have := (h (c!"0x" ++ List.replicate 20 ch!"0") 9).2 (by
    rintro ⟨v, hv⟩
    rw [parseBytes_value hv] at hu
    simp at hu)
  rw [hu] at this
  simp at this

/-- **C88, proved part:** the accepted texts and their values are exactly those of `Value`; every other text
is rejected, except (missing) that even hexadecimal or binary numbers longer than a field of more than 8 bytes
write outside the buffer. -/
theorem C88_all_texts_partial (s : CStr) (n : Nat) :
    (∀ v, parseBytes s n = .ok (some v) ↔ Value n s v) ∧
    ((¬ ∃ v, Value n s v) → ¬ TooLong s n → parseBytes s n = .ok none) ∧
    (TooLong s n → parseBytes s n = .ub .oobWrite) := by
  refine ⟨fun v => parseBytes_iff s n v, fun h ht => ?_, tooLong_ub⟩
  rcases parseBytes_outcomes s n with h1 | ⟨v, _, h1⟩ | ⟨_, h1⟩
  · exact h1
  · exact absurd ⟨v, h1⟩ h
  · exact absurd h1 ht

/-- A text has at most one value. -/
theorem value_unique {s : CStr} {n : Nat} {v w : Buf} (h1 : Value n s v) (h2 : Value n s w) : v = w := by
  have e1 := parseBytes_value h1
  rw [parseBytes_value h2] at e1
  simpa using e1.symm

example : ∃ v, Value 2 c!"0xfe" v := ⟨_, (parseBytes_iff _ _ [0#8, 0xfe#8]).mp (by decide +kernel)⟩
example : parseBytes c!"0X12" 2 = .ok none := by decide +kernel
example : parseBytes c!"12ab" 2 = .ok none := by decide +kernel
example : parseBytes c!"-1" 2 = .ok none := by decide +kernel
example : parseBytes c!"123456789012" 9 = .ok none := by decide +kernel

end Ef.Props
