import Verif.Lemmas.Ip6Text

/-! # The language of `parse_bytes` -/

namespace Ef

open Spec

/-! ## Numbers -/

theorem numeral_of_digits {base : Nat} (s : CStr) (h : ∀ c ∈ s, ∃ d, Digit c d ∧ d < base) : ∃ n, Numeral base s n := by
  have key : ∀ r : CStr, (∀ c ∈ r, ∃ d, Digit c d ∧ d < base) → ∃ n, Numeral base r.reverse n := by
    intro r
    induction r with
    | nil => intro _; exact ⟨0, Numeral.nil⟩
    | cons c r ih =>
      intro h
      obtain ⟨n, hn⟩ := ih fun x hx => h x (List.mem_cons_of_mem _ hx)
      obtain ⟨d, hd, hb⟩ := h c (by simp)
      exact ⟨n * base + d, by rw [List.reverse_cons]; exact Numeral.snoc _ _ _ _ hn hd hb⟩
  have := key s.reverse (by simpa using h)
  simpa using this

theorem char_base (c : Byte) (h : (inBase2 c || inBase8 c || inBase10 c || inBase16 c || isDot c || isColon c) = true)
    (hd : isDot c = false) (hc : isColon c = false) : ∃ d, Digit c d ∧ d < 16 ∧ (inBase16 c = false → d < 10) ∧
      (inBase16 c = false → inBase10 c = false → d < 8) ∧
      (inBase16 c = false → inBase10 c = false → inBase8 c = false → d < 2) := by
  have key : ∀ c : Byte, (inBase2 c || inBase8 c || inBase10 c || inBase16 c || isDot c || isColon c) = true →
      isDot c = false → isColon c = false → ∃ d, d < 16 ∧ hexDigit c = some d ∧ (inBase16 c = false → d < 10) ∧
      (inBase16 c = false → inBase10 c = false → d < 8) ∧
      (inBase16 c = false → inBase10 c = false → inBase8 c = false → d < 2) := by decide +kernel
  obtain ⟨d, h1, h2, h3, h4, h5⟩ := key c h hd hc
  exact ⟨d, (digit_iff _ _).mpr h2, h1, h3, h4, h5⟩

theorem any_false_mem {p : Byte → Bool} {s : CStr} (h : ¬ s.any p = true) : ∀ c ∈ s, p c = false := by
  intro c hc
  have := (List.any_eq_false.mp (by simpa using h)) c hc
  simpa using this

/-- A text with a number base is a number. -/
theorem numBase_sound {p : Prefix} {d : CStr} (h : numBase p d ≠ 0) :
    (p = .x ∧ numBase p d = 16 ∧ ∃ k, Numeral 16 d k) ∨ (p = .none ∧ numBase p d = 10 ∧ ∃ k, Numeral 10 d k) ∨
    (p = .o ∧ numBase p d = 8 ∧ ∃ k, Numeral 8 d k) ∨ (p = .b ∧ numBase p d = 2 ∧ ∃ k, Numeral 2 d k) := by
  have ho : ¬ hasOther d = true → ∀ c ∈ d, (inBase2 c || inBase8 c || inBase10 c || inBase16 c || isDot c || isColon c) = true := by
    intro h c hc
    have := any_false_mem h c hc
    simpa only [Bool.not_eq_false', Bool.not_eq_eq_eq_not, Bool.not_false] using this
  unfold numBase at h ⊢
  split at h
  · rename_i hx
    left
    refine ⟨hx.1, by rw [if_pos hx], numeral_of_digits d fun c hc => ?_⟩
    have h2 := hx.2.2
    simp only [Bool.or_eq_true, not_or] at h2
    obtain ⟨e, he, h16, _⟩ := char_base c (ho hx.2.1 c hc) (any_false_mem h2.1 c hc) (any_false_mem h2.2 c hc)
    exact ⟨e, he, h16⟩
  · rename_i hn1
    rw [if_neg hn1]
    split at h
    · rename_i hx
      right
      left
      refine ⟨hx.1, by rw [if_pos hx], numeral_of_digits d fun c hc => ?_⟩
      have h2 := hx.2.2
      simp only [Bool.or_eq_true, not_or] at h2
      obtain ⟨e, he, h16, h10, _⟩ := char_base c (ho hx.2.1 c hc) (any_false_mem h2.1.2 c hc) (any_false_mem h2.2 c hc)
      exact ⟨e, he, h10 (any_false_mem h2.1.1 c hc)⟩
    · rename_i hn2
      rw [if_neg hn2]
      split at h
      · rename_i hx
        right
        right
        left
        refine ⟨hx.1, by rw [if_pos hx], numeral_of_digits d fun c hc => ?_⟩
        have h2 := hx.2.2
        simp only [Bool.or_eq_true, not_or] at h2
        obtain ⟨e, he, h16, h10, h8, _⟩ := char_base c (ho hx.2.1 c hc) (any_false_mem h2.1.2 c hc) (any_false_mem h2.2 c hc)
        exact ⟨e, he, h8 (any_false_mem h2.1.1.2 c hc) (any_false_mem h2.1.1.1 c hc)⟩
      · rename_i hn3
        rw [if_neg hn3]
        split at h
        · rename_i hx
          right
          right
          right
          refine ⟨hx.1, by rw [if_pos hx], numeral_of_digits d fun c hc => ?_⟩
          have h2 := hx.2.2
          simp only [Bool.or_eq_true, not_or] at h2
          obtain ⟨e, he, h16, h10, h8, h22⟩ := char_base c (ho hx.2.1 c hc) (any_false_mem h2.1.2 c hc) (any_false_mem h2.2 c hc)
          exact ⟨e, he, h22 (any_false_mem h2.1.1.2 c hc) (any_false_mem h2.1.1.1.2 c hc) (any_false_mem h2.1.1.1.1 c hc)⟩
        · exact absurd rfl h

theorem splitPrefix_eq (s : CStr) : (splitPrefix s = (.x, s.drop 2) ∧ s = c!"0x" ++ s.drop 2) ∨
    (splitPrefix s = (.o, s.drop 2) ∧ s = c!"0o" ++ s.drop 2) ∨ (splitPrefix s = (.b, s.drop 2) ∧ s = c!"0b" ++ s.drop 2) ∨
    (splitPrefix s = (.none, s) ∧ s.take 2 ≠ c!"0x" ∧ s.take 2 ≠ c!"0o" ∧ s.take 2 ≠ c!"0b") := by
  unfold splitPrefix
  have e := (List.take_append_drop 2 s).symm
  split
  · rename_i h
    left
    exact ⟨rfl, by rw [h] at e; exact e⟩
  · split
    · rename_i h
      right; left
      exact ⟨rfl, by rw [h] at e; exact e⟩
    · split
      · rename_i h
        right; right; left
        exact ⟨rfl, by rw [h] at e; exact e⟩
      · right; right; right
        exact ⟨rfl, by assumption, by assumption, by assumption⟩

theorem even_hex_lt {s : CStr} {k : Nat} (h : Numeral 16 s k) (he : s.length % 2 = 0) : k < 256 ^ (s.length / 2) := by
  have hlt := numeral_lt h
  have e : (16 : Nat) ^ s.length = 256 ^ (s.length / 2) := by
    rw [show (256 : Nat) = 16 ^ 2 by decide, ← Nat.pow_mul]
    congr 1
    omega
  rwa [e] at hlt

theorem even_bin_lt {s : CStr} {k : Nat} (h : Numeral 2 s k) (he : s.length % 8 = 0) : k < 256 ^ (s.length / 8) := by
  have hlt := numeral_lt h
  have e : (2 : Nat) ^ s.length = 256 ^ (s.length / 8) := by
    rw [show (256 : Nat) = 2 ^ 8 by decide, ← Nat.pow_mul]
    congr 1
    omega
  rwa [e] at hlt

theorem long_hex_value {d : CStr} {k n : Nat} (h : Numeral 16 d k) (hn : 8 < n) (hne : d ≠ []) (he : d.length % 2 = 0)
    (hl : d.length / 2 ≤ n) : parseBytes (c!"0x" ++ d) n = .ok (some (beBytes n k)) := by
  rw [parseBytes_long_hex h _ hn, parseBytesHex_fits h _ hne he hl, ← beBytes_zeros _ _ _ (even_hex_lt h he),
    Nat.sub_add_cancel hl]

theorem long_bin_value {d : CStr} {k n : Nat} (h : Numeral 2 d k) (hn : 8 < n) (hne : d ≠ []) (he : d.length % 8 = 0)
    (hl : d.length / 8 ≤ n) : parseBytes (c!"0b" ++ d) n = .ok (some (beBytes n k)) := by
  rw [parseBytes_long_bin h _ hn, parseBytesBinary_fits h _ hne he hl, ← beBytes_zeros _ _ _ (even_bin_lt h he),
    Nat.sub_add_cancel hl]

/-- What happens to a number. -/
theorem number_cases {s : CStr} (n : Nat) (h : numBase (splitPrefix s).1 (splitPrefix s).2 ≠ 0) :
    parseBytes s n = .ok none ∨ (∃ v, parseBytes s n = .ok (some v) ∧ Value n s v) ∨ (parseBytes s n = .ub .oobWrite ∧ TooLong s n) := by
  have lit : ∀ k, Literal s k → n ≤ 8 → parseBytes s n = .ok none ∨ (∃ v, parseBytes s n = .ok (some v) ∧ Value n s v) ∨
      (parseBytes s n = .ub .oobWrite ∧ TooLong s n) := by
    intro k hk hn
    have := parseBytes_literal hk n hn
    by_cases h64 : k < 2 ^ 64
    · rw [if_pos h64] at this
      exact Or.inr (Or.inl ⟨_, this, Value.number hn hk h64⟩)
    · rw [if_neg h64] at this
      exact Or.inl this
  have hcol : ∀ base d k, Numeral base d k → d.any isColon = false := fun base d k h =>
    any_false_of fun c hc => by obtain ⟨e, he, _⟩ := numeral_mem h c hc; exact (digit_class he).2.2.1
  rcases splitPrefix_eq s with ⟨hs, he⟩ | ⟨hs, he⟩ | ⟨hs, he⟩ | ⟨hs, _⟩
  · rw [hs] at h
    simp only at h
    rcases numBase_sound h with ⟨_, hb, k, hk⟩ | ⟨hp, _⟩ | ⟨hp, _⟩ | ⟨hp, _⟩
    · by_cases hn : n ≤ 8
      · exact lit k (by rw [he]; exact Literal.hex _ _ hk) hn
      · have hn : 8 < n := by omega
        rw [he]
        by_cases hne : s.drop 2 = []
        · left
          rw [hne] at hk ⊢
          rw [parseBytes_long_hex hk n hn, parseBytesHex_empty]
        · by_cases ho : (s.drop 2).length % 2 = 1
          · left
            rw [parseBytes_long_hex hk n hn, parseBytesHex_odd hk _ ho]
          · have ho : (s.drop 2).length % 2 = 0 := by omega
            by_cases hl : (s.drop 2).length / 2 ≤ n
            · exact Or.inr (Or.inl ⟨_, long_hex_value hk hn hne ho hl, Value.hex hn hk hne ho hl⟩)
            · refine Or.inr (Or.inr ⟨?_, hn, Or.inl ⟨_, k, hk, rfl, ho, by omega⟩⟩)
              rw [parseBytes_long_hex hk n hn, parseBytesHex_overflow hk _ ho (by omega)]
    all_goals simp at hp
  · rw [hs] at h
    simp only at h
    rcases numBase_sound h with ⟨hp, _⟩ | ⟨hp, _⟩ | ⟨_, hb, k, hk⟩ | ⟨hp, _⟩
    · simp at hp
    · simp at hp
    · by_cases hn : n ≤ 8
      · exact lit k (by rw [he]; exact Literal.oct _ _ hk) hn
      · left
        unfold parseBytes
        rw [hs]
        simp [hb, hn]
    · simp at hp
  · rw [hs] at h
    simp only at h
    rcases numBase_sound h with ⟨hp, _⟩ | ⟨hp, _⟩ | ⟨hp, _⟩ | ⟨_, hb, k, hk⟩
    · simp at hp
    · simp at hp
    · simp at hp
    · by_cases hn : n ≤ 8
      · exact lit k (by rw [he]; exact Literal.bin _ _ hk) hn
      · have hn : 8 < n := by omega
        rw [he]
        by_cases hne : s.drop 2 = []
        · left
          rw [hne] at hk ⊢
          rw [parseBytes_long_bin hk n hn]
          rfl
        · by_cases ho : (s.drop 2).length % 8 ≠ 0
          · left
            rw [parseBytes_long_bin hk n hn, parseBytesBinary_misaligned hk _ ho]
          · have ho : (s.drop 2).length % 8 = 0 := by omega
            by_cases hl : (s.drop 2).length / 8 ≤ n
            · exact Or.inr (Or.inl ⟨_, long_bin_value hk hn hne ho hl, Value.bin hn hk hne ho hl⟩)
            · refine Or.inr (Or.inr ⟨?_, hn, Or.inr ⟨_, k, hk, rfl, ho, by omega⟩⟩)
              rw [parseBytes_long_bin hk n hn, parseBytesBinary_overflow hk _ ho (by omega)]
  · rw [hs] at h
    simp only at h
    rcases numBase_sound h with ⟨hp, _⟩ | ⟨_, hb, k, hk⟩ | ⟨hp, _⟩ | ⟨hp, _⟩
    · simp at hp
    · by_cases hn : n ≤ 8
      · exact lit k (Literal.dec _ _ hk) hn
      · left
        have hd : s.any isDot = false :=
          any_false_of fun c hc => by obtain ⟨e, he, _⟩ := numeral_mem hk c hc; exact (digit_class he).2.1
        unfold parseBytes
        rw [hs]
        simp [hb, hn, hcol _ _ _ hk, hd]
    · simp at hp
    · simp at hp

/-! ## Addresses -/

/-- Hexadecimal digits, colons and dots. -/
def AddrText (s : CStr) : Prop := ∀ c ∈ s, (∃ d, Digit c d) ∨ c = ch!":" ∨ c = ch!"."

theorem addrText_append {s t : CStr} (h1 : AddrText s) (h2 : AddrText t) : AddrText (s ++ t) := by
  intro c hc
  rcases List.mem_append.mp hc with h | h
  · exact h1 c h
  · exact h2 c h

theorem addrText_colon {s : CStr} (h : ColonText s) : AddrText s := by
  intro c hc
  rcases h c hc with h | h
  · exact Or.inl h
  · exact Or.inr (Or.inl h)

theorem addrText_quad {a b c d : Nat} (ha : a < 256) (hb : b < 256) (hc : c < 256) (hd : d < 256) : AddrText (quadText a b c d) := by
  intro x hx
  unfold quadText at hx
  simp only [List.mem_append, List.mem_singleton] at hx
  have oct : ∀ {k : Nat}, k < 256 → x ∈ octetText k → (∃ d, Digit x d) ∨ x = ch!":" ∨ x = ch!"." := by
    intro k hk h
    obtain ⟨d, _, hd⟩ := octetText_digits hk x h
    exact Or.inl ⟨d, hd⟩
  rcases hx with (((((hx | hx) | hx) | hx) | hx) | hx) | hx
  · exact oct ha hx
  · exact Or.inr (Or.inr hx)
  · exact oct hb hx
  · exact Or.inr (Or.inr hx)
  · exact oct hc hx
  · exact Or.inr (Or.inr hx)
  · exact oct hd hx

theorem colonText_each {A : List CStr} {gs : List Buf} (h : AllRel Ip6Group A gs) : ColonText (colonEach A) := by
  induction h with
  | nil => intro c hc; simp [colonEach] at hc
  | cons hs _ ih =>
    obtain ⟨n, hn, _⟩ := hs
    exact colonText_append (colonText_append (colonText_numeral hn) colonText_colons) ih

theorem addrText_tail {t : CStr} {b : Buf} (h : Ip6Tail t b) : AddrText t := by
  cases h with
  | groups hA => exact addrText_colon (colonText_ip6 hA)
  | quad hA ha hb hc hd =>
    rw [joinColon_snoc]
    exact addrText_append (addrText_colon (colonText_each hA)) (addrText_quad ha hb hc hd)

theorem addrText_ip6 {s : CStr} {v : Buf} (h : Ip6Text s v) : AddrText s := by
  cases h with
  | full ht _ => exact addrText_tail ht
  | split hA ht _ =>
    exact addrText_append (addrText_append (addrText_colon (colonText_ip6 hA)) (addrText_colon colonText_colons2)) (addrText_tail ht)

theorem colonText_stray {p : CStr} (h : Stray p) : ColonText p := by
  rcases h with rfl | rfl
  · intro c hc; simp at hc
  · exact colonText_colons

theorem colonText_macText {s : CStr} {v : Buf} (h : MacText s v) : ColonText s := by
  cases h with
  | plain hp hq hA _ => exact colonText_append (colonText_append (colonText_stray hp) (colonText_mac hA)) (colonText_stray hq)
  | split hp hq _ _ hA hB _ =>
    exact colonText_append (colonText_append (colonText_append (colonText_append (colonText_stray hp) (colonText_mac hA))
      colonText_colons2) (colonText_mac hB)) (colonText_stray hq)

theorem parseBytes_addr16 {s : CStr} (h : AddrText s) (hc : ch!":" ∈ s) (hb : s.take 2 ≠ c!"0b") :
    parseBytes s 16 = .ok (inetPton6 s) := by
  have hx : ∀ c ∈ s, c ≠ ch!"x" ∧ c ≠ ch!"o" ∧
      (inBase2 c || inBase8 c || inBase10 c || inBase16 c || isDot c || isColon c) = true := by
    intro c hcs
    rcases h c hcs with ⟨d, hd⟩ | rfl | rfl
    · have := digit_class hd
      exact ⟨this.2.2.2.2.2.2.1, this.2.2.2.2.2.2.2.1, this.1⟩
    · decide
    · decide
  have hcol : s.any isColon = true := List.any_eq_true.mpr ⟨_, hc, by decide⟩
  have ho : hasOther s = false := by
    unfold hasOther
    apply any_false_of
    intro c hc
    simp [(hx c hc).2.2]
  have hs : splitPrefix s = (.none, s) := by
    rcases splitPrefix_eq s with ⟨_, he⟩ | ⟨_, he⟩ | ⟨_, he⟩ | ⟨hs, _⟩
    · exact absurd rfl (hx ch!"x" (by rw [he]; simp)).1
    · exact absurd rfl (hx ch!"o" (by rw [he]; simp)).2.1
    · exfalso
      apply hb
      rw [he]
      rfl
    · exact hs
  have hn : numBase .none s = 0 := by
    unfold numBase
    simp [hcol]
  unfold parseBytes
  rw [hs]
  simp [hn, ho, hcol]

/-! ## The three outcomes -/

theorem parseBytes_outcomes (s : CStr) (n : Nat) :
    parseBytes s n = .ok none ∨ (∃ v, parseBytes s n = .ok (some v) ∧ Value n s v) ∨
    (parseBytes s n = .ub .oobWrite ∧ TooLong s n) := by
  by_cases hb : numBase (splitPrefix s).1 (splitPrefix s).2 ≠ 0
  · exact number_cases n hb
  · have hb : numBase (splitPrefix s).1 (splitPrefix s).2 = 0 := by simpa using hb
    rcases splitPrefix_eq s with ⟨hs, he⟩ | ⟨hs, he⟩ | ⟨hs, he⟩ | ⟨hs, _, _, h0b⟩
    · left; rw [hs] at hb; unfold parseBytes; rw [hs]; simp [hb]
    · left; rw [hs] at hb; unfold parseBytes; rw [hs]; simp [hb]
    · left; rw [hs] at hb; unfold parseBytes; rw [hs]; simp [hb]
    · rw [hs] at hb
      simp only at hb
      have hp : parseBytes s n =
          if n = 4 ∧ ¬ hasOther s ∧ ¬ s.any isColon ∧ s.any isDot then .ok (inetPton4 s)
          else if n = 6 ∧ ¬ hasOther s ∧ ¬ s.any isDot ∧ s.any isColon then parseMac s
          else if n = 16 ∧ ¬ hasOther s ∧ s.any isColon then .ok (inetPton6 s) else .ok none := by
        unfold parseBytes
        rw [hs]
        simp only [hb, ne_eq, not_true_eq_false, false_and, if_false, true_and]
        rfl
      have colon : s.any isColon = true → ch!":" ∈ s := by
        intro h
        obtain ⟨c, hc, hcc⟩ := List.any_eq_true.mp h
        have : c = ch!":" := by simpa [isColon] using hcc
        rw [← this]
        exact hc
      rw [hp]
      split
      · rename_i h
        cases hv : inetPton4 s with
        | none => exact Or.inl rfl
        | some v =>
          obtain ⟨a, b, c, d, ha, hb', hc, hd, rfl, rfl⟩ := inetPton4_sound hv
          exact Or.inr (Or.inl ⟨_, rfl, Value.quad h.1 ha hb' hc hd⟩)
      · split
        · rename_i h
          obtain ⟨r, hr, _⟩ := parseMac_total s
          cases r with
          | none => exact Or.inl hr
          | some v => exact Or.inr (Or.inl ⟨v, hr, Value.mac h.1 (parseMac_sound hr) (colon h.2.2.2) h0b⟩)
        · split
          · rename_i h
            cases hv : inetPton6 s with
            | none => exact Or.inl rfl
            | some v => exact Or.inr (Or.inl ⟨v, rfl, Value.ip6 h.1 (inetPton6_sound hv) (colon h.2.2) h0b⟩)
          · exact Or.inl rfl

theorem parseBytes_value {s : CStr} {n : Nat} {v : Buf} (h : Value n s v) : parseBytes s n = .ok (some v) := by
  cases h with
  | number hn hk h64 => rw [parseBytes_literal hk n hn, if_pos h64]
  | hex hn hk hne he hl => exact long_hex_value hk hn hne he hl
  | bin hn hk hne he hl => exact long_bin_value hk hn hne he hl
  | quad hn ha hb hc hd => subst hn; exact parseBytes_quad _ _ _ _ ha hb hc hd
  | mac hn hm hc hb =>
    subst hn
    rw [(parseBytes_colon (colonText_macText hm) hc hb).1]
    exact parseMac_complete hm
  | ip6 hn hm hc hb =>
    subst hn
    rw [parseBytes_addr16 (addrText_ip6 hm) hc hb, inetPton6_complete hm]

theorem parseBytes_iff (s : CStr) (n : Nat) (v : Buf) : parseBytes s n = .ok (some v) ↔ Value n s v := by
  refine ⟨fun h => ?_, parseBytes_value⟩
  rcases parseBytes_outcomes s n with h1 | ⟨w, h1, hw⟩ | ⟨h1, _⟩
  · rw [h1] at h; simp at h
  · rw [h1] at h
    simp only [Out.ok.injEq, Option.some.injEq] at h
    rwa [h] at hw
  · rw [h1] at h; simp at h

end Ef
