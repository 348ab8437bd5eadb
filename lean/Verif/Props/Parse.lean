import Verif.Lemmas.ParseSize

/-!
# Property theorems: texts for numbers, addresses and payload (C01 - C11)

`parseBytes s n` is the value the tool reads from the text `s` for a field of `n` bytes, `.ok none` when it
rejects the text.
-/

namespace Ef.Props

open Ef Ef.Spec

/-! ## C01 -/

/-- **C01.** A literal for a field of up to 8 bytes is encoded exactly (modulo the field size); literals of
2^64 or more are rejected. -/
theorem C01_integer_literals {s : CStr} {n : Nat} (h : Literal s n) (bytes : Nat) (hb : bytes ≤ 8) :
    parseBytes s bytes = .ok (if n < 2 ^ 64 then some (beBytes bytes n) else none) :=
  parseBytes_literal h bytes hb

/-- Building literals for examples. -/
theorem num2 {base : Nat} {a b : Byte} {x y : Nat} (hx : Digit a x) (hy : Digit b y) (h1 : x < base) (h2 : y < base) :
    Numeral base [a, b] (x * base + y) := by
  have := Numeral.snoc _ _ b y (Numeral.snoc [] 0 a x Numeral.nil hx h1) hy h2
  simpa using this

example : Literal c!"0xfe" 254 :=
  Literal.hex [102#8, 101#8] _ (num2 (Digit.lower 15 (by decide) (by decide)) (Digit.lower 14 (by decide) (by decide)) (by decide) (by decide))
example : parseBytes c!"0xfe" 2 = .ok (some [0#8, 0xfe#8]) := by decide +kernel
example : parseBytes c!"18446744073709551616" 8 = .ok none := by decide +kernel

/-! ## C02 -/

/-- **C02, as a user would want it** (false for this code, see `C02_false`). -/
def C02_statement : Prop :=
  ∀ (s : CStr) (n bytes : Nat), Numeral 16 s n → 8 < bytes →
    (s.length % 2 = 0 → s ≠ [] → s.length / 2 ≤ bytes →
      parseBytes (c!"0x" ++ s) bytes = .ok (some (zeros (bytes - s.length / 2) ++ beBytes (s.length / 2) n))) ∧
    (s.length % 2 = 1 → parseBytes (c!"0x" ++ s) bytes = .ok none) ∧
    (∀ k, parseBytes (c!"0x" ++ s) bytes ≠ .ub k)

/-- Every even literal that is too long writes in front of the buffer. -/
theorem C02_too_long_writes_outside {s : CStr} {n bytes : Nat} (h : Numeral 16 s n) (hb : 8 < bytes)
    (he : s.length % 2 = 0) (hl : bytes < s.length / 2) : parseBytes (c!"0x" ++ s) bytes = .ub .oobWrite := by
  rw [parseBytes_long_hex h _ hb, parseBytesHex_overflow h _ he hl]

theorem numeral_zeros (base : Nat) (hb : 0 < base) (k : Nat) : Numeral base (List.replicate k ch!"0") 0 := by
  induction k with
  | zero => exact Numeral.nil
  | succ k ih =>
    have := Numeral.snoc _ _ ch!"0" 0 ih (Digit.dec 0 (by decide)) hb
    rw [List.replicate_succ']
    simpa using this

theorem C02_false : ¬ C02_statement := by
  intro h
  have h1 := (h (List.replicate 20 ch!"0") 0 9 (numeral_zeros 16 (by decide) 20) (by decide)).2.2 .oobWrite
  exact h1 (C02_too_long_writes_outside (numeral_zeros 16 (by decide) 20) (by decide) (by decide) (by decide))

/-- **C02, proved part:** literals that fit are right-aligned and give the number's encoding; odd digit
counts are rejected. Missing: literals longer than the field, which write outside the buffer
(`C02_too_long_writes_outside`). -/
theorem C02_long_hex_partial {s : CStr} {n bytes : Nat} (h : Numeral 16 s n) (hb : 8 < bytes) :
    (s.length % 2 = 0 → s ≠ [] → s.length / 2 ≤ bytes →
      parseBytes (c!"0x" ++ s) bytes = .ok (some (zeros (bytes - s.length / 2) ++ beBytes (s.length / 2) n)) ∧
      parseBytes (c!"0x" ++ s) bytes = .ok (some (beBytes bytes n))) ∧
    (s.length % 2 = 1 → parseBytes (c!"0x" ++ s) bytes = .ok none) := by
  refine ⟨fun he hne hl => ?_, fun ho => ?_⟩
  · rw [parseBytes_long_hex h _ hb, parseBytesHex_fits h _ hne he hl]
    refine ⟨rfl, ?_⟩
    have hlt := numeral_lt h
    have e : (16 : Nat) ^ s.length = 256 ^ (s.length / 2) := by
      rw [show (256 : Nat) = 16 ^ 2 by decide, ← Nat.pow_mul]
      congr 1
      omega
    rw [e] at hlt
    rw [← beBytes_zeros _ _ _ hlt, Nat.sub_add_cancel hl]
  · rw [parseBytes_long_hex h _ hb, parseBytesHex_odd h _ ho]

example : parseBytes (c!"0x" ++ c!"1234") 9 = .ok (some [0, 0, 0, 0, 0, 0, 0, 0x12, 0x34]) := by decide +kernel
example : Numeral 16 c!"12" 18 := num2 (Digit.dec 1 (by decide)) (Digit.dec 2 (by decide)) (by decide) (by decide)

/-! ## C03 -/

/-- **C03, as a user would want it** (false for this code, see `C03_false`). -/
def C03_statement : Prop :=
  ∀ (s : CStr) (n bytes : Nat), Numeral 2 s n → 8 < bytes →
    (s.length % 8 = 0 → s ≠ [] → s.length / 8 ≤ bytes →
      parseBytes (c!"0b" ++ s) bytes = .ok (some (zeros (bytes - s.length / 8) ++ beBytes (s.length / 8) n))) ∧
    (s.length % 8 ≠ 0 → parseBytes (c!"0b" ++ s) bytes = .ok none) ∧
    (∀ k, parseBytes (c!"0b" ++ s) bytes ≠ .ub k)

theorem C03_too_long_writes_outside {s : CStr} {n bytes : Nat} (h : Numeral 2 s n) (hb : 8 < bytes)
    (he : s.length % 8 = 0) (hl : bytes < s.length / 8) : parseBytes (c!"0b" ++ s) bytes = .ub .oobWrite := by
  rw [parseBytes_long_bin h _ hb, parseBytesBinary_overflow h _ he hl]

theorem C03_false : ¬ C03_statement := by
  intro h
  have h1 := (h (List.replicate 80 ch!"0") 0 9 (numeral_zeros 2 (by decide) 80) (by decide)).2.2 .oobWrite
  exact h1 (C03_too_long_writes_outside (numeral_zeros 2 (by decide) 80) (by decide) (by decide) (by decide))

/-- **C03, proved part** (missing: literals longer than the field, as for C02). -/
theorem C03_long_binary_partial {s : CStr} {n bytes : Nat} (h : Numeral 2 s n) (hb : 8 < bytes) :
    (s.length % 8 = 0 → s ≠ [] → s.length / 8 ≤ bytes →
      parseBytes (c!"0b" ++ s) bytes = .ok (some (zeros (bytes - s.length / 8) ++ beBytes (s.length / 8) n)) ∧
      parseBytes (c!"0b" ++ s) bytes = .ok (some (beBytes bytes n))) ∧
    (s.length % 8 ≠ 0 → parseBytes (c!"0b" ++ s) bytes = .ok none) := by
  refine ⟨fun he hne hl => ?_, fun ho => ?_⟩
  · rw [parseBytes_long_bin h _ hb, parseBytesBinary_fits h _ hne he hl]
    refine ⟨rfl, ?_⟩
    have hlt := numeral_lt h
    have e : (2 : Nat) ^ s.length = 256 ^ (s.length / 8) := by
      rw [show (256 : Nat) = 2 ^ 8 by decide, ← Nat.pow_mul]
      congr 1
      omega
    rw [e] at hlt
    rw [← beBytes_zeros _ _ _ hlt, Nat.sub_add_cancel hl]
  · rw [parseBytes_long_bin h _ hb, parseBytesBinary_misaligned h _ ho]

example : parseBytes (c!"0b" ++ c!"0000000110000000") 9 = .ok (some [0, 0, 0, 0, 0, 0, 0, 1, 0x80]) := by decide +kernel

/-! ## C04 -/

/-- **C04.** `a.b.c.d` is encoded exactly, and every other text with a dot is rejected. -/
theorem C04_dotted_quad :
    (∀ a b c d, a < 256 → b < 256 → c < 256 → d < 256 →
      parseBytes (quadText a b c d) 4 =
        .ok (some [BitVec.ofNat 8 a, BitVec.ofNat 8 b, BitVec.ofNat 8 c, BitVec.ofNat 8 d])) ∧
    (∀ s, ch!"." ∈ s → (¬ ∃ a b c d, a < 256 ∧ b < 256 ∧ c < 256 ∧ d < 256 ∧ s = quadText a b c d) →
      parseBytes s 4 = .ok none) := by
  refine ⟨parseBytes_quad, fun s hdot hn => ?_⟩
  rcases parseBytes_dot_sound hdot with h | h
  · exact h
  · rw [h]
    cases hv : inetPton4 s with
    | none => rfl
    | some v =>
      obtain ⟨a, b, c, d, ha, hb, hc, hd, he, _⟩ := inetPton4_sound hv
      exact absurd ⟨a, b, c, d, ha, hb, hc, hd, he⟩ hn

example : quadText 192 168 0 1 = c!"192.168.0.1" := by decide +kernel
example : parseBytes c!"192.168.0.1" 4 = .ok (some [192, 168, 0, 1]) := by decide +kernel
example : parseBytes c!"192.168.0.256" 4 = .ok none := by decide +kernel

/-! ## C05 -/

/-- **C05, as a user would want it** (false for texts that begin with `0b`, see `C05_false`). -/
def C05_statement : Prop :=
  (∀ (A : List CStr) (bs : Buf), AllRel MacElem A bs → A.length = 6 → parseBytes (joinColon A) 6 = .ok (some bs)) ∧
  (∀ (A B : List CStr) (as bs : Buf), AllRel MacElem A as → AllRel MacElem B bs → A.length + B.length ≤ 5 →
    parseBytes (joinColon A ++ c!"::" ++ joinColon B) 6 = .ok (some (as ++ zeros (6 - as.length - bs.length) ++ bs)))

theorem joinColon_mem {A : List CStr} (h : 2 ≤ A.length) : ch!":" ∈ joinColon A := by
  match A, h with
  | s :: s2 :: A, _ => simp [joinColon]

/-- A MAC address that begins with the byte `0b` is taken for a binary number and rejected. -/
theorem C05_false : ¬ C05_statement := by
  intro h
  have e : MacElem c!"0b" 11#8 := ⟨11, num2 (Digit.dec 0 (by decide)) (Digit.lower 11 (by decide) (by decide)) (by decide) (by decide),
    by decide, by decide, by decide⟩
  have e1 : MacElem c!"1" 1#8 := ⟨1, by
    have := Numeral.snoc (base := 16) [] 0 ch!"1" 1 Numeral.nil (Digit.dec 1 (by decide)) (by decide)
    simpa using this, by decide, by decide, by decide⟩
  have := h.2 [c!"0b"] [c!"1"] _ _ (AllRel.cons e AllRel.nil) (AllRel.cons e1 AllRel.nil) (by decide)
  exact absurd this (by decide +kernel)

/-- **C05, proved part:** everything except texts beginning with `0b`. -/
theorem C05_mac_partial :
    (∀ (A : List CStr) (bs : Buf), AllRel MacElem A bs → A.length = 6 → (joinColon A).take 2 ≠ c!"0b" →
      parseBytes (joinColon A) 6 = .ok (some bs)) ∧
    (∀ (A B : List CStr) (as bs : Buf), AllRel MacElem A as → AllRel MacElem B bs → A.length + B.length ≤ 5 →
      (joinColon A ++ c!"::" ++ joinColon B).take 2 ≠ c!"0b" →
      parseBytes (joinColon A ++ c!"::" ++ joinColon B) 6 = .ok (some (as ++ zeros (6 - as.length - bs.length) ++ bs))) := by
  refine ⟨fun A bs h hl hb => ?_, fun A B as bs hA hB hl hb => ?_⟩
  · rw [(parseBytes_colon (colonText_mac h) (joinColon_mem (by omega)) hb).1]
    exact parseMac_full h (by rw [← allRel_length h, hl])
  · rw [(parseBytes_colon (colonText_append (colonText_append (colonText_mac hA) colonText_colons2) (colonText_mac hB))
      (by simp) hb).1]
    exact parseMac_split hA hB (by rw [← allRel_length hA, ← allRel_length hB]; omega)

example : parseBytes c!"1:2::ff" 6 = .ok (some [1, 2, 0, 0, 0, 0xff]) := by decide +kernel
example : joinColon [c!"1", c!"2"] ++ c!"::" ++ joinColon [c!"ff"] = c!"1:2::ff" := by decide
example : AllRel MacElem [c!"ff"] [255#8] :=
  AllRel.cons ⟨255, num2 (Digit.lower 15 (by decide) (by decide)) (Digit.lower 15 (by decide) (by decide)) (by decide) (by decide),
    by decide, by decide, by decide⟩ AllRel.nil

/-! ## C06 -/

/-- **C06, as a user would want it** (false for texts that begin with `0b`, see `C06_false`). -/
def C06_statement : Prop :=
  (∀ (A : List CStr) (gs : List Buf), AllRel Ip6Group A gs → A.length = 8 →
    parseBytes (joinColon A) 16 = .ok (some gs.flatten)) ∧
  (∀ (A B : List CStr) (as bs : List Buf), AllRel Ip6Group A as → AllRel Ip6Group B bs → A.length + B.length ≤ 7 →
    parseBytes (joinColon A ++ c!"::" ++ joinColon B) 16 =
      .ok (some (as.flatten ++ zeros (2 * (8 - as.length - bs.length)) ++ bs.flatten)))

theorem C06_false : ¬ C06_statement := by
  intro h
  have e : Ip6Group c!"0b" [0#8, 11#8] := ⟨11, num2 (Digit.dec 0 (by decide)) (Digit.lower 11 (by decide) (by decide)) (by decide) (by decide),
    by decide, by decide, by decide⟩
  have := h.2 [c!"0b"] [] _ _ (AllRel.cons e AllRel.nil) AllRel.nil (by decide)
  exact absurd this (by decide +kernel)

/-- **C06, proved part:** everything except texts beginning with `0b`. -/
theorem C06_ipv6_partial :
    (∀ (A : List CStr) (gs : List Buf), AllRel Ip6Group A gs → A.length = 8 → (joinColon A).take 2 ≠ c!"0b" →
      parseBytes (joinColon A) 16 = .ok (some gs.flatten)) ∧
    (∀ (A B : List CStr) (as bs : List Buf), AllRel Ip6Group A as → AllRel Ip6Group B bs → A.length + B.length ≤ 7 →
      (joinColon A ++ c!"::" ++ joinColon B).take 2 ≠ c!"0b" →
      parseBytes (joinColon A ++ c!"::" ++ joinColon B) 16 =
        .ok (some (as.flatten ++ zeros (2 * (8 - as.length - bs.length)) ++ bs.flatten))) := by
  refine ⟨fun A bs h hl hb => ?_, fun A B as bs hA hB hl hb => ?_⟩
  · rw [(parseBytes_colon (colonText_ip6 h) (joinColon_mem (by omega)) hb).2]
    rw [inetPton6_full h (by rw [← allRel_length h, hl])]
  · rw [(parseBytes_colon (colonText_append (colonText_append (colonText_ip6 hA) colonText_colons2) (colonText_ip6 hB))
      (by simp) hb).2]
    have h1 := allRel_length hA
    have h2 := allRel_length hB
    rw [inetPton6_split hA hB (by omega)]
    rw [show 16 - 2 * as.length - 2 * bs.length = 2 * (8 - as.length - bs.length) by omega]

example : parseBytes c!"fe80::1" 16 = .ok (some [0xfe, 0x80, 0, 0, 0, 0, 0, 0, 0, 0, 0, 0, 0, 0, 0, 1]) := by decide +kernel

/-! ## C07 -/

/-- **C07.** Whatever the text, a parsed value has exactly the size of the field. -/
theorem C07_size_exact (s : CStr) (n : Nat) (v : Buf) (h : parseBytes s n = .ok (some v)) : v.length = n :=
  parseBytes_length h

example : parseBytes c!"::1" 16 = .ok (some (zeros 15 ++ [1#8])) := by decide +kernel

/-! ## C08, C09 -/

/-- **C08.** Printing bytes in hexadecimal and parsing the text gives the bytes back. -/
theorem C08_hex_round_trip (b : Buf) (hne : b ≠ []) : parseVarBytesHex (printHexStr b) 0 = .ok (some b) := by
  rw [parseVarBytesHex_text (printHexStr_text b) hne 0]
  simp [zeros]

example : printHexStr [0x12, 0xab] = c!"12ab" := by decide +kernel

/-- **C09.** A hex string is accepted exactly when it is a sequence of digit pairs with delimiters between
them (`HexText`) and not empty, and the result is these bytes padded to the minimum size; nothing is ever
written outside the buffer (the result is `.ok` in both cases). -/
theorem C09_hex_strings (s : CStr) (minSize : Nat) :
    (∀ b, HexText s b → b ≠ [] → parseVarBytesHex s minSize = .ok (some (b ++ zeros (minSize - b.length)))) ∧
    ((¬ ∃ b, b ≠ [] ∧ HexText s b) → parseVarBytesHex s minSize = .ok none) :=
  ⟨fun _ h hne => parseVarBytesHex_text h hne minSize, fun h => parseVarBytesHex_not_text h minSize⟩

example : HexText c!"12-3f" [0x12#8, 0x3f#8] :=
  HexText.pair (Digit.dec 1 (by decide)) (Digit.dec 2 (by decide))
    (HexText.delim (Or.inr (Or.inr (Or.inl rfl)))
      (HexText.pair (Digit.dec 3 (by decide)) (Digit.lower 15 (by decide) (by decide)) HexText.nil))
example : parseVarBytesHex c!"1-2" 0 = .ok none := by decide +kernel

/-! ## C10, C11 -/

/-- **C10.** Segments concatenate in order; exactly their words are consumed; parsing stops at the first word
that starts no segment, and a malformed segment after any number of good ones rejects everything. -/
theorem C10_payload_concatenates (segs : List (List CStr × Buf)) (hs : ∀ p ∈ segs, Segment p.1 p.2) :
    (∀ rest : List CStr, (∀ w ∈ rest.head?, w ∉ segmentWords) →
      parseVarBytes ((segs.map (·.1)).flatten ++ rest) =
        .ok (some ((segs.map (·.1)).flatten.length, if segs = [] then none else some (segs.map (·.2)).flatten))) ∧
    (∀ bad : List CStr, BadSegment bad → parseVarBytes ((segs.map (·.1)).flatten ++ bad) = .ok none) := by
  refine ⟨fun rest hr => ?_, fun bad hb => ?_⟩
  · unfold parseVarBytes
    obtain ⟨fuel', h1, h2⟩ := parseVarBytesLoop_segments segs hs ((segs.map (·.1)).flatten ++ rest).length rest 0 none
      (by simp)
    rw [h2]
    have hacc : accBytes none segs = if segs = [] then none else some (segs.map (·.2)).flatten := by
      unfold accBytes
      simp
    rw [hacc, Nat.zero_add]
    cases fuel' with
    | zero => rw [parseVarBytesLoop]
    | succ fuel' =>
      rw [parseVarBytesLoop]
      cases rest with
      | nil => simp
      | cons w rest =>
        have hw : w ∉ segmentWords := hr w (by simp)
        simp only [segmentWords, List.mem_cons, List.not_mem_nil, or_false, not_or] at hw
        have : parseVarBytes1 (w :: rest) = .ok .stop := by
          simp [parseVarBytes1, hw]
        rw [if_neg (by simp), this, Out.ok_bind]
  · unfold parseVarBytes
    obtain ⟨fuel', h1, h2⟩ := parseVarBytesLoop_segments segs hs ((segs.map (·.1)).flatten ++ bad).length bad 0 none
      (by simp)
    rw [h2]
    have hne := badSegment_ne hb
    have hpos : 0 < bad.length := List.length_pos_iff.mpr hne
    cases fuel' with
    | zero => omega
    | succ fuel' => rw [parseVarBytesLoop, if_neg hne, parseVarBytes1_bad hb, Out.ok_bind]

example : Segment [c!"ascii", c!"ab"] [0x61, 0x62] := Segment.ascii c!"ab"
example : parseVarBytes [c!"hex", c!"0102", c!"ascii", c!"ab", c!"repeat", c!"2", c!"255", c!"udp"] =
    .ok (some (7, some [1, 2, 0x61, 0x62, 255, 255])) := by decide +kernel
example : BadSegment [c!"hex", c!"1"] := by
  refine BadSegment.hex ?_
  rintro ⟨b, _, h⟩
  cases h with
  | delim hd _ => revert hd; unfold Delim; decide
example : parseVarBytes [c!"ascii", c!"ab", c!"hex", c!"1"] = .ok none := by decide +kernel

/-- **C11.** Each kind of segment produces the documented bytes. -/
theorem C11_payload_segments {cnt val : CStr} {n v : Nat} (hn : Literal cnt n) (hn32 : n < 2 ^ 32)
    (hv : Literal val v) (hv8 : v < 2 ^ 8) (s : CStr) :
    parseVarBytes [c!"repeat", cnt, val] = .ok (some (3, some (List.replicate n (BitVec.ofNat 8 v)))) ∧
    (∃ b, parseVarBytes [c!"pattern", c!"cnt", cnt] = .ok (some (3, some b)) ∧ b.length = n ∧
      ∀ i < n, b[i]? = some (BitVec.ofNat 8 (i % 256))) ∧
    parseVarBytes [c!"pattern", c!"zero", cnt] = .ok (some (3, some (List.replicate n 0x00#8))) ∧
    parseVarBytes [c!"pattern", c!"ones", cnt] = .ok (some (3, some (List.replicate n 0xff#8))) ∧
    parseVarBytes [c!"ascii", s] = .ok (some (2, some s)) ∧
    parseVarBytes [c!"ascii0", s] = .ok (some (2, some (s ++ [0#8]))) := by
  have one : ∀ (ws : List CStr) (b : Buf), Segment ws b → parseVarBytes ws = .ok (some (ws.length, some b)) := by
    intro ws b h
    have := (C10_payload_concatenates [(ws, b)] (by simpa using h)).1 [] (by simp)
    simpa using this
  refine ⟨one _ _ (Segment.repeat hn hn32 hv (by omega)), ⟨_, one _ _ (Segment.cnt hn hn32), by simp, ?_⟩,
    one _ _ (Segment.zero hn hn32), one _ _ (Segment.ones hn hn32), one _ _ (Segment.ascii s), one _ _ (Segment.ascii0 s)⟩
  intro i hi
  simp only [List.getElem?_map, List.getElem?_range hi, Option.map_some, Option.some.injEq]
  apply BitVec.eq_of_toNat_eq
  simp

example : Literal c!"2" 2 := by
  have := Numeral.snoc (base := 10) [] 0 ch!"2" 2 Numeral.nil (Digit.dec 2 (by decide)) (by decide)
  exact Literal.dec _ _ (by simpa using this)

end Ef.Props
