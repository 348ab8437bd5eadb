import Verif.Model.Frame
import Verif.Spec.Text

/-! # Lemmas about parsing texts: characters, numerals, hex strings -/

namespace Ef

open Spec

/-! ## Characters -/

theorem digit_iff (c : Byte) (d : Nat) : Digit c d ↔ hexDigit c = some d := by
  constructor
  · intro h
    have key : ∀ d < 16, (d < 10 → hexDigit (BitVec.ofNat 8 (48 + d)) = some d) ∧
        (10 ≤ d → hexDigit (BitVec.ofNat 8 (87 + d)) = some d) ∧
        (10 ≤ d → hexDigit (BitVec.ofNat 8 (55 + d)) = some d) := by decide +kernel
    cases h with
    | dec d h => exact (key d (by omega)).1 h
    | lower d h1 h2 => exact (key d h2).2.1 h1
    | upper d h1 h2 => exact (key d h2).2.2 h1
  · intro h
    have key : ∀ c : Byte, ∀ d < 16, hexDigit c = some d →
        (d < 10 ∧ c = BitVec.ofNat 8 (48 + d)) ∨ (10 ≤ d ∧ c = BitVec.ofNat 8 (87 + d)) ∨
        (10 ≤ d ∧ c = BitVec.ofNat 8 (55 + d)) := by decide +kernel
    have hd : d < 16 := by
      unfold hexDigit at h
      simp only at h
      split at h
      · simp at h; omega
      · split at h
        · simp at h; omega
        · split at h
          · simp at h; omega
          · simp at h
    rcases key c d hd h with ⟨h1, rfl⟩ | ⟨h1, rfl⟩ | ⟨h1, rfl⟩
    · exact Digit.dec d h1
    · exact Digit.lower d h1 hd
    · exact Digit.upper d h1 hd

theorem digit_lt {c : Byte} {d : Nat} (h : Digit c d) : d < 16 := by
  cases h <;> omega

theorem digit_hexVal {c : Byte} {d : Nat} (h : Digit c d) : hexVal c = some (BitVec.ofNat 8 d) := by
  have key : ∀ c : Byte, ∀ d < 16, hexDigit c = some d → hexVal c = some (BitVec.ofNat 8 d) := by decide +kernel
  exact key c d (digit_lt h) ((digit_iff c d).mp h)

theorem digit_digitVal {c : Byte} {d : Nat} (h : Digit c d) : digitVal c = some d := by
  have key : ∀ c : Byte, ∀ d < 16, hexDigit c = some d → digitVal c = some d := by decide +kernel
  exact key c d (digit_lt h) ((digit_iff c d).mp h)

theorem hexVal_digit {c v : Byte} (h : hexVal c = some v) : ∃ d, Digit c d ∧ v = BitVec.ofNat 8 d := by
  have key : ∀ c v : Byte, hexVal c = some v → hexDigit c = some v.toNat := by
    have k2 : ∀ c : Byte, ∀ n < 256, hexVal c = some (BitVec.ofNat 8 n) → hexDigit c = some n := by decide +kernel
    intro c v h
    have := k2 c v.toNat v.isLt
    rw [BitVec.ofNat_toNat] at this
    simp only [BitVec.setWidth_eq] at this
    exact this h
  refine ⟨v.toNat, (digit_iff _ _).mpr (key c v h), ?_⟩
  simp

theorem hexVal_none_not_digit {c : Byte} (h : hexVal c = none) (d : Nat) : ¬ Digit c d := by
  intro hd
  rw [digit_hexVal hd] at h
  simp at h

theorem delim_iff (c : Byte) : isDelim c = true ↔ Delim c := by
  unfold isDelim Delim
  simp [or_assoc]

theorem delim_hexVal {c : Byte} (h : Delim c) : hexVal c = none := by
  rcases h with rfl | rfl | rfl | rfl <;> decide

/-- Character classes of `parse_bytes` on digits below 16. -/
theorem digit_class {c : Byte} {d : Nat} (h : Digit c d) :
    (inBase2 c || inBase8 c || inBase10 c || inBase16 c || isDot c || isColon c) = true ∧
    isDot c = false ∧ isColon c = false ∧ (d < 10 → inBase16 c = false) ∧ (d < 8 → inBase10 c = false) ∧
    (d < 2 → inBase8 c = false) ∧ c ≠ ch!"x" ∧ c ≠ ch!"o" ∧ (d < 10 → c ≠ ch!"b") ∧ (d < 2 → isBit c = true) ∧
    (d < 2 → c - 48#8 = BitVec.ofNat 8 d) := by
  have k1 : ∀ c : Byte, ∀ d < 16, hexDigit c = some d →
    (inBase2 c || inBase8 c || inBase10 c || inBase16 c || isDot c || isColon c) = true ∧
    isDot c = false ∧ isColon c = false ∧ (d < 10 → inBase16 c = false) ∧ (d < 8 → inBase10 c = false) := by
    decide +kernel
  have k2 : ∀ c : Byte, ∀ d < 16, hexDigit c = some d →
    (d < 2 → inBase8 c = false) ∧ c ≠ ch!"x" ∧ c ≠ ch!"o" := by decide +kernel
  have k3 : ∀ c : Byte, ∀ d < 16, hexDigit c = some d → (d < 10 → c ≠ ch!"b") := by decide +kernel
  have k4 : ∀ c : Byte, ∀ d < 16, hexDigit c = some d → (d < 2 → isBit c = true) := by decide +kernel
  have k5 : ∀ c : Byte, ∀ d < 16, hexDigit c = some d → (d < 2 → c - 48#8 = BitVec.ofNat 8 d) := by decide +kernel
  have hl := digit_lt h
  have hh := (digit_iff c d).mp h
  have a := k1 c d hl hh
  have b := k2 c d hl hh
  exact ⟨a.1, a.2.1, a.2.2.1, a.2.2.2.1, a.2.2.2.2, b.1, b.2.1, b.2.2, k3 c d hl hh, k4 c d hl hh, k5 c d hl hh⟩

/-! ## Numerals -/

theorem numeral_mem {base : Nat} {s : CStr} {n : Nat} (h : Numeral base s n) : ∀ c ∈ s, ∃ d, Digit c d ∧ d < base := by
  induction h with
  | nil => intro c hc; simp at hc
  | snoc s n c d _ hd hb ih =>
    intro x hx
    rcases List.mem_append.mp hx with hx | hx
    · exact ih x hx
    · rw [List.mem_singleton] at hx; subst hx; exact ⟨d, hd, hb⟩

theorem strtoullLoop_numeral {base : Nat} {s : CStr} {n : Nat} (h : Numeral base s n) :
    ∀ (t : CStr) (acc : Nat), strtoullLoop base (s ++ t) acc = strtoullLoop base t (acc * base ^ s.length + n) := by
  induction h with
  | nil => intro t acc; simp
  | snoc s n c d _ hd hb ih =>
    intro t acc
    rw [List.append_assoc, ih, List.singleton_append, strtoullLoop, digit_digitVal hd]
    simp only [if_pos hb, List.length_append, List.length_singleton]
    congr 1
    rw [Nat.pow_succ, Nat.add_mul, Nat.mul_assoc, Nat.add_assoc]

theorem strtoull_numeral {base : Nat} {s : CStr} {n : Nat} (h : Numeral base s n) :
    strtoull s base = (if n < 2 ^ 64 then some n else none, []) := by
  unfold strtoull
  have := strtoullLoop_numeral h [] 0
  rw [List.append_nil] at this
  rw [this]
  simp [strtoullLoop]

theorem hasOther_false {base : Nat} {s : CStr} {n : Nat} (h : Numeral base s n) : hasOther s = false := by
  unfold hasOther
  rw [List.any_eq_false]
  intro c hc
  obtain ⟨d, hd, _⟩ := numeral_mem h c hc
  simp [(digit_class hd).1]

theorem any_false_of {p : Byte → Bool} {s : CStr} (h : ∀ c ∈ s, p c = false) : s.any p = false := by
  rw [List.any_eq_false]
  intro c hc
  simp [h c hc]

theorem numBase_lit {s : CStr} {n : Nat} :
    (Numeral 16 s n → numBase .x s = 16) ∧ (Numeral 10 s n → numBase .none s = 10) ∧
    (Numeral 8 s n → numBase .o s = 8) ∧ (Numeral 2 s n → numBase .b s = 2) := by
  have hdot : ∀ base, Numeral base s n → s.any isDot = false := fun base h =>
    any_false_of fun c hc => by obtain ⟨d, hd, _⟩ := numeral_mem h c hc; exact (digit_class hd).2.1
  have hcol : ∀ base, Numeral base s n → s.any isColon = false := fun base h =>
    any_false_of fun c hc => by obtain ⟨d, hd, _⟩ := numeral_mem h c hc; exact (digit_class hd).2.2.1
  have h16 : ∀ base, base ≤ 10 → Numeral base s n → s.any inBase16 = false := fun base hb h =>
    any_false_of fun c hc => by
      obtain ⟨d, hd, hl⟩ := numeral_mem h c hc; exact (digit_class hd).2.2.2.1 (by omega)
  have h10 : ∀ base, base ≤ 8 → Numeral base s n → s.any inBase10 = false := fun base hb h =>
    any_false_of fun c hc => by
      obtain ⟨d, hd, hl⟩ := numeral_mem h c hc; exact (digit_class hd).2.2.2.2.1 (by omega)
  have h8 : ∀ base, base ≤ 2 → Numeral base s n → s.any inBase8 = false := fun base hb h =>
    any_false_of fun c hc => by
      obtain ⟨d, hd, hl⟩ := numeral_mem h c hc; exact (digit_class hd).2.2.2.2.2.1 (by omega)
  refine ⟨fun h => ?_, fun h => ?_, fun h => ?_, fun h => ?_⟩ <;> unfold numBase
  · simp [hasOther_false h, hdot _ h, hcol _ h]
  · simp [hasOther_false h, hdot _ h, hcol _ h, h16 10 (by omega) h]
  · simp [hasOther_false h, hdot _ h, hcol _ h, h16 8 (by omega) h, h10 8 (by omega) h]
  · simp [hasOther_false h, hdot _ h, hcol _ h, h16 2 (by omega) h, h10 2 (by omega) h, h8 2 (by omega) h]

theorem splitPrefix_dec {s : CStr} {n : Nat} (h : Numeral 10 s n) : splitPrefix s = (.none, s) := by
  have hx : ∀ a b, s.take 2 = [a, b] → b ≠ ch!"x" ∧ b ≠ ch!"o" ∧ b ≠ ch!"b" := by
    intro a b e
    have hb : b ∈ s := List.mem_of_mem_take (i := 2) (by rw [e]; simp)
    obtain ⟨d, hd, hl⟩ := numeral_mem h b hb
    have := digit_class hd
    exact ⟨this.2.2.2.2.2.2.1, this.2.2.2.2.2.2.2.1, this.2.2.2.2.2.2.2.2.1 hl⟩
  unfold splitPrefix
  rw [if_neg, if_neg, if_neg]
  · intro e; exact (hx _ _ e).2.2 rfl
  · intro e; exact (hx _ _ e).2.1 rfl
  · intro e; exact (hx _ _ e).1 rfl

theorem splitPrefix_hex (s : CStr) : splitPrefix (c!"0x" ++ s) = (.x, s) := by
  unfold splitPrefix
  simp

theorem splitPrefix_oct (s : CStr) : splitPrefix (c!"0o" ++ s) = (.o, s) := by
  unfold splitPrefix
  simp

theorem splitPrefix_bin (s : CStr) : splitPrefix (c!"0b" ++ s) = (.b, s) := by
  unfold splitPrefix
  simp

theorem be64_drop (v bytes : Nat) (h : bytes ≤ 8) : (be64 v).drop (8 - bytes) = beBytes bytes v := by
  have : bytes = 0 ∨ bytes = 1 ∨ bytes = 2 ∨ bytes = 3 ∨ bytes = 4 ∨ bytes = 5 ∨ bytes = 6 ∨ bytes = 7 ∨ bytes = 8 := by
    omega
  rcases this with rfl | rfl | rfl | rfl | rfl | rfl | rfl | rfl | rfl <;>
    simp [be64, beBytes, Nat.shiftRight_eq_div_pow]

theorem parseBytes_literal {s : CStr} {n : Nat} (h : Literal s n) (bytes : Nat) (hb : bytes ≤ 8) :
    parseBytes s bytes = .ok (if n < 2 ^ 64 then some (beBytes bytes n) else none) := by
  have key : ∀ (start : Prefix) (d : CStr) (base : Nat), splitPrefix s = (start, d) → numBase start d = base →
      base ≠ 0 → Numeral base d n → parseBytes s bytes = .ok (if n < 2 ^ 64 then some (beBytes bytes n) else none) := by
    intro start d base h1 h2 h3 h4
    unfold parseBytes
    rw [h1]
    simp only [h2]
    rw [if_pos ⟨h3, hb⟩, strtoull_numeral h4]
    split
    · rename_i v e
      simp only [Prod.mk.injEq] at e
      split at e
      · rename_i hlt
        rw [if_pos hlt]
        simp only [Option.some.injEq] at e
        rw [← e.1, be64_drop _ _ hb]
      · simp at e
    · rename_i hne
      split
      · rename_i hlt
        exact absurd (by rw [if_pos hlt]) (hne n)
      · rfl
  cases h with
  | dec s n h => exact key .none s 10 (splitPrefix_dec h) (numBase_lit.2.1 h) (by decide) h
  | hex d n h => exact key .x d 16 (splitPrefix_hex d) (numBase_lit.1 h) (by decide) h
  | oct d n h => exact key .o d 8 (splitPrefix_oct d) (numBase_lit.2.2.1 h) (by decide) h
  | bin d n h => exact key .b d 2 (splitPrefix_bin d) (numBase_lit.2.2.2 h) (by decide) h

/-! ## Hex strings -/

theorem modify_at (pre post : Buf) (x : Byte) (g : Byte → Byte) :
    (pre ++ x :: post).modify pre.length g = pre ++ g x :: post := by
  induction pre with
  | nil => rfl
  | cons y pre ih => simp [ih]

theorem orByteAt_at (pre post : Buf) (x v : Byte) :
    orByteAt (pre ++ x :: post) pre.length v = .ok (pre ++ (x ||| v) :: post) := by
  unfold orByteAt
  rw [if_pos (by simp; omega)]
  simp only [Int.toNat_natCast]
  rw [modify_at]

theorem shlByteAt_at (pre post : Buf) (x : Byte) (k : Nat) :
    shlByteAt (pre ++ x :: post) pre.length k = .ok (pre ++ (x <<< k) :: post) := by
  unfold shlByteAt
  rw [if_pos (by simp; omega)]
  simp only [Int.toNat_natCast]
  rw [modify_at]

theorem pair_byte : ∀ h < 16, ∀ l < 16,
    (((0#8 ||| BitVec.ofNat 8 h) <<< 4) ||| BitVec.ofNat 8 l) = BitVec.ofNat 8 (16 * h + l) := by decide +kernel

/-- The second pass writes the digit pairs one after the other. -/
theorem hexWrite_text {s : CStr} {bs : Buf} (h : HexText s bs) : ∀ (pre post : Buf) (cnt : Nat), cnt % 2 = 0 →
    hexWrite s pre.length cnt (pre ++ zeros bs.length ++ post) = .ok (pre ++ bs ++ post) := by
  induction h with
  | nil => intro pre post cnt _; simp [hexWrite, zeros]
  | delim hd _ ih =>
    intro pre post cnt hc
    rw [hexWrite, delim_hexVal hd]
    exact ih pre post cnt hc
  | @pair c1 c2 h l s b hd1 hd2 _ ih =>
    intro pre post cnt hc
    have e : pre ++ zeros (BitVec.ofNat 8 (16 * h + l) :: b).length ++ post = pre ++ 0#8 :: (zeros b.length ++ post) := by
      simp [zeros, List.replicate_succ]
    rw [e, hexWrite, digit_hexVal hd1]
    simp only
    rw [orByteAt_at, Out.ok_bind, if_pos (by omega), shlByteAt_at, Out.ok_bind, hexWrite, digit_hexVal hd2]
    simp only
    rw [orByteAt_at, Out.ok_bind, if_neg (by omega), pair_byte h (digit_lt hd1) l (digit_lt hd2)]
    have e2 : pre ++ BitVec.ofNat 8 (16 * h + l) :: (zeros b.length ++ post) =
        (pre ++ [BitVec.ofNat 8 (16 * h + l)]) ++ zeros b.length ++ post := by simp
    have e3 : ((pre.length : Int) + 1) = ((pre ++ [BitVec.ofNat 8 (16 * h + l)]).length : Nat) := by simp
    rw [e2, e3, ih _ _ _ (by omega)]
    simp

/-- The flags of the first pass never get cleared. -/
theorem hexScan_mono (s : CStr) : ∀ st : HexScan, (st.others = true → (s.foldl hexScanStep st).others = true) ∧
    (st.align = true → (s.foldl hexScanStep st).align = true) := by
  induction s with
  | nil => intro st; exact ⟨id, id⟩
  | cons c s ih =>
    intro st
    rw [List.foldl_cons]
    have h1 : (st.others = true → (hexScanStep st c).others = true) ∧
        (st.align = true → (hexScanStep st c).align = true) := by
      unfold hexScanStep
      split
      · exact ⟨id, id⟩
      · split
        · split
          · exact ⟨id, fun _ => rfl⟩
          · exact ⟨id, id⟩
        · exact ⟨fun _ => rfl, id⟩
    exact ⟨fun h => (ih _).1 (h1.1 h), fun h => (ih _).2 (h1.2 h)⟩

/-- The first pass on a well-formed text. -/
theorem hexScan_fold_text {s : CStr} {bs : Buf} (h : HexText s bs) : ∀ cnt, cnt % 2 = 0 →
    s.foldl hexScanStep ⟨cnt, false, false⟩ = ⟨cnt + 2 * bs.length, false, false⟩ := by
  induction h with
  | nil => intro cnt _; rfl
  | @delim c _ _ hd _ ih =>
    intro cnt hc
    rw [List.foldl_cons]
    have : hexScanStep ⟨cnt, false, false⟩ c = ⟨cnt, false, false⟩ := by
      unfold hexScanStep
      rw [delim_hexVal hd]
      simp only
      rw [if_pos ((delim_iff _).mpr hd), if_neg (by simpa using hc)]
    rw [this, ih cnt hc]
  | pair hd1 hd2 _ ih =>
    intro cnt hc
    rw [List.foldl_cons, List.foldl_cons]
    have e1 : ∀ n c d, Digit c d → hexScanStep ⟨n, false, false⟩ c = ⟨n + 1, false, false⟩ := by
      intro n c d hd
      unfold hexScanStep
      rw [digit_hexVal hd]
    rw [e1 _ _ _ hd1, e1 _ _ _ hd2, ih _ (by omega)]
    simp only [List.length_cons]
    congr 1
    omega

/-- If the first pass finds nothing wrong, the text is well-formed. -/
theorem hexText_of_scan : ∀ (k : Nat) (s : CStr), s.length ≤ k → ∀ cnt, cnt % 2 = 0 →
    (s.foldl hexScanStep ⟨cnt, false, false⟩).others = false →
    (s.foldl hexScanStep ⟨cnt, false, false⟩).align = false →
    (s.foldl hexScanStep ⟨cnt, false, false⟩).cnt % 2 = 0 → ∃ bs, HexText s bs := by
  intro k
  induction k with
  | zero =>
    intro s hs cnt _ _ _ _
    have : s = [] := List.length_eq_zero_iff.mp (by omega)
    subst this
    exact ⟨[], HexText.nil⟩
  | succ k ih =>
    intro s hs cnt hc h1 h2 h3
    cases s with
    | nil => exact ⟨[], HexText.nil⟩
    | cons c s =>
      rw [List.foldl_cons] at h1 h2 h3
      have hlen : s.length ≤ k := by simp only [List.length_cons] at hs; omega
      cases hv : hexVal c with
      | none =>
        by_cases hd : isDelim c = true
        · have e : hexScanStep ⟨cnt, false, false⟩ c = ⟨cnt, false, false⟩ := by
            unfold hexScanStep
            rw [hv]
            simp only
            rw [if_pos hd, if_neg (by simpa using hc)]
          rw [e] at h1 h2 h3
          obtain ⟨bs, hbs⟩ := ih s hlen cnt hc h1 h2 h3
          exact ⟨bs, HexText.delim ((delim_iff c).mp hd) hbs⟩
        · have e : hexScanStep ⟨cnt, false, false⟩ c = ⟨cnt, true, false⟩ := by
            unfold hexScanStep
            rw [hv]
            simp only
            rw [if_neg hd]
          rw [e] at h1
          rw [(hexScan_mono s _).1 rfl] at h1
          simp at h1
      | some v =>
        have e : hexScanStep ⟨cnt, false, false⟩ c = ⟨cnt + 1, false, false⟩ := by
          unfold hexScanStep
          rw [hv]
        rw [e] at h1 h2 h3
        obtain ⟨d1, hd1, _⟩ := hexVal_digit hv
        cases s with
        | nil => simp at h3; omega
        | cons c2 s =>
          rw [List.foldl_cons] at h1 h2 h3
          cases hv2 : hexVal c2 with
          | none =>
            exfalso
            by_cases hd : isDelim c2 = true
            · have e : (hexScanStep ⟨cnt + 1, false, false⟩ c2).align = true := by
                unfold hexScanStep
                rw [hv2]
                simp only
                rw [if_pos hd, if_pos (by omega)]
              rw [(hexScan_mono s _).2 e] at h2
              simp at h2
            · have e : (hexScanStep ⟨cnt + 1, false, false⟩ c2).others = true := by
                unfold hexScanStep
                rw [hv2]
                simp only
                rw [if_neg hd]
              rw [(hexScan_mono s _).1 e] at h1
              simp at h1
          | some v2 =>
            have e : hexScanStep ⟨cnt + 1, false, false⟩ c2 = ⟨cnt + 2, false, false⟩ := by
              unfold hexScanStep
              rw [hv2]
            rw [e] at h1 h2 h3
            obtain ⟨d2, hd2, _⟩ := hexVal_digit hv2
            obtain ⟨bs, hbs⟩ := ih s (by simp only [List.length_cons] at hlen; omega) (cnt + 2) (by omega) h1 h2 h3
            exact ⟨_, HexText.pair hd1 hd2 hbs⟩

theorem hexScan_text {s : CStr} {bs : Buf} (h : HexText s bs) : hexScan s = ⟨2 * bs.length, false, false⟩ := by
  unfold hexScan
  rw [hexScan_fold_text h 0 rfl]
  simp

theorem hexScan_sound {s : CStr} (h1 : (hexScan s).others = false) (h2 : (hexScan s).align = false) :
    ∃ bs, HexText s bs := by
  unfold hexScan at h1 h2
  simp only at h1 h2
  split at h2
  · simp at h2
  · rename_i hc
    rw [if_neg hc] at h1
    exact hexText_of_scan s.length s (Nat.le_refl _) 0 rfl h1 h2 (by omega)

theorem hexText_unique {s : CStr} {b1 : Buf} (h1 : HexText s b1) : ∀ {b2 : Buf}, HexText s b2 → b1 = b2 := by
  induction h1 with
  | nil => intro b2 h2; cases h2; rfl
  | delim hd _ ih =>
    intro b2 h2
    cases h2 with
    | delim _ h => exact ih h
    | pair h _ _ => exact absurd h (hexVal_none_not_digit (delim_hexVal hd) _)
  | pair hd1 hd2 _ ih =>
    intro b2 h2
    cases h2 with
    | delim h _ => exact absurd hd1 (hexVal_none_not_digit (delim_hexVal h) _)
    | pair g1 g2 h =>
      have e1 := ((digit_iff _ _).mp hd1).symm.trans ((digit_iff _ _).mp g1)
      have e2 := ((digit_iff _ _).mp hd2).symm.trans ((digit_iff _ _).mp g2)
      simp only [Option.some.injEq] at e1 e2
      rw [ih h, e1, e2]

theorem zeros_add (m n : Nat) : zeros (m + n) = zeros m ++ zeros n := by
  simp [zeros, List.replicate_append_replicate]

theorem parseVarBytesHex_text {s : CStr} {bs : Buf} (h : HexText s bs) (hne : bs ≠ []) (minSize : Nat) :
    parseVarBytesHex s minSize = .ok (some (bs ++ zeros (minSize - bs.length))) := by
  unfold parseVarBytesHex
  rw [hexScan_text h]
  have hl : 0 < bs.length := List.length_pos_iff.mpr hne
  simp only [Bool.false_or, decide_eq_true_eq]
  rw [if_neg (by omega), if_neg (by simp)]
  have e : (if 2 * bs.length / 2 > minSize then balloc (2 * bs.length / 2) else balloc minSize) =
      [] ++ zeros bs.length ++ zeros (minSize - bs.length) := by
    rw [List.nil_append, ← zeros_add]
    unfold balloc zeros
    split <;> congr 1 <;> omega
  rw [e]
  have := hexWrite_text h [] (zeros (minSize - bs.length)) 0 rfl
  simp only [List.length_nil, Int.natCast_zero] at this
  rw [show ((0 : Int)) = ((0 : Nat) : Int) from rfl] at *
  rw [this]
  rfl

theorem parseVarBytesHex_not_text {s : CStr} (h : ¬ ∃ bs, bs ≠ [] ∧ HexText s bs) (minSize : Nat) :
    parseVarBytesHex s minSize = .ok none := by
  unfold parseVarBytesHex
  simp only
  split
  · rfl
  · rename_i h1
    split
    · rfl
    · rename_i h2
      exfalso
      simp only [Bool.or_eq_true, decide_eq_true_eq, not_or] at h1
      obtain ⟨bs, hbs⟩ := hexScan_sound (s := s) (by simpa using h1.1) (by simpa using h2)
      refine h ⟨bs, ?_, hbs⟩
      rintro rfl
      rw [hexScan_text hbs] at h1
      exact h1.2 rfl

theorem hexChar_digit : ∀ d < 16, Digit (hexChar d) d := by
  intro d hd
  have key : ∀ d < 16, hexDigit (hexChar d) = some d := by decide +kernel
  exact (digit_iff _ _).mpr (key d hd)

theorem printHexStr_text (b : Buf) : HexText (printHexStr b) b := by
  induction b with
  | nil => exact HexText.nil
  | cons x b ih =>
    have h1 := hexChar_digit (x.toNat / 16) (by have := x.isLt; omega)
    have h2 := hexChar_digit (x.toNat % 16) (by omega)
    have := HexText.pair h1 h2 ih
    have e : BitVec.ofNat 8 (16 * (x.toNat / 16) + x.toNat % 16) = x := by
      rw [Nat.div_add_mod]; simp
    rw [e] at this
    exact this

end Ef
