import Verif.Lemmas.Messages
import Verif.Lemmas.ParseSize
import Verif.Lemmas.AssignFrame
import Verif.Lemmas.Values
import Verif.Spec.Header
import Verif.Spec.Help

/-!
# Which values are reported
-/

namespace Ef

open Spec Props

theorem class_all : ∀ n < 256, (inBase2 (BitVec.ofNat 8 n) || inBase8 (BitVec.ofNat 8 n) || inBase10 (BitVec.ofNat 8 n) ||
    inBase16 (BitVec.ofNat 8 n)) = (hexDigit (BitVec.ofNat 8 n)).isSome ∧
    ((hexDigit (BitVec.ofNat 8 n)).isSome → isDot (BitVec.ofNat 8 n) = false ∧ isColon (BitVec.ofNat 8 n) = false) ∧
    (isBit (BitVec.ofNat 8 n) = inBase2 (BitVec.ofNat 8 n)) ∧
    (inBase2 (BitVec.ofNat 8 n) = true → inBase8 (BitVec.ofNat 8 n) = false ∧ inBase10 (BitVec.ofNat 8 n) = false ∧
      inBase16 (BitVec.ofNat 8 n) = false) := by
  decide +kernel

theorem byte_ofNat (c : Byte) : c = BitVec.ofNat 8 c.toNat := by simp

theorem hexDigit_class (c : Byte) : (inBase2 c || inBase8 c || inBase10 c || inBase16 c) = true ↔ HexDigit c := by
  have h := (class_all c.toNat c.isLt).1
  rw [← byte_ofNat] at h
  rw [h, Option.isSome_iff_exists]
  unfold HexDigit
  simp only [digit_iff]

theorem hexDigit_not_sep {c : Byte} (h : HexDigit c) : isDot c = false ∧ isColon c = false := by
  have h2 := (class_all c.toNat c.isLt).2.1
  rw [← byte_ofNat] at h2
  obtain ⟨d, hd⟩ := h
  exact h2 (by rw [(digit_iff c d).1 hd]; rfl)

theorem not_hasOther {s : CStr} : hasOther s = false ↔ ∀ c ∈ s, HexDigit c ∨ c = ch!"." ∨ c = ch!":" := by
  unfold hasOther
  rw [List.any_eq_false]
  constructor
  · intro h c hc
    have := h c hc
    simp only [Bool.not_eq_true', Bool.not_eq_false, Bool.or_eq_true] at this
    rcases this with (h | h) | h
    · left
      rw [← hexDigit_class]
      simpa using h
    · exact Or.inr (Or.inl (by simpa [isDot] using h))
    · exact Or.inr (Or.inr (by simpa [isColon] using h))
  · intro h c hc
    simp only [Bool.not_eq_true', Bool.not_eq_false, Bool.or_eq_true]
    rcases h c hc with h | h | h
    · rw [← hexDigit_class] at h
      left; left
      simpa using h
    · left; right; simpa [isDot] using h
    · right; simpa [isColon] using h

theorem any_dot {s : CStr} : s.any isDot = true ↔ ch!"." ∈ s := by
  simp [isDot, List.any_eq_true]

theorem any_colon {s : CStr} : s.any isColon = true ↔ ch!":" ∈ s := by
  simp [isColon, List.any_eq_true]

theorem macLine_iff (d : CStr) (st : Mac) : (macLine st d).isSome ↔
    (match d.foldlM macStep st with
      | none => True
      | some st' => macFinish st' = .ok none) := by
  induction d generalizing st with
  | nil =>
    simp only [macLine, List.foldlM_nil, pure]
    unfold macFinish
    split
    · simp
    · split
      · simp
      · split
        · simp
        · split <;> simp
  | cons x xs ih =>
    simp only [macLine, List.foldlM_cons]
    cases h : macStep st x with
    | none => simp [bind, Option.bind]
    | some st' =>
      simp only [bind, Option.bind]
      exact ih st'

theorem macLine_parse (d : CStr) : (macLine Mac.init d).isSome ↔ parseMac d = .ok none := by
  rw [macLine_iff]
  unfold parseMac
  cases d.foldlM macStep Mac.init <;> simp

theorem hexMsgs_iff (s : CStr) (n : Nat) : hexMsgs s ≠ [] ↔ parseBytesHex s n = .ok none := by
  unfold hexMsgs parseBytesHex
  simp only
  split
  · simp
  · split
    · simp
    · simp only [ne_eq, not_true_eq_false, false_iff]
      intro h
      rw [Out.bind_eq_ok] at h
      obtain ⟨b, _, h⟩ := h
      simp at h

theorem binMsgs_iff (s : CStr) (n : Nat) : binMsgs s ≠ [] ↔ parseBytesBinary s n = .ok none := by
  unfold binMsgs parseBytesBinary
  simp only
  split
  · simp
  · split
    · simp
    · simp only [ne_eq, not_true_eq_false, false_iff]
      intro h
      rw [Out.bind_eq_ok] at h
      obtain ⟨b, _, h⟩ := h
      simp at h

theorem numBase_x_iff (d : CStr) : ((∀ c ∈ d, HexDigit c) → numBase .x d = 16) ∧ (¬ (∀ c ∈ d, HexDigit c) → numBase .x d = 0) := by
  have key : (hasOther d = false ∧ ¬ (d.any isDot || d.any isColon)) ↔ ∀ c ∈ d, HexDigit c := by
    rw [not_hasOther]
    constructor
    · rintro ⟨h1, h2⟩ c hc
      simp only [Bool.or_eq_true, any_dot, any_colon, not_or] at h2
      rcases h1 c hc with h | h | h
      · exact h
      · exact absurd (h ▸ hc) h2.1
      · exact absurd (h ▸ hc) h2.2
    · intro h
      refine ⟨fun c hc => Or.inl (h c hc), ?_⟩
      simp only [Bool.or_eq_true, List.any_eq_true, not_or, not_exists, not_and]
      exact ⟨fun c hc => by simp [(hexDigit_not_sep (h c hc)).1], fun c hc => by simp [(hexDigit_not_sep (h c hc)).2]⟩
  refine ⟨fun h => ?_, fun h => ?_⟩
  · obtain ⟨h1, h2⟩ := key.2 h
    unfold numBase
    rw [if_pos ⟨rfl, by simp [h1], h2⟩]
  · unfold numBase
    rw [if_neg]
    · simp
    · rintro ⟨_, h1, h2⟩
      exact h (key.1 ⟨by simpa using h1, h2⟩)

theorem inBase2_iff (c : Byte) : inBase2 c = true ↔ c = ch!"0" ∨ c = ch!"1" := by
  simp [inBase2]

theorem numBase_b_iff (d : CStr) : ((∀ c ∈ d, c = ch!"0" ∨ c = ch!"1") → numBase .b d = 2) ∧
    (¬ (∀ c ∈ d, c = ch!"0" ∨ c = ch!"1") → numBase .b d = 0) := by
  have key : (hasOther d = false ∧
      ¬ (d.any inBase8 || d.any inBase10 || d.any inBase16 || d.any isDot || d.any isColon)) ↔ ∀ c ∈ d, c = ch!"0" ∨ c = ch!"1" := by
    constructor
    · rintro ⟨h1, h2⟩ c hc
      simp only [Bool.or_eq_true, List.any_eq_true, not_or, not_exists, not_and] at h2
      unfold hasOther at h1
      rw [List.any_eq_false] at h1
      have := h1 c hc
      rw [← inBase2_iff]
      simpa [h2.1.1.1.1 c hc, h2.1.1.1.2 c hc, h2.1.1.2 c hc, h2.1.2 c hc, h2.2 c hc] using this
    · intro h
      have h' : ∀ c ∈ d, inBase2 c = true := fun c hc => (inBase2_iff c).2 (h c hc)
      have h8 : ∀ c ∈ d, inBase8 c = false ∧ inBase10 c = false ∧ inBase16 c = false := by
        intro c hc
        have := (class_all c.toNat c.isLt).2.2.2
        rw [← byte_ofNat] at this
        exact this (h' c hc)
      have hh : ∀ c ∈ d, HexDigit c := fun c hc => by
        rw [← hexDigit_class]
        simp [h' c hc]
      refine ⟨not_hasOther.2 fun c hc => Or.inl (hh c hc), ?_⟩
      simp only [Bool.or_eq_true, List.any_eq_true, not_or, not_exists, not_and]
      exact ⟨⟨⟨⟨fun c hc => by simp [(h8 c hc).1], fun c hc => by simp [(h8 c hc).2.1]⟩, fun c hc => by simp [(h8 c hc).2.2]⟩,
        fun c hc => by simp [(hexDigit_not_sep (hh c hc)).1]⟩, fun c hc => by simp [(hexDigit_not_sep (hh c hc)).2]⟩
  refine ⟨fun h => ?_, fun h => ?_⟩
  · obtain ⟨h1, h2⟩ := key.2 h
    unfold numBase
    rw [if_neg (by simp), if_neg (by simp), if_neg (by simp), if_pos ⟨rfl, by simp [h1], h2⟩]
  · unfold numBase
    rw [if_neg (by simp), if_neg (by simp), if_neg (by simp), if_neg]
    rintro ⟨_, h1, h2⟩
    exact h (key.1 ⟨by simpa using h1, h2⟩)

theorem numBase_o_or (d : CStr) : numBase .o d = 8 ∨ numBase .o d = 0 := by
  unfold numBase
  rw [if_neg (by simp), if_neg (by simp)]
  split
  · exact Or.inl rfl
  · rw [if_neg (by simp)]
    exact Or.inr rfl

theorem numBase_none_or (d : CStr) : (numBase .none d = 10 ∧ ch!"." ∉ d ∧ ch!":" ∉ d) ∨ numBase .none d = 0 := by
  unfold numBase
  rw [if_neg (by simp)]
  split
  · rename_i h
    refine Or.inl ⟨rfl, ?_⟩
    have := h.2.2
    simp only [Bool.or_eq_true, any_dot, any_colon, not_or] at this
    exact ⟨this.1.2, this.2⟩
  · rw [if_neg (by simp), if_neg (by simp)]
    exact Or.inr rfl

theorem splitPrefix_cases (s : CStr) :
    (∃ d, s = c!"0x" ++ d ∧ splitPrefix s = (.x, d)) ∨ (∃ d, s = c!"0o" ++ d ∧ splitPrefix s = (.o, d)) ∨
    (∃ d, s = c!"0b" ++ d ∧ splitPrefix s = (.b, d)) ∨
    (s.take 2 ≠ c!"0x" ∧ s.take 2 ≠ c!"0o" ∧ s.take 2 ≠ c!"0b" ∧ splitPrefix s = (.none, s)) := by
  unfold splitPrefix
  have e := List.take_append_drop 2 s
  split
  · rename_i h
    exact Or.inl ⟨_, by rw [← h, e], rfl⟩
  · split
    · rename_i h
      exact Or.inr (Or.inl ⟨_, by rw [← h, e], rfl⟩)
    · split
      · rename_i h
        exact Or.inr (Or.inr (Or.inl ⟨_, by rw [← h, e], rfl⟩))
      · rename_i h1 h2 h3
        exact Or.inr (Or.inr (Or.inr ⟨h1, h2, h3, rfl⟩))

theorem x_o_other : ¬ HexDigit ch!"x" ∧ ¬ HexDigit ch!"o" := by
  rw [← hexDigit_class, ← hexDigit_class]
  decide

theorem not_addressLike {s : CStr} {c : Byte} (n : Nat) (hc : c ∈ s) (h : ¬ HexDigit c ∧ c ≠ ch!"." ∧ c ≠ ch!":") :
    ¬ AddressLike n s := by
  rintro ⟨_, ⟨_, _, h3⟩ | ⟨_, _, h3⟩ | ⟨_, _, h3⟩⟩
  · rcases h3 c hc with h4 | h4
    · exact h.1 h4
    · exact h.2.1 h4
  · rcases h3 c hc with h4 | h4
    · exact h.1 h4
    · exact h.2.2 h4
  · rcases h3 c hc with h4 | h4 | h4
    · exact h.1 h4
    · exact h.2.2 h4
    · exact h.2.1 h4

/-- The condition under which the code tries to read an address. -/
def addrGuard (n : Nat) (s : CStr) : Prop :=
  (n = 4 ∧ hasOther s = false ∧ s.any isColon = false ∧ s.any isDot = true) ∨
  (n = 6 ∧ hasOther s = false ∧ s.any isDot = false ∧ s.any isColon = true) ∨
  (n = 16 ∧ hasOther s = false ∧ s.any isColon = true)

theorem any_false_dot {s : CStr} : s.any isDot = false ↔ ch!"." ∉ s := by
  rw [← any_dot]; simp

theorem any_false_colon {s : CStr} : s.any isColon = false ↔ ch!":" ∉ s := by
  rw [← any_colon]; simp

theorem dot_colon_not_hex : ¬ HexDigit ch!"." ∧ ¬ HexDigit ch!":" ∧ (ch!"." : Byte) ≠ ch!":" := by
  rw [← hexDigit_class, ← hexDigit_class]
  decide

theorem addressLike_iff {n : Nat} {s : CStr} (hb : s.take 2 ≠ c!"0b") : AddressLike n s ↔ addrGuard n s := by
  unfold AddressLike addrGuard
  rw [not_hasOther, any_false_colon, any_false_dot, any_dot, any_colon]
  constructor
  · rintro ⟨_, ⟨h1, h2, h3⟩ | ⟨h1, h2, h3⟩ | ⟨h1, h2, h3⟩⟩
    · refine Or.inl ⟨h1, fun c hc => (h3 c hc).imp_right Or.inl, fun hc => ?_, h2⟩
      rcases h3 _ hc with h | h
      · exact dot_colon_not_hex.2.1 h
      · exact dot_colon_not_hex.2.2 h.symm
    · refine Or.inr (Or.inl ⟨h1, fun c hc => (h3 c hc).imp_right Or.inr, fun hc => ?_, h2⟩)
      rcases h3 _ hc with h | h
      · exact dot_colon_not_hex.1 h
      · exact dot_colon_not_hex.2.2 h
    · exact Or.inr (Or.inr ⟨h1, fun c hc => (h3 c hc).imp_right Or.symm, h2⟩)
  · rintro (⟨h1, h2, h3, h4⟩ | ⟨h1, h2, h3, h4⟩ | ⟨h1, h2, h3⟩)
    · refine ⟨hb, Or.inl ⟨h1, h4, fun c hc => ?_⟩⟩
      rcases h2 c hc with h | h | h
      · exact Or.inl h
      · exact Or.inr h
      · exact absurd (h ▸ hc) h3
    · refine ⟨hb, Or.inr (Or.inl ⟨h1, h4, fun c hc => ?_⟩)⟩
      rcases h2 c hc with h | h | h
      · exact Or.inl h
      · exact absurd (h ▸ hc) h3
      · exact Or.inr h
    · exact ⟨hb, Or.inr (Or.inr ⟨h1, h3, fun c hc => (h2 c hc).imp_right Or.symm⟩)⟩

theorem not_longLiteral {n : Nat} {s : CStr} (hx : s.take 2 ≠ c!"0x") (hb : s.take 2 ≠ c!"0b") : ¬ LongLiteral n s := by
  rintro ⟨_, ⟨d, rfl, _⟩ | ⟨d, rfl, _⟩⟩
  · exact hx (by simp)
  · exact hb (by simp)

/-- Nothing is printed for values that are understood; for others exactly if they look like an address or a long literal. -/
theorem parseBytesMsgs_iff (s : CStr) (n : Nat) :
    parseBytesMsgs s n ≠ [] ↔ parseBytes s n = .ok none ∧ (AddressLike n s ∨ LongLiteral n s) := by
  unfold parseBytesMsgs parseBytes
  rcases splitPrefix_cases s with ⟨d, rfl, hp⟩ | ⟨d, rfl, hp⟩ | ⟨d, rfl, hp⟩ | ⟨hx, ho, hb, hp⟩
  · rw [hp]
    simp only
    have ha : ¬ AddressLike n (c!"0x" ++ d) := not_addressLike n (c := ch!"x") (by simp) ⟨x_o_other.1, by decide, by decide⟩
    by_cases h : ∀ c ∈ d, HexDigit c
    · rw [(numBase_x_iff d).1 h]
      by_cases h8 : n ≤ 8
      · rw [if_pos ⟨by decide, h8⟩]
        have : ¬ LongLiteral n (c!"0x" ++ d) := fun h => absurd h.1 (by omega)
        simp only [ha, this, or_self, and_false, iff_false, ne_eq]
        simp
      · have : LongLiteral n (c!"0x" ++ d) := ⟨by omega, Or.inl ⟨d, rfl, h⟩⟩
        simp only [this, or_true, and_true]
        have := hexMsgs_iff d n
        simpa [h8] using this
    · rw [(numBase_x_iff d).2 h]
      have : ¬ LongLiteral n (c!"0x" ++ d) := by
        rintro ⟨_, ⟨d', e, h'⟩ | ⟨d', e, _⟩⟩
        · exact h (by rw [List.append_cancel_left e]; exact h')
        · simp at e
      simp only [ha, this, or_self, and_false, iff_false, ne_eq]
      simp
  · rw [hp]
    simp only
    have ha : ¬ AddressLike n (c!"0o" ++ d) := not_addressLike n (c := ch!"o") (by simp) ⟨x_o_other.2, by decide, by decide⟩
    have hl : ¬ LongLiteral n (c!"0o" ++ d) := not_longLiteral (by simp) (by simp)
    rcases numBase_o_or d with h | h
    · rw [h]
      simp only [ha, hl, or_self, and_false, iff_false, ne_eq]
      simp
    · rw [h]
      simp only [ha, hl, or_self, and_false, iff_false, ne_eq]
      simp
  · rw [hp]
    simp only
    have ha : ¬ AddressLike n (c!"0b" ++ d) := fun h => h.1 (by simp)
    by_cases h : ∀ c ∈ d, c = ch!"0" ∨ c = ch!"1"
    · rw [(numBase_b_iff d).1 h]
      by_cases h8 : n ≤ 8
      · rw [if_pos ⟨by decide, h8⟩]
        have : ¬ LongLiteral n (c!"0b" ++ d) := fun h => absurd h.1 (by omega)
        simp only [ha, this, or_self, and_false, iff_false, ne_eq]
        simp
      · have : LongLiteral n (c!"0b" ++ d) := ⟨by omega, Or.inr ⟨d, rfl, h⟩⟩
        simp only [this, or_true, and_true]
        have := binMsgs_iff d n
        simpa [h8] using this
    · rw [(numBase_b_iff d).2 h]
      have : ¬ LongLiteral n (c!"0b" ++ d) := by
        rintro ⟨_, ⟨d', e, _⟩ | ⟨d', e, h'⟩⟩
        · simp at e
        · exact h (by rw [List.append_cancel_left e]; exact h')
      simp only [ha, this, or_self, and_false, iff_false, ne_eq]
      simp
  · rw [hp]
    simp only
    have hl := not_longLiteral (n := n) hx hb
    rw [addressLike_iff hb]
    rcases numBase_none_or s with ⟨h, h1, h2⟩ | h
    · have : ¬ addrGuard n s := by
        unfold addrGuard
        rw [any_dot, any_colon]
        rintro (⟨_, _, _, h⟩ | ⟨_, _, _, h⟩ | ⟨_, _, h⟩)
        · exact h1 h
        · exact h2 h
        · exact h2 h
      rw [h]
      simp only [this, hl, or_self, and_false, iff_false, ne_eq]
      rw [← any_dot] at h1
      rw [← any_colon] at h2
      simp [h1, h2]
    · rw [h]
      simp only [hl, or_false]
      by_cases g : addrGuard n s
      · simp only [g, and_true]
        rcases g with ⟨rfl, g1, g2, g3⟩ | ⟨rfl, g1, g2, g3⟩ | ⟨rfl, g1, g2⟩
        · simp [g1, g2, g3]
        · rw [if_neg (by simp), if_neg (by decide), if_neg (by decide), if_neg (by simp), if_pos (by simp [g1, g2, g3]),
            if_neg (by simp), if_neg (by decide), if_neg (by decide), if_neg (by simp), if_pos (by simp [g1, g2, g3]), ← macLine_parse]
          cases macLine Mac.init s <;> simp
        · simp [g1, g2]
      · have g1 : ¬ (n = 4 ∧ ¬ hasOther s ∧ ¬ s.any isColon ∧ s.any isDot) := fun ⟨a, b, c, d⟩ =>
          g (Or.inl ⟨a, by simpa using b, by simpa using c, d⟩)
        have g2 : ¬ (n = 6 ∧ ¬ hasOther s ∧ ¬ s.any isDot ∧ s.any isColon) := fun ⟨a, b, c, d⟩ =>
          g (Or.inr (Or.inl ⟨a, by simpa using b, by simpa using c, d⟩))
        have g3 : ¬ (n = 16 ∧ ¬ hasOther s ∧ s.any isColon) := fun ⟨a, b, c⟩ =>
          g (Or.inr (Or.inr ⟨a, by simpa using b, c⟩))
        rw [if_neg (by simp), if_neg (by decide), if_neg (by decide), if_neg (fun h => g1 h.2), if_neg (fun h => g2 h.2),
          if_neg (fun h => g3 h.2)]
        simp [g]

/-! ## Along the words of a header -/

/-- What is printed for an assignment. -/
def valMsgs (f : Field) (v : CStr) : List Msg := if isIgn v then [] else fieldMsgs f v

theorem valMsgs_core {f g : Field} (e : core g = core f) (v : CStr) : valMsgs g v = valMsgs f v := by
  have e1 : g.parser = f.parser := by have := congrArg Field.parser e; exact this
  have e2 : g.width = f.width := by have := congrArg Field.width e; exact this
  unfold valMsgs fieldMsgs
  rw [e1, e2]

theorem fieldsMsgs_step {t : HelpText} {fuel : Nat} {h : Hdr} {i : Nat} {n v : CStr} {rest : List CStr} {f : Field}
    (hh : n ≠ c!"help") (hi : isIgn n = false) (hf : findField h n = some f) (hmu : f.multi = .none)
    (h1 : f.parser ≠ .coapToken) (h2 : f.parser ≠ .profinetData) (hg : GoodVal f v) :
    ∃ h', SameCore h h' ∧ fieldsMsgs t (fuel + 1) h i (n :: v :: rest) = valMsgs f v ++ fieldsMsgs t fuel h' (i + 2) rest := by
  rw [fieldsMsgs.eq_def]
  simp only [hf]
  rw [if_neg hh, if_neg (by simp [hi])]
  unfold valMsgs
  have hs : SameCore h (setVal h n none) := SameCore.upd rfl _ _ (fun _ => rfl)
  by_cases hv : isIgn v = true
  · rw [if_pos hv, if_pos hv]
    exact ⟨_, hs.upd n (fun f => { f with rxSkip := true }) (fun _ => rfl), rfl⟩
  · rw [if_neg hv, if_neg hv]
    rcases hg with hg | ⟨hg1, b, hb⟩
    · exact absurd hg hv
    · rw [if_neg hg1, if_neg (by simp [hmu]), runFieldParser_plain h1 h2, hb]
      exact ⟨_, hs.upd n (fun f => { f with val := b, rxSkip := false }) (fun _ => rfl), rfl⟩

theorem SameCore.trans {a b c : Hdr} (h1 : SameCore a b) (h2 : SameCore b c) : SameCore a c := by
  unfold SameCore at *
  rw [h2, h1]

/-- The messages for the values of assignments. -/
def asgnMsgs (t : Hdr) (as : List (CStr × CStr)) : List Msg :=
  as.flatMap fun a => match findField t a.1 with
    | some f => valMsgs f a.2
    | none => []

theorem fieldsMsgs_words {ht : HelpText} {t : Hdr} {as : List (CStr × CStr)} (hg : ∀ a ∈ as, GoodAsgn t a) {h : Hdr}
    (hs : SameCore t h) {i : Nat} {r : List CStr} {fuel : Nat} (hf : (asgnWords as ++ r).length ≤ fuel) :
    ∃ x, fieldsMsgs ht fuel h i (asgnWords as ++ r) = asgnMsgs t as ++ x := by
  induction as generalizing h i fuel with
  | nil => exact ⟨_, rfl⟩
  | cons a as ih =>
    obtain ⟨n, v⟩ := a
    obtain ⟨g1, g2, f, g3, g4, g5, g6, g7⟩ := hg (n, v) (by simp)
    obtain ⟨g, q1, q2⟩ := hs.find g3
    have e1 : g.parser = f.parser := by have := congrArg Field.parser q2; exact this
    have e2 : g.multi = f.multi := by have := congrArg Field.multi q2; exact this
    cases fuel with
    | zero => simp [asgnWords] at hf
    | succ fuel =>
      simp only [asgnWords, List.cons_append]
      obtain ⟨h', hs', e⟩ := fieldsMsgs_step (t := ht) (fuel := fuel) (i := i) (rest := asgnWords as ++ r) g1 g2 q1
        (by rw [e2]; exact g4) (by rw [e1]; exact g5) (by rw [e1]; exact g6) ((goodVal_core q2).2 g7)
      obtain ⟨x, hx⟩ := ih (fun a ha => hg a (by simp [ha])) (hs.trans hs') (i := i + 2) (fuel := fuel) (by
        simp only [asgnWords, List.cons_append, List.length_cons] at hf; omega)
      refine ⟨x, ?_⟩
      rw [e, hx, valMsgs_core q2]
      simp [asgnMsgs, g3]

theorem fieldsMsgs_lead {ht : HelpText} {t : Hdr} {lead : List CStr} (hl : Lead lead) {as : List (CStr × CStr)}
    (hg : ∀ a ∈ as, GoodAsgn t a) (r : List CStr) :
    ∃ x, fieldsMsgs ht (lead ++ (asgnWords as ++ r)).length t 0 (lead ++ (asgnWords as ++ r)) = asgnMsgs t as ++ x := by
  rcases hl with rfl | ⟨w, hw, rfl⟩
  · exact fieldsMsgs_words hg rfl (Nat.le_refl _)
  · simp only [List.cons_append, List.nil_append, List.length_cons]
    rw [fieldsMsgs.eq_def]
    simp only
    rw [if_neg (ign_not_help w hw), if_pos ⟨(isIgn_iff w).2 hw, trivial⟩]
    exact fieldsMsgs_words hg (SameCore.skipAll rfl) (Nat.le_refl _)

/-! ## Along the headers of a frame -/

theorem frameMsgs_step {fuel : Nat} {f : Frame} {w : CStr} {rest : List CStr} {t : Hdr} (hw : w ≠ c!"help") (ht : findTmpl w = some t) :
    frameMsgs (fuel + 1) f (w :: rest) = hdrMsgs (findHelp w) t rest ++
      match runHdrParser t f.padding f.hasMask rest with
      | .ok (some (n, h, pad, m)) => frameMsgs fuel { stack := f.stack ++ [h], padding := pad, hasMask := m } (rest.drop n)
      | _ => [] := by
  rw [frameMsgs.eq_def]
  simp only [ht, hdrCopy_eq]
  rw [if_neg hw]
  rfl

/-- Messages continue behind words that make up a frame. -/
theorem frameMsgs_cont {cap fuel fuel' : Nat} {f g : Frame} {i n : Nat} {a r : List CStr}
    (h : argcFrameLoop cap fuel f i a = .ok (some (n, g))) (hn : n = i + a.length) (hf : a.length ≤ fuel)
    (hf' : a.length + r.length ≤ fuel') (hr : Starts (EndsLast g) r) :
    ∃ x fuel'', r.length ≤ fuel'' ∧ frameMsgs fuel' f (a ++ r) = x ++ frameMsgs fuel'' g r := by
  subst hn
  induction fuel generalizing fuel' f i a with
  | zero =>
    have : a = [] := List.eq_nil_of_length_eq_zero (by omega)
    subst this
    rw [afl_nil] at h
    simp only [Out.ok.injEq, Option.some.injEq, Prod.mk.injEq] at h
    obtain ⟨_, rfl⟩ := h
    exact ⟨[], fuel', by simpa using hf', rfl⟩
  | succ fuel ih =>
    cases a with
    | nil =>
      rw [afl_nil] at h
      simp only [Out.ok.injEq, Option.some.injEq, Prod.mk.injEq] at h
      obtain ⟨_, rfl⟩ := h
      exact ⟨[], fuel', by simpa using hf', rfl⟩
    | cons w a =>
      cases fuel' with
      | zero => simp at hf'
      | succ fuel' =>
        simp only [List.length_cons] at hf hf'
        rw [afl_step] at h
        rw [List.cons_append]
        split at h
        · simp at h
        · rename_i n1
          cases ht : findTmpl w with
          | none =>
            rw [ht] at h
            simp only [List.length_cons, Out.ok.injEq, Option.some.injEq, Prod.mk.injEq] at h; omega
          | some t =>
            rw [ht] at h
            simp only at h
            rw [frameMsgs_step n1 ht]
            rw [Out.bind_eq_ok] at h; obtain ⟨fp, hp, h⟩ := h
            rw [Out.bind_eq_ok] at h; obtain ⟨o, h1, h⟩ := h
            cases o with
            | none => simp at h
            | some p =>
              obtain ⟨k, hh, pad, m⟩ := p
              simp only [List.length_cons] at h
              obtain ⟨hk, hsig⟩ := runHdrParser_mono h1
              have hsw := runHdrParser_swap (a := a) (r := []) (r' := r) (by rw [List.append_nil]; exact h1) hk (by
                intro he w' tl hw'
                have hg : g = { stack := f.stack ++ [hh], padding := pad, hasMask := m } := by
                  refine (afl_mono h).2.2.1 (by omega)
                have := hr w' tl hw' hh (by rw [hg]; simp)
                exact this.congr hsig.symm)
              rw [hsw]
              simp only
              rw [List.drop_append_of_le_length hk]
              have hd : (a.drop k).length = a.length - k := by simp
              have e : i + (a.length + 1) = i + 1 + k + (a.drop k).length := by omega
              rw [e] at h
              obtain ⟨x, f'', hf'', hx⟩ := ih (fuel' := fuel') (by omega) (by omega) h
              exact ⟨_, f'', hf'', by rw [hx, ← List.append_assoc]⟩

/-- The messages for the values of a header of an accepted frame. -/
theorem argcFrameMsgs_asgn {argv pre rest lead : List CStr} {f0 : Frame} {t : Hdr} {as : List (CStr × CStr)}
    (hA : Assigned argv pre f0 t lead as rest) {r : Nat × Frame} (hr : argcFrame argv = .ok (some r)) :
    ∃ x y, argcFrameMsgs argv = x ++ asgnMsgs t as ++ y := by
  have hlen : argv.length ≤ frameStackMax := by
    unfold argcFrame at hr
    split at hr
    · simp at hr
    · omega
  obtain ⟨hh, _, _, hfh⟩ := tmpl_words t hA.tmpl
  have hend := endsLast_tmpl hA.tmpl hA.fresh
  have hft := findTmpl_all t hA.tmpl
  have hpre := hA.pre
  have hg : ∀ a ∈ as, GoodAsgn t a := by
    have hr' := hr
    rw [hA.words] at hr' hlen
    exact (argcFrame_asgn hA.pre hft hA.kind hh hend hA.lead hlen).1 _ hr' hA.plain (hfh hA.kind)
  have hlp : pre.length ≤ frameStackMax := by
    rw [hA.words] at hlen
    simp only [List.length_append] at hlen
    omega
  unfold argcFrameMsgs
  rw [if_neg (by omega)]
  unfold argcFrame at hpre
  rw [if_neg (by omega)] at hpre
  rw [hA.words]
  obtain ⟨x, f'', hf'', e⟩ := frameMsgs_cont (r := t.name :: (lead ++ (asgnWords as ++ rest)))
    (fuel' := (pre ++ t.name :: (lead ++ (asgnWords as ++ rest))).length) hpre (by simp) (Nat.le_refl _) (by simp)
    (by intro w tl e; cases e; exact hend)
  rw [e]
  cases f'' with
  | zero => simp at hf''
  | succ f'' =>
    rw [frameMsgs_step hh hft]
    unfold hdrMsgs
    rw [hA.kind]
    simp only
    obtain ⟨y, hy⟩ := fieldsMsgs_lead (ht := findHelp t.name) hA.lead hg rest
    rw [hy]
    exact ⟨x, _, by rw [List.append_assoc (asgnMsgs t as), ← List.append_assoc x]⟩

/-! ## Along the commands of a line -/

theorem cmdsMsgs_behind {hp : Bool} {argc slots k : Nat} {l : List (List CStr × Cmd)} {rest : List CStr} {c : Cmd}
    (hc : ∀ p ∈ l, Command hp p.1 p.2) (hs : Separated hp (l ++ [(rest, c)])) (hne : rest ≠ [])
    (hw : ∀ w, rest.head? = some w → w ∈ cmdWords) (hn : l.length ≤ slots) (hl : (allWords l ++ rest).length ≤ 101) :
    ∃ x, cmdsMsgs hp argc slots k (allWords l ++ rest) = x ++ cmdsMsgs hp argc (slots - l.length) (k + l.length) rest := by
  induction l generalizing slots k with
  | nil => exact ⟨[], rfl⟩
  | cons p l ih =>
    cases slots with
    | zero => simp at hn
    | succ slots =>
      have e : allWords (p :: l) ++ rest = p.1 ++ (allWords l ++ rest) := by
        rw [← List.append_assoc]; rfl
      have hp1 := hc p (by simp)
      have hf := hp1.first
      rw [e] at hl ⊢
      have hcmd : argcCmd hp (p.1 ++ (allWords l ++ rest)) = .ok (.cmd p.2 p.1.length) := by
        refine argcCmd_command hp1 ?_ (by rw [List.length_append] at hl; omega)
        intro w tl ew
        cases l with
        | nil =>
          have hw' : rest.head? = some w := by
            have : rest = w :: tl := ew
            rw [this]; rfl
          exact ⟨hw w hw', hs.1 w hw'⟩
        | cons q l =>
          have hq := (hc q (by simp)).first
          have hw : q.1.head? = some w := by
            have e2 : allWords (q :: l) ++ rest = q.1 ++ (allWords l ++ rest) := by
              rw [← List.append_assoc]; rfl
            rw [e2] at ew
            cases hq1 : q.1 with
            | nil => rw [hq1] at hq; simp at hq
            | cons x xs => rw [hq1] at ew; simp only [List.cons_append, List.cons.injEq] at ew; simp [ew.1]
          exact ⟨hq.2 w hw, hs.1 w hw⟩
      have hne' : p.1 ++ (allWords l ++ rest) ≠ [] := by simp [hne]
      rw [cmdsMsgs_cmd hne' hcmd, List.drop_left]
      obtain ⟨x, hx⟩ := ih (slots := slots) (k := k + 1) (fun q hq => hc q (by simp [hq]))
        (by cases l with | nil => trivial | cons q l => exact hs.2)
        (by simp only [List.length_cons] at hn; omega) (by rw [List.length_append] at hl; omega)
      refine ⟨cmdMsgs hp (p.1 ++ (allWords l ++ rest)) ++ x, ?_⟩
      rw [hx, ← List.append_assoc]
      have e1 : slots + 1 - (p :: l).length = slots - l.length := by simp
      have e2 : k + (p :: l).length = k + 1 + l.length := by simp only [List.length_cons]; omega
      rw [e1, e2]

theorem leadWords_first {hp : Bool} {hd : List CStr} (h : LeadWords hp hd) : hd ≠ [] ∧ ∀ w, hd.head? = some w → w ∈ cmdWords := by
  rcases h with ⟨c, h⟩ | ⟨n, rfl⟩
  · cases h <;> refine ⟨by simp, ?_⟩ <;> intro w hw <;> cases hw <;> decide
  · refine ⟨by simp, ?_⟩
    intro w hw; cases hw; decide

theorem tmpl_not_lead : ∀ t ∈ hdrTmpls, t.name ≠ c!"rep" ∧ t.name ≠ c!"repeat" ∧ t.name ≠ c!"name" := by
  decide +kernel

theorem frameStart_of {argv : List CStr} (hne : ∃ t ∈ hdrTmpls, argv.head? = some t.name) : FrameStart argv := by
  obtain ⟨t, ht, e⟩ := hne
  refine ⟨fun e' => by simp [e'] at e, fun w hw => ?_⟩
  rw [e] at hw
  cases hw
  exact tmpl_not_lead t ht

theorem head_pre {pre : List CStr} {f : Frame} {w : CStr} {tl : List CStr} (h : argcFrame pre = .ok (some (pre.length, f)))
    (hw : ∃ t ∈ hdrTmpls, w = t.name) : ∃ t ∈ hdrTmpls, (pre ++ w :: tl).head? = some t.name := by
  cases pre with
  | nil =>
    obtain ⟨t, ht, rfl⟩ := hw
    exact ⟨t, ht, rfl⟩
  | cons x xs => exact frame_first (ws := x :: xs) h (by simp)

/-- What is printed for the frame of a command is printed for the line. -/
theorem parseMsgs_frame {hp : Bool} {l : List (List CStr × Cmd)} {hd ws : List CStr} {c : Cmd} (hc : ∀ p ∈ l, Command hp p.1 p.2)
    (hs : Separated hp (l ++ [(hd ++ ws, c)])) (hlead : LeadWords hp hd) (hst : FrameStart ws) (hn : l.length < 100)
    (hl : (allWords l ++ (hd ++ ws)).length ≤ 101) :
    ∃ x y, parseMsgs hp (allWords l ++ (hd ++ ws)) = x ++ argcFrameMsgs ws ++ y := by
  obtain ⟨h1, h2⟩ := leadWords_first hlead
  have hne : hd ++ ws ≠ [] := by simp [h1]
  have hw : ∀ w, (hd ++ ws).head? = some w → w ∈ cmdWords := by
    intro w hw
    cases hd with
    | nil => exact absurd rfl h1
    | cons x xs => exact h2 w hw
  unfold parseMsgs
  obtain ⟨x, hx⟩ := cmdsMsgs_behind (argc := (allWords l ++ (hd ++ ws)).length) (k := 0) (slots := 100) hc hs hne hw (by omega) hl
  rw [hx]
  obtain ⟨m, hm⟩ : ∃ m, 100 - l.length = m + 1 := ⟨99 - l.length, by omega⟩
  rw [hm, cmdsMsgs, if_neg hne, cmdMsgs_lead hlead hst, ← List.append_assoc]
  exact ⟨x, _, rfl⟩

/-! ## The message about words that are left -/

/-- The messages contain no parse error. -/
def NoParseError (ms : List Msg) : Prop := ∀ i n k, Msg.parseError i n k ∉ ms

theorem noPE_append {a b : List Msg} (h1 : NoParseError a) (h2 : NoParseError b) : NoParseError (a ++ b) := by
  intro i n k h
  rcases List.mem_append.1 h with h | h
  · exact h1 _ _ _ h
  · exact h2 _ _ _ h

theorem noPE_nil : NoParseError [] := fun _ _ _ h => by simp at h

theorem noPE_one {m : Msg} (h : ∀ i n k, m ≠ .parseError i n k) : NoParseError [m] := fun i n k hm => by
  simp only [List.mem_singleton] at hm
  exact h _ _ _ hm.symm

theorem noPE_hex (s : CStr) : NoParseError (hexMsgs s) := by
  unfold hexMsgs
  simp only
  split
  · exact noPE_one (by simp)
  · split
    · exact noPE_one (by simp)
    · exact noPE_nil

theorem noPE_bin (s : CStr) : NoParseError (binMsgs s) := by
  unfold binMsgs
  simp only
  split
  · exact noPE_one (by simp)
  · split
    · exact noPE_one (by simp)
    · exact noPE_nil

theorem noPE_bytes (s : CStr) (n : Nat) : NoParseError (parseBytesMsgs s n) := by
  unfold parseBytesMsgs
  simp only
  split
  · exact noPE_nil
  split
  · exact noPE_hex _
  split
  · exact noPE_bin _
  split
  · split
    · exact noPE_one (by simp)
    · exact noPE_nil
  split
  · split
    · exact noPE_one (by simp)
    · exact noPE_nil
  split
  · split
    · exact noPE_one (by simp)
    · exact noPE_nil
  · exact noPE_nil

theorem noPE_field (f : Field) (s : CStr) : NoParseError (fieldMsgs f s) := by
  unfold fieldMsgs
  split
  · exact noPE_bytes _ _
  · exact noPE_nil
  · exact noPE_hex _
  · exact noPE_hex _
  · exact noPE_bytes _ _
  · unfold fieldHexMsgs
    split
    · split
      · exact noPE_one (by simp)
      · exact noPE_nil
    · exact noPE_hex _

theorem noPE_var1 (argv : List CStr) : NoParseError (varBytes1Msgs argv) := by
  unfold varBytes1Msgs
  split
  · exact noPE_nil
  split
  · exact noPE_one (by simp)
  split
  · split
    · exact noPE_hex _
    · exact noPE_nil
  split
  · split
    · split
      · exact noPE_append (noPE_bytes _ _) (noPE_bytes _ _)
      · exact noPE_bytes _ _
    · exact noPE_nil
  split
  · split
    · exact noPE_bytes _ _
    · exact noPE_nil
  · exact noPE_nil

theorem noPE_var (fuel : Nat) (argv : List CStr) : NoParseError (varBytesMsgs fuel argv) := by
  induction fuel generalizing argv with
  | zero => exact noPE_nil
  | succ fuel ih =>
    rw [varBytesMsgs]
    split
    · exact noPE_nil
    · refine noPE_append (noPE_var1 _) ?_
      split
      · exact ih _
      · exact noPE_nil

theorem noPE_fields (t : HelpText) (fuel : Nat) (h : Hdr) (i : Nat) (argv : List CStr) :
    NoParseError (fieldsMsgs t fuel h i argv) := by
  induction fuel generalizing h i argv with
  | zero => exact noPE_nil
  | succ fuel ih =>
    rw [fieldsMsgs.eq_def]
    cases argv with
    | nil => exact noPE_nil
    | cons w rest =>
      simp only
      split
      · exact noPE_one (by simp)
      split
      · exact ih _ _ _
      split
      · exact noPE_nil
      cases rest with
      | nil => exact noPE_one (by simp)
      | cons v rest' =>
        simp only
        split
        · exact ih _ _ _
        split
        · exact noPE_one (by simp)
        split
        · refine noPE_append (noPE_var _ _) ?_
          split
          · split
            · exact ih _ _ _
            · exact noPE_one (by simp)
          · exact noPE_nil
        · refine noPE_append (noPE_field _ _) ?_
          split
          · exact ih _ _ _
          · exact noPE_nil

theorem noPE_frame (fuel : Nat) (f : Frame) (argv : List CStr) : NoParseError (frameMsgs fuel f argv) := by
  induction fuel generalizing f argv with
  | zero => exact noPE_nil
  | succ fuel ih =>
    rw [frameMsgs.eq_def]
    cases argv with
    | nil => exact noPE_nil
    | cons w rest =>
      simp only
      split
      · exact noPE_one (by simp)
      split
      · exact noPE_nil
      · refine noPE_append ?_ ?_
        · unfold hdrMsgs
          split
          · exact noPE_fields _ _ _ _ _
          · exact noPE_var _ _
          · split
            · exact noPE_nil
            · exact noPE_bytes _ _
        · split
          · exact ih _ _
          · exact noPE_nil

theorem noPE_argcFrame (argv : List CStr) : NoParseError (argcFrameMsgs argv) := by
  unfold argcFrameMsgs
  split
  · exact noPE_one (by simp)
  · exact noPE_frame _ _ _

theorem noPE_rest (t : CmdType) (argv : List CStr) : NoParseError (cmdRestMsgs t argv) := by
  unfold cmdRestMsgs
  split
  · split
    · exact noPE_nil
    · exact noPE_argcFrame _
  · exact noPE_argcFrame _

theorem noPE_cmd (hp : Bool) (argv : List CStr) : NoParseError (cmdMsgs hp argv) := by
  unfold cmdMsgs
  split
  · exact noPE_nil
  split
  · exact noPE_one (by simp)
  · exact noPE_nil
  split
  · exact noPE_nil
  split
  · exact noPE_rest _ _
  · split
    · exact noPE_nil
    · split
      · split
        · exact noPE_nil
        · exact noPE_rest _ _
      · exact noPE_rest _ _
  · exact noPE_rest _ _

/-- Where the message about words that are left comes from. -/
theorem cmdsMsgs_parseError {hp : Bool} {argc slots k i n m : Nat} {argv : List CStr}
    (h : Msg.parseError i n m ∈ cmdsMsgs hp argc slots k argv) :
    n = argc ∧ ∃ (l : List (List CStr × Cmd)) (rest : List CStr), argv = allWords l ++ rest ∧ (∀ p ∈ l, Command hp p.1 p.2) ∧
      rest ≠ [] ∧ m = k + l.length ∧ i = argc - rest.length ∧ (l.length = slots ∨ argcCmd hp rest = .ok .stop) := by
  induction slots generalizing k argv with
  | zero =>
    rw [cmdsMsgs] at h
    split at h
    · simp at h
    · simp only [List.mem_singleton, Msg.parseError.injEq] at h
      obtain ⟨rfl, rfl, rfl⟩ := h
      exact ⟨rfl, [], argv, rfl, by simp, ‹_›, rfl, rfl, Or.inl rfl⟩
  | succ slots ih =>
    rw [cmdsMsgs] at h
    split at h
    · simp at h
    · rename_i hne
      rcases List.mem_append.1 h with h | h
      · exact absurd h (noPE_cmd hp argv i n m)
      · split at h
        · rename_i hst
          simp only [List.mem_singleton, Msg.parseError.injEq] at h
          obtain ⟨rfl, rfl, rfl⟩ := h
          exact ⟨rfl, [], argv, rfl, by simp, hne, rfl, rfl, Or.inr hst⟩
        · rename_i c used hcm
          obtain ⟨q1, l, rest, q2, q3, q4, q5, q6, q7⟩ := ih h
          obtain ⟨hu, hcmd⟩ := argcCmd_conv hcm
          refine ⟨q1, (argv.take used, c) :: l, rest, ?_, ?_, q4, ?_, q6, ?_⟩
          · show argv = (argv.take used ++ allWords l) ++ rest
            rw [List.append_assoc, ← q2, List.take_append_drop]
          · intro p hp
            rcases List.mem_cons.1 hp with rfl | hp
            · exact hcmd
            · exact q3 p hp
          · simp only [List.length_cons]; omega
          · rcases q7 with q7 | q7
            · exact Or.inl (by simp only [List.length_cons]; omega)
            · exact Or.inr q7
        · simp at h

end Ef
