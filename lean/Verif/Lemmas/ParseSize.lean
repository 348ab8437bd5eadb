import Verif.Lemmas.Address

/-! # Lemmas about `parse_bytes`: sizes and the branch that is taken -/

namespace Ef

open Spec

theorem orByteAt_length {b b' : Buf} {p : Int} {v : Byte} (h : orByteAt b p v = .ok b') : b'.length = b.length := by
  unfold orByteAt at h
  split at h
  · simp only [Out.ok.injEq] at h
    subst h
    simp
  · simp at h

theorem shlByteAt_length {b b' : Buf} {p : Int} {k : Nat} (h : shlByteAt b p k = .ok b') : b'.length = b.length := by
  unfold shlByteAt at h
  split at h
  · simp only [Out.ok.injEq] at h
    subst h
    simp
  · simp at h

theorem hexWrite_length (s : CStr) : ∀ (p : Int) (cnt : Nat) (b b' : Buf), hexWrite s p cnt b = .ok b' →
    b'.length = b.length := by
  induction s with
  | nil =>
    intro p cnt b b' h
    simp only [hexWrite, Out.ok.injEq] at h
    rw [h]
  | cons c s ih =>
    intro p cnt b b' h
    rw [hexWrite] at h
    split at h
    · rw [Out.bind_eq_ok] at h
      obtain ⟨b1, h1, h2⟩ := h
      have e1 := orByteAt_length h1
      split at h2
      · rw [Out.bind_eq_ok] at h2
        obtain ⟨b2, h3, h4⟩ := h2
        have e2 := shlByteAt_length h3
        rw [ih _ _ _ _ h4, e2, e1]
      · rw [ih _ _ _ _ h2, e1]
    · exact ih _ _ _ _ h

theorem binWrite_length (s : CStr) : ∀ (p : Int) (cnt : Nat) (b b' : Buf), binWrite s p cnt b = .ok b' →
    b'.length = b.length := by
  induction s with
  | nil =>
    intro p cnt b b' h
    simp only [binWrite, Out.ok.injEq] at h
    rw [h]
  | cons c s ih =>
    intro p cnt b b' h
    rw [binWrite] at h
    split at h
    · rw [Out.bind_eq_ok] at h
      obtain ⟨b1, h1, h2⟩ := h
      have e1 := orByteAt_length h1
      split at h2
      · rw [ih _ _ _ _ h2, e1]
      · rw [Out.bind_eq_ok] at h2
        obtain ⟨b2, h3, h4⟩ := h2
        have e2 := shlByteAt_length h3
        rw [ih _ _ _ _ h4, e2, e1]
    · exact ih _ _ _ _ h

theorem parseBytesHex_length {s : CStr} {n : Nat} {v : Buf} (h : parseBytesHex s n = .ok (some v)) : v.length = n := by
  unfold parseBytesHex at h
  simp only at h
  split at h
  · simp at h
  · split at h
    · simp at h
    · rw [Out.bind_eq_ok] at h
      obtain ⟨b, h1, h2⟩ := h
      simp only [Out.ok.injEq, Option.some.injEq] at h2
      subst h2
      rw [hexWrite_length _ _ _ _ _ h1]
      simp [balloc]

theorem parseBytesBinary_length {s : CStr} {n : Nat} {v : Buf} (h : parseBytesBinary s n = .ok (some v)) : v.length = n := by
  unfold parseBytesBinary at h
  simp only at h
  split at h
  · simp at h
  · split at h
    · simp at h
    · rw [Out.bind_eq_ok] at h
      obtain ⟨b, h1, h2⟩ := h
      simp only [Out.ok.injEq, Option.some.injEq] at h2
      subst h2
      rw [binWrite_length _ _ _ _ _ h1]
      simp [balloc]

theorem parseBytes_length {s : CStr} {n : Nat} {v : Buf} (h : parseBytes s n = .ok (some v)) : v.length = n := by
  unfold parseBytes at h
  simp only at h
  split at h
  · rename_i hb
    split at h
    · simp only [Out.ok.injEq, Option.some.injEq] at h
      subst h
      rw [be64_drop _ _ hb.2, beBytes_length]
    · simp at h
  · split at h
    · exact parseBytesHex_length h
    · split at h
      · exact parseBytesBinary_length h
      · split at h
        · rename_i hc
          simp only [Out.ok.injEq] at h
          rw [inetPton4_length h, hc.2.1]
        · split at h
          · rename_i hc
            obtain ⟨r, h1, h2⟩ := parseMac_total (splitPrefix s).2
            rw [h1] at h
            simp only [Out.ok.injEq] at h
            rw [h2 v h, hc.2.1]
          · split at h
            · rename_i hc
              simp only [Out.ok.injEq] at h
              rw [inetPton6_length h, hc.2.1]
            · simp at h

/-! ## Which branch -/

/-- A text made of hexadecimal digits and colons. -/
def ColonText (s : CStr) : Prop := ∀ c ∈ s, (∃ d, Digit c d) ∨ c = ch!":"

theorem colonText_append {s t : CStr} (h1 : ColonText s) (h2 : ColonText t) : ColonText (s ++ t) := by
  intro c hc
  rcases List.mem_append.mp hc with h | h
  · exact h1 c h
  · exact h2 c h

theorem colonText_numeral {base : Nat} {s : CStr} {n : Nat} (h : Numeral base s n) : ColonText s := by
  intro c hc
  obtain ⟨d, hd, _⟩ := numeral_mem h c hc
  exact Or.inl ⟨d, hd⟩

theorem colonText_colons : ColonText c!":" := by
  intro c hc
  simp at hc
  exact Or.inr hc

theorem colonText_colons2 : ColonText c!"::" := by
  intro c hc
  simp at hc
  exact Or.inr hc

theorem colonText_join (A : List CStr) (h : ∀ s ∈ A, ColonText s) : ColonText (joinColon A) := by
  induction A with
  | nil => intro c hc; simp [joinColon] at hc
  | cons s A ih =>
    cases A with
    | nil => exact h s (by simp)
    | cons s2 A =>
      simp only [joinColon]
      exact colonText_append (colonText_append (h s (by simp)) colonText_colons) (ih fun t ht => h t (List.mem_cons_of_mem _ ht))

theorem allRel_left {α β : Type} {R : α → β → Prop} {as : List α} {bs : List β} (h : AllRel R as bs) :
    ∀ a ∈ as, ∃ b, R a b := by
  induction h with
  | nil => intro a ha; simp at ha
  | cons hr _ ih =>
    intro a ha
    rcases List.mem_cons.mp ha with rfl | ha
    · exact ⟨_, hr⟩
    · exact ih a ha

theorem colonText_mac {A : List CStr} {bs : Buf} (h : AllRel MacElem A bs) : ColonText (joinColon A) := by
  apply colonText_join
  intro s hs
  obtain ⟨b, n, hn, _⟩ := allRel_left h s hs
  exact colonText_numeral hn

theorem colonText_ip6 {A : List CStr} {bs : List Buf} (h : AllRel Ip6Group A bs) : ColonText (joinColon A) := by
  apply colonText_join
  intro s hs
  obtain ⟨b, n, hn, _⟩ := allRel_left h s hs
  exact colonText_numeral hn

theorem colonText_facts {s : CStr} (h : ColonText s) (hc : ch!":" ∈ s) (hb : s.take 2 ≠ c!"0b") :
    splitPrefix s = (.none, s) ∧ numBase .none s = 0 ∧ hasOther s = false ∧ s.any isDot = false ∧ s.any isColon = true := by
  have hx : ∀ c ∈ s, c ≠ ch!"x" ∧ c ≠ ch!"o" ∧ isDot c = false ∧
      (inBase2 c || inBase8 c || inBase10 c || inBase16 c || isDot c || isColon c) = true := by
    intro c hcs
    rcases h c hcs with ⟨d, hd⟩ | rfl
    · have := digit_class hd
      exact ⟨this.2.2.2.2.2.2.1, this.2.2.2.2.2.2.2.1, this.2.1, this.1⟩
    · decide
  have hcol : s.any isColon = true := List.any_eq_true.mpr ⟨_, hc, by decide⟩
  refine ⟨?_, ?_, ?_, ?_, hcol⟩
  · unfold splitPrefix
    have n1 : s.take 2 ≠ c!"0x" := by
      intro e
      exact (hx ch!"x" (List.mem_of_mem_take (i := 2) (by rw [e]; simp))).1 rfl
    have n2 : s.take 2 ≠ c!"0o" := by
      intro e
      exact (hx ch!"o" (List.mem_of_mem_take (i := 2) (by rw [e]; simp))).2.1 rfl
    rw [if_neg n1, if_neg n2, if_neg hb]
  · unfold numBase
    simp [hcol]
  · unfold hasOther
    apply any_false_of
    intro c hcs
    simp [(hx c hcs).2.2.2]
  · exact any_false_of fun c hcs => (hx c hcs).2.2.1

theorem parseBytes_colon {s : CStr} (h : ColonText s) (hc : ch!":" ∈ s) (hb : s.take 2 ≠ c!"0b") :
    parseBytes s 6 = parseMac s ∧ parseBytes s 16 = .ok (inetPton6 s) := by
  obtain ⟨h1, h2, h3, h4, h5⟩ := colonText_facts h hc hb
  unfold parseBytes
  rw [h1]
  simp [h2, h3, h4, h5]

theorem octetText_digits {n : Nat} (h : n < 256) : ∀ c ∈ octetText n, ∃ d, d < 10 ∧ Digit c d := by
  intro c hc
  unfold octetText at hc
  split at hc
  · simp at hc
    exact ⟨n, by omega, by rw [hc]; exact Digit.dec _ (by omega)⟩
  · split at hc
    · simp at hc
      rcases hc with rfl | rfl
      · exact ⟨n / 10, by omega, Digit.dec _ (by omega)⟩
      · exact ⟨n % 10, by omega, Digit.dec _ (by omega)⟩
    · simp at hc
      rcases hc with rfl | rfl | rfl
      · exact ⟨n / 100, by omega, Digit.dec _ (by omega)⟩
      · exact ⟨n / 10 % 10, by omega, Digit.dec _ (by omega)⟩
      · exact ⟨n % 10, by omega, Digit.dec _ (by omega)⟩

theorem splitPrefix_dot {s : CStr} (h : ch!"." ∈ s) : ch!"." ∈ (splitPrefix s).2 := by
  have key : ∀ p : CStr, s.take 2 = p → ch!"." ∉ p → ch!"." ∈ s.drop 2 := by
    intro p hp hn
    have hs := List.take_append_drop 2 s
    rw [← hs] at h
    rcases List.mem_append.mp h with h | h
    · rw [hp] at h
      exact absurd h hn
    · exact h
  unfold splitPrefix
  split
  · rename_i hp
    exact key _ hp (by decide)
  · split
    · rename_i hp
      exact key _ hp (by decide)
    · split
      · rename_i hp
        exact key _ hp (by decide)
      · exact h

theorem numBase_dot {p : Prefix} {s : CStr} (h : ch!"." ∈ s) : numBase p s = 0 := by
  have : s.any isDot = true := List.any_eq_true.mpr ⟨_, h, by decide⟩
  unfold numBase
  simp [this]

theorem parseBytes_quad (a b c d : Nat) (ha : a < 256) (hb : b < 256) (hc : c < 256) (hd : d < 256) :
    parseBytes (quadText a b c d) 4 =
      .ok (some [BitVec.ofNat 8 a, BitVec.ofNat 8 b, BitVec.ofNat 8 c, BitVec.ofNat 8 d]) := by
  have hm : ∀ x ∈ quadText a b c d, (∃ k, k < 10 ∧ Digit x k) ∨ x = ch!"." := by
    intro x hx
    unfold quadText at hx
    simp only [List.mem_append, List.mem_singleton] at hx
    rcases hx with (((((hx | hx) | hx) | hx) | hx) | hx) | hx
    · exact Or.inl (octetText_digits ha x hx)
    · exact Or.inr hx
    · exact Or.inl (octetText_digits hb x hx)
    · exact Or.inr hx
    · exact Or.inl (octetText_digits hc x hx)
    · exact Or.inr hx
    · exact Or.inl (octetText_digits hd x hx)
  have hdot : ch!"." ∈ quadText a b c d := by simp [quadText]
  have hf : ∀ x ∈ quadText a b c d, x ≠ ch!"x" ∧ x ≠ ch!"o" ∧ x ≠ ch!"b" ∧ isColon x = false ∧
      (inBase2 x || inBase8 x || inBase10 x || inBase16 x || isDot x || isColon x) = true := by
    intro x hx
    rcases hm x hx with ⟨k, hk, hdk⟩ | rfl
    · have := digit_class hdk
      exact ⟨this.2.2.2.2.2.2.1, this.2.2.2.2.2.2.2.1, this.2.2.2.2.2.2.2.2.1 hk, this.2.2.1, this.1⟩
    · decide
  have h1 : splitPrefix (quadText a b c d) = (.none, quadText a b c d) := by
    unfold splitPrefix
    have n1 : (quadText a b c d).take 2 ≠ c!"0x" := by
      intro e
      exact (hf ch!"x" (List.mem_of_mem_take (i := 2) (by rw [e]; simp))).1 rfl
    have n2 : (quadText a b c d).take 2 ≠ c!"0o" := by
      intro e
      exact (hf ch!"o" (List.mem_of_mem_take (i := 2) (by rw [e]; simp))).2.1 rfl
    have n3 : (quadText a b c d).take 2 ≠ c!"0b" := by
      intro e
      exact (hf ch!"b" (List.mem_of_mem_take (i := 2) (by rw [e]; simp))).2.2.1 rfl
    rw [if_neg n1, if_neg n2, if_neg n3]
  have h2 : hasOther (quadText a b c d) = false := by
    unfold hasOther
    apply any_false_of
    intro x hx
    simp [(hf x hx).2.2.2.2]
  have h3 : (quadText a b c d).any isColon = false := any_false_of fun x hx => (hf x hx).2.2.2.1
  have h4 : (quadText a b c d).any isDot = true := List.any_eq_true.mpr ⟨_, hdot, by decide⟩
  unfold parseBytes
  rw [h1]
  simp [numBase_dot hdot, h2, h3, h4, inetPton4_quad a b c d ha hb hc hd]

theorem parseBytes_dot_sound {s : CStr} (h : ch!"." ∈ s) :
    parseBytes s 4 = .ok none ∨ parseBytes s 4 = .ok (inetPton4 s) := by
  have h1 := splitPrefix_dot h
  have h2 := numBase_dot (p := (splitPrefix s).1) h1
  unfold parseBytes
  simp only [h2]
  simp only [ne_eq, not_true_eq_false, false_and, if_false]
  split
  · rename_i hh
    simp at hh
  · split
    · rename_i hh
      simp at hh
    · split
      · rename_i hc
        right
        have : splitPrefix s = (.none, s) := by
          have := hc.1
          revert this
          unfold splitPrefix
          split
          · simp
          · split
            · simp
            · split
              · simp
              · simp
        rw [this]
      · left
        simp

theorem parseUint32_literal {s : CStr} {n : Nat} (h : Literal s n) (hn : n < 2 ^ 32) : parseUint32 s = .ok (some n) := by
  unfold parseUint32
  rw [parseBytes_literal h 4 (by decide), if_pos (by omega), Out.ok_bind]
  simp only [beBytes]
  congr 2
  simp only [be32, BitVec.toNat_ofNat]
  omega

theorem parseUint8_literal {s : CStr} {n : Nat} (h : Literal s n) (hn : n < 2 ^ 64) :
    parseUint8 s = .ok (some (BitVec.ofNat 8 n)) := by
  unfold parseUint8
  rw [parseBytes_literal h 1 (by decide), if_pos hn, Out.ok_bind]
  simp [beBytes]

theorem cntPattern_eq (n : Nat) : ∀ k, cntPattern n (BitVec.ofNat 8 k) = (List.range' k n).map (BitVec.ofNat 8) := by
  induction n with
  | zero => intro k; rfl
  | succ n ih =>
    intro k
    have : BitVec.ofNat 8 k + 1#8 = BitVec.ofNat 8 (k + 1) := by
      apply BitVec.eq_of_toNat_eq
      simp
    rw [cntPattern, this, ih, List.range'_succ, List.map_cons]

theorem parseVarBytes1_segment {ws : List CStr} {b : Buf} (h : Segment ws b) (rest : List CStr) :
    parseVarBytes1 (ws ++ rest) = .ok (.seg b ws.length) := by
  cases h with
  | hex ht hne =>
    simp [parseVarBytes1, parseVarBytesHex_text ht hne 0, Out.ok_bind, zeros, Seg.ofOpt]
  | ascii s => simp [parseVarBytes1, parseVarBytesAscii]
  | ascii0 s => simp [parseVarBytes1, parseVarBytesAscii0]
  | «repeat» h1 h2 h3 h4 =>
    simp [parseVarBytes1, parseVarBytesRepeat, parseUint32_literal h1 h2, parseUint8_literal h3 h4, Out.ok_bind, Seg.ofOpt]
  | @cnt len n h1 h2 =>
    have := cntPattern_eq n 0
    simp [parseVarBytes1, parseVarBytesPattern, parseUint32_literal h1 h2, Out.ok_bind, Seg.ofOpt, List.range_eq_range', this]
  | zero h1 h2 =>
    simp [parseVarBytes1, parseVarBytesPattern, parseUint32_literal h1 h2, Out.ok_bind, Seg.ofOpt]
  | ones h1 h2 =>
    simp [parseVarBytes1, parseVarBytesPattern, parseUint32_literal h1 h2, Out.ok_bind, Seg.ofOpt]

theorem segment_words {ws : List CStr} {b : Buf} (h : Segment ws b) : 2 ≤ ws.length := by
  cases h <;> simp

/-- The buffer after more segments. -/
def accBytes (acc : Option Buf) (segs : List (List CStr × Buf)) : Option Buf :=
  if segs = [] then acc else some ((match acc with | some r => r | none => []) ++ (segs.map (·.2)).flatten)

theorem parseVarBytesLoop_segments (segs : List (List CStr × Buf)) (hs : ∀ p ∈ segs, Segment p.1 p.2) :
    ∀ (fuel : Nat) (rest : List CStr) (i : Nat) (acc : Option Buf),
    (segs.map (·.1)).flatten.length + rest.length ≤ fuel →
    ∃ fuel', rest.length ≤ fuel' ∧
      parseVarBytesLoop fuel ((segs.map (·.1)).flatten ++ rest) i acc =
      parseVarBytesLoop fuel' rest (i + (segs.map (·.1)).flatten.length) (accBytes acc segs) := by
  induction segs with
  | nil =>
    intro fuel rest i acc hf
    exact ⟨fuel, by simpa using hf, by simp [accBytes]⟩
  | cons p segs ih =>
    intro fuel rest i acc hf
    obtain ⟨ws, b⟩ := p
    have hw : Segment ws b := hs (ws, b) (by simp)
    have hl := segment_words hw
    simp only [List.map_cons, List.flatten_cons, List.length_append] at hf ⊢
    cases fuel with
    | zero => omega
    | succ fuel =>
      have hne : ws ++ (segs.map (·.1)).flatten ++ rest ≠ [] := by
        intro e
        have := congrArg List.length e
        simp at this
        rw [this.1] at hl
        simp at hl
      have step : ∀ acc', accBytes (some acc') segs = accBytes acc ((ws, b) :: segs) →
          ∃ fuel', rest.length ≤ fuel' ∧ parseVarBytesLoop fuel ((segs.map (·.1)).flatten ++ rest) (i + ws.length) (some acc') =
            parseVarBytesLoop fuel' rest (i + (ws.length + (segs.map (·.1)).flatten.length)) (accBytes acc ((ws, b) :: segs)) := by
        intro acc' ha
        obtain ⟨fuel', h1, h3⟩ := ih (fun q hq => hs q (List.mem_cons_of_mem _ hq)) fuel rest (i + ws.length)
          (some acc') (by omega)
        exact ⟨fuel', h1, by rw [h3, ha, Nat.add_assoc]⟩
      rw [parseVarBytesLoop, if_neg hne, List.append_assoc, parseVarBytes1_segment hw, Out.ok_bind]
      simp only [List.drop_left]
      apply step
      unfold accBytes
      cases acc <;> by_cases he : segs = [] <;> simp [he]

theorem digit_of_class {c : Byte} (h : (inBase2 c || inBase8 c || inBase10 c || inBase16 c || isDot c || isColon c) = true) :
    (∃ d, Digit c d) ∨ c = ch!"." ∨ c = ch!":" := by
  have key : ∀ c : Byte, (inBase2 c || inBase8 c || inBase10 c || inBase16 c || isDot c || isColon c) = true →
      (hexDigit c).isSome = true ∨ c = ch!"." ∨ c = ch!":" := by decide +kernel
  rcases key c h with h | h
  · obtain ⟨d, hd⟩ := Option.isSome_iff_exists.mp h
    exact Or.inl ⟨d, (digit_iff c d).mpr hd⟩
  · exact Or.inr h

theorem hasOther_of {s : CStr} {c : Byte} (hc : c ∈ s) (h : (∀ d, ¬ Digit c d) ∧ c ≠ ch!"." ∧ c ≠ ch!":") : hasOther s = true := by
  unfold hasOther
  rw [List.any_eq_true]
  refine ⟨c, hc, ?_⟩
  rw [Bool.not_eq_true', Bool.eq_false_iff]
  intro hh
  rcases digit_of_class hh with ⟨d, hd⟩ | h1 | h1
  · exact h.1 d hd
  · exact h.2.1 h1
  · exact h.2.2 h1

theorem noNumber_other {s : CStr} (h : NoNumber s) : hasOther (splitPrefix s).2 = true := by
  obtain ⟨c, hc, h⟩ := h
  unfold splitPrefix
  split
  · exact hasOther_of hc h
  · split
    · exact hasOther_of hc h
    · split
      · exact hasOther_of hc h
      · exact hasOther_of (List.mem_of_mem_drop hc) h

theorem parseBytes_noNumber {s : CStr} (h : NoNumber s) (n : Nat) : parseBytes s n = .ok none := by
  have h1 := noNumber_other h
  have h2 : numBase (splitPrefix s).1 (splitPrefix s).2 = 0 := by
    unfold numBase
    simp [h1]
  unfold parseBytes
  simp [h2, h1]

theorem parseVarBytes1_bad {ws : List CStr} (h : BadSegment ws) : parseVarBytes1 ws = .ok .err := by
  cases h with
  | help ws => simp [parseVarBytes1]
  | missing1 h => rcases h with rfl | rfl | rfl <;> simp [parseVarBytes1]
  | @missing2 w ws h hl =>
    match ws, hl with
    | [], _ => rcases h with rfl | rfl <;> simp [parseVarBytes1]
    | [_], _ => rcases h with rfl | rfl <;> simp [parseVarBytes1]
    | _ :: _ :: _, hl => simp at hl
  | hex h => simp [parseVarBytes1, parseVarBytesHex_not_text h, Out.ok_bind, Seg.ofOpt]
  | @count w cnt ws hw h hne =>
    subst hw
    cases ws with
    | nil => exact absurd rfl hne
    | cons v ws =>
      simp [parseVarBytes1, parseVarBytesRepeat, parseUint32, parseBytes_noNumber h, Out.ok_bind, Seg.ofOpt]
  | value h1 h2 h3 =>
    simp [parseVarBytes1, parseVarBytesRepeat, parseUint32_literal h1 h2, parseUint8, parseBytes_noNumber h3, Out.ok_bind, Seg.ofOpt]
  | @big cnt n ws h1 h2 hne =>
    cases ws with
    | nil => exact absurd rfl hne
    | cons v ws =>
      have := parseBytes_literal h1 4 (by decide)
      rw [if_neg (by omega)] at this
      simp [parseVarBytes1, parseVarBytesRepeat, parseUint32, this, Out.ok_bind, Seg.ofOpt]
  | length h =>
    simp [parseVarBytes1, parseVarBytesPattern, parseUint32, parseBytes_noNumber h, Out.ok_bind, Seg.ofOpt]
  | bigLength h1 h2 =>
    have := parseBytes_literal h1 4 (by decide)
    rw [if_neg (by omega)] at this
    simp [parseVarBytes1, parseVarBytesPattern, parseUint32, this, Out.ok_bind, Seg.ofOpt]
  | pattern h1 h2 h3 h4 h5 =>
    simp [parseVarBytes1, parseVarBytesPattern, parseUint32_literal h1 h2, Out.ok_bind, Seg.ofOpt, h3, h4, h5]

theorem badSegment_ne {ws : List CStr} (h : BadSegment ws) : ws ≠ [] := by
  cases h <;> simp

end Ef
