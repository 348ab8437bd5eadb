import Verif.Model.Output
import Verif.Spec.Report

/-! # The printed text can be read back -/

namespace Ef

open Spec

/-! ## Lines -/

theorem linesOf_line {l : CStr} (h : OneLine l) (s : CStr) : linesOf (l ++ (nl ++ s)) = l :: linesOf s := by
  induction l with
  | nil => simp [linesOf, nl]
  | cons c l ih =>
    unfold OneLine at h
    simp only [List.mem_cons, not_or] at h
    rw [List.cons_append, linesOf, if_neg (fun e => h.1 e.symm), ih h.2]

theorem oneLine_append {a b : CStr} : OneLine (a ++ b) ↔ OneLine a ∧ OneLine b := by
  unfold OneLine; simp

theorem hexChar_facts : ∀ n < 16, hexChar n ≠ 10#8 ∧ Spec.hexVal (hexChar n) = some n ∧
    hexChar n ∉ [ch!"n", ch!"N", ch!"R", ch!"T", ch!"D", ch!"M", ch!"?"] := by decide +kernel

theorem oneLine_hex (b : Buf) : OneLine (printHexStr b) := by
  unfold OneLine
  induction b with
  | nil => simp [printHexStr]
  | cons x b ih =>
    have hx := x.isLt
    simp only [printHexStr, List.mem_cons, not_or]
    exact ⟨(hexChar_facts _ (by omega)).1.symm, (hexChar_facts _ (by omega)).1.symm, ih⟩

theorem unhex_hex (b : Buf) : unhex (printHexStr b) = some b := by
  induction b with
  | nil => rfl
  | cons x b ih =>
    have hx := x.isLt
    rw [printHexStr, unhex, (hexChar_facts _ (show x.toNat / 16 < 16 by omega)).2.1,
      (hexChar_facts _ (show x.toNat % 16 < 16 by omega)).2.1, ih]
    simp only [Option.some.injEq, List.cons.injEq, and_true]
    rw [show 16 * (x.toNat / 16) + x.toNat % 16 = x.toNat by omega]
    simp

theorem oneLine_pad16 {a : CStr} (h : OneLine a) : OneLine (pad16 a) := by
  unfold pad16
  rw [oneLine_append]
  refine ⟨?_, h⟩
  unfold OneLine
  intro hm
  have := List.eq_of_mem_replicate hm
  revert this; decide

/-! ## Labels -/

theorem after_append (p s : CStr) : after p (p ++ s) = some s := by
  unfold after
  simp

theorem after_other {p q : CStr} (h : p.length ≤ q.length) (hne : q.take p.length ≠ p) (s : CStr) : after p (q ++ s) = none := by
  unfold after
  rw [List.take_append_of_le_length h, if_neg hne]

theorem after_head {c : Byte} {p s : CStr} (h : s.head? ≠ some c) : after (c :: p) s = none := by
  unfold after
  rw [if_neg]
  intro e
  cases s with
  | nil => simp at e
  | cons x s =>
    simp only [List.length_cons, List.take_succ_cons, List.cons.injEq] at e
    simp [e.1] at h

theorem hex_head (b : Buf) {c : Byte} (hc : c ∈ [ch!"n", ch!"N", ch!"R", ch!"T", ch!"D", ch!"M", ch!"?"]) :
    (printHexStr b).head? ≠ some c := by
  cases b with
  | nil => simp [printHexStr]
  | cons x b =>
    have hx := x.isLt
    simp only [printHexStr, List.head?_cons, ne_eq, Option.some.injEq]
    rintro rfl
    exact (hexChar_facts _ (by omega)).2.2 hc

theorem dropWhile_pad {a : CStr} (h : a.head? ≠ some ch!" ") (n : Nat) (t : CStr) (ht : t.head? ≠ some ch!" ") :
    (List.replicate n ch!" " ++ a ++ t).dropWhile (· == ch!" ") = a ++ t := by
  induction n with
  | zero =>
    cases a with
    | nil =>
      cases t with
      | nil => rfl
      | cons x t =>
        have : x ≠ ch!" " := by simpa using ht
        simp [this]
    | cons x a =>
      have : x ≠ ch!" " := by simpa using h
      simp [this]
  | succ n ih =>
    rw [List.replicate_succ, List.cons_append, List.cons_append, List.dropWhile_cons]
    simpa using ih

theorem takeWhile_sub {a : CStr} (h : ch!":" ∉ a) (t : CStr) : (a ++ (c!": " ++ t)).takeWhile (· != ch!":") = a := by
  induction a with
  | nil => rfl
  | cons x a ih =>
    simp only [List.mem_cons, not_or] at h
    have : (x != ch!":") = true := by simpa using fun e => h.1 e.symm
    rw [List.cons_append, List.takeWhile_cons, if_pos this, ih h.2]

theorem readBody_eq (k : Note.Kind) {a : CStr} (ha : Readable a) (t : CStr) :
    readBody k (pad16 a ++ (c!": " ++ t)) = match after c!"name " t with
      | some n => some ⟨k, a, .name n, none⟩
      | none => (unhex t).map (fun b => ⟨k, a, .bytes b, none⟩) := by
  unfold readBody pad16
  rw [dropWhile_pad ha.2.2 _ _ (by simp)]
  simp only [takeWhile_sub ha.2.1, List.drop_left, after_append]
  cases after c!"name " t <;> rfl

theorem readBody_name (k : Note.Kind) {a : CStr} (ha : Readable a) (n : CStr) :
    readBody k (pad16 a ++ (c!": " ++ (c!"name " ++ n))) = some ⟨k, a, .name n, none⟩ := by
  rw [readBody_eq k ha, after_append]

theorem readBody_hex (k : Note.Kind) {a : CStr} (ha : Readable a) (b : Buf) :
    readBody k (pad16 a ++ (c!": " ++ printHexStr b)) = some ⟨k, a, .bytes b, none⟩ := by
  have : after c!"name " (printHexStr b) = none := after_head (hex_head b (by simp))
  rw [readBody_eq k ha, this, unhex_hex]
  rfl

theorem labels_len : ∀ p ∈ labels, ∀ q ∈ labels, p.1.length = q.1.length ∧ (p.1 = q.1 → p = q) := by decide +kernel

theorem labels_find {p : CStr × Note.Kind} (hp : p ∈ labels) (s : CStr) :
    labels.find? (fun q => (after q.1 (p.1 ++ s)).isSome) = some p := by
  have h1 : ∀ q ∈ labels, (after q.1 (p.1 ++ s)).isSome = decide (q = p) := by
    intro q hq
    obtain ⟨hl, he⟩ := labels_len q hq p hp
    by_cases h : q = p
    · subst h; simp [after_append]
    · rw [after_other (by omega) (by
        rw [hl, List.take_length]
        exact fun e => h (he e.symm))]
      simp [h]
  have h2 : ∀ ls : List (CStr × Note.Kind), (∀ q ∈ ls, q ∈ labels) →
      ls.find? (fun q => (after q.1 (p.1 ++ s)).isSome) = ls.find? (fun q => decide (q = p)) := by
    intro ls
    induction ls with
    | nil => simp
    | cons q ls ih =>
      intro h
      rw [List.find?_cons, List.find?_cons, h1 q (h q (by simp)), ih (fun x hx => h x (by simp [hx]))]
  rw [h2 labels (fun _ h => h)]
  have h3 : ∀ p ∈ labels, labels.find? (fun q => decide (q = p)) = some p := by decide +kernel
  exact h3 p hp

theorem readNote_label {p : CStr × Note.Kind} (hp : p ∈ labels) (s : CStr) : readNote (p.1 ++ s) = readBody p.2 s := by
  unfold readNote
  rw [labels_find hp]
  simp [after_append]

theorem labels_none {s : CStr} (h : ∀ p ∈ labels, after p.1 s = none) :
    labels.find? (fun q => (after q.1 s).isSome) = none := by
  rw [List.find?_eq_none]
  intro p hp
  simp [h p hp]

theorem labels_cons : ∀ p ∈ labels, ∃ c q, p.1 = c :: q ∧ c ∈ [ch!"n", ch!"N", ch!"R", ch!"T", ch!"D", ch!"M", ch!"?"] := by
  intro p hp
  have : ∀ p ∈ labels, ∃ c ∈ [ch!"n", ch!"N", ch!"R", ch!"T", ch!"D", ch!"M", ch!"?"], p.1 = c :: p.1.tail := by decide +kernel
  obtain ⟨c, h1, h2⟩ := this p hp
  exact ⟨c, _, h2, h1⟩

theorem readNote_unknown (n : CStr) : readNote (c!"No frame in inventory called " ++ n) = some ⟨.unknownName, n, .name n, none⟩ := by
  unfold readNote
  rw [labels_none]
  · simp only [after_append]
  · intro p hp
    have : ∀ p ∈ labels, p.1.length ≤ c!"No frame in inventory called ".length ∧
        c!"No frame in inventory called ".take p.1.length ≠ p.1 := by decide +kernel
    exact after_other (this p hp).1 (this p hp).2 n

theorem readNote_data (b : Buf) : readNote (c!"DATA: " ++ printHexStr b) = some ⟨.data, [], .bytes b, none⟩ := by
  have h0 : (c!"DATA: " ++ printHexStr b).head? = some ch!"D" := rfl
  unfold readNote
  rw [labels_none]
  · have h1 : after c!"No frame in inventory called " (c!"DATA: " ++ printHexStr b) = none := after_head (by rw [h0]; decide)
    simp only [h1, after_append, unhex_hex]
    rfl
  · intro p hp
    have : ∀ p ∈ labels, p.1.head? ≠ some ch!"D" := by decide +kernel
    obtain ⟨c, q, h1, _⟩ := labels_cons p hp
    have h2 := this p hp
    rw [h1] at h2 ⊢
    refine after_head ?_
    rw [h0]
    intro e
    simp only [Option.some.injEq] at e
    simp [e] at h2

theorem readNote_hex (b : Buf) : readNote (printHexStr b) = some ⟨.data, [], .bytes b, none⟩ := by
  unfold readNote
  rw [labels_none]
  · have h1 : after c!"No frame in inventory called " (printHexStr b) = none := after_head (hex_head b (by simp))
    have h2 : after c!"DATA: " (printHexStr b) = none := after_head (hex_head b (by simp))
    simp only [h1, h2, unhex_hex]
    rfl
  · intro p hp
    obtain ⟨c, q, h1, h2⟩ := labels_cons p hp
    rw [h1]
    exact after_head (hex_head b h2)

/-! ## Masks -/

theorem readMask_label (k : Note.Kind) (b : Buf) : readMask k (maskLabel k ++ printHexStr b) = some b := by
  unfold readMask
  rw [after_append, Option.bind_some, unhex_hex]

/-- The line does not look like a mask. -/
def NotMask (l : CStr) : Prop := ∀ k, readMask k l = none

theorem notMask_of {l : CStr} (h : ∀ k, after (maskLabel k) l = none) : NotMask l := by
  intro k
  unfold readMask
  rw [h k]
  rfl

theorem after_differ {p q s : CStr} (i : Nat) (x y : Byte) (hp : p[i]? = some x) (hq : q[i]? = some y) (hxy : x ≠ y) :
    after p (q ++ s) = none := by
  unfold after
  rw [if_neg]
  intro e
  have h1 : ((q ++ s).take p.length)[i]? = some y := by
    rw [List.getElem?_take_of_lt (List.getElem?_eq_some_iff.mp hp).1, List.getElem?_append_left (List.getElem?_eq_some_iff.mp hq).1, hq]
  rw [e, hp] at h1
  simp only [Option.some.injEq] at h1
  exact hxy h1

theorem notMask_label {p : CStr × Note.Kind} (hp : p ∈ labels) (s : CStr) : NotMask (p.1 ++ s) := by
  refine notMask_of (fun k => ?_)
  have key : ∀ p ∈ labels, ∀ k ∈ [Note.Kind.named, .data, .received, .unexpected, .transmitted, .missing, .unknownName],
      ∃ i < 7, (maskLabel k)[i]?.isSome ∧ p.1[i]?.isSome ∧ (maskLabel k)[i]? ≠ p.1[i]? := by decide +kernel
  obtain ⟨i, _, h1, h2, h3⟩ := key p hp k (by cases k <;> simp)
  obtain ⟨x, hx⟩ := Option.isSome_iff_exists.mp h1
  obtain ⟨y, hy⟩ := Option.isSome_iff_exists.mp h2
  refine after_differ i x y hx hy ?_
  rintro rfl
  exact h3 (by rw [hx, hy])

theorem notMask_unknown (s : CStr) : NotMask (c!"No frame in inventory called " ++ s) := by
  refine notMask_of (fun k => ?_)
  cases k <;> first
    | exact after_differ 1 _ _ rfl rfl (by decide)
    | exact after_differ 0 _ _ rfl rfl (by decide)

theorem notMask_data (s : CStr) : NotMask (c!"DATA: " ++ s) := by
  refine notMask_of (fun k => ?_)
  cases k <;> exact after_differ 0 _ _ rfl rfl (by decide)

theorem notMask_hex (b : Buf) : NotMask (printHexStr b) := by
  refine notMask_of (fun k => ?_)
  cases k <;> exact after_head (hex_head b (by simp))

theorem notMask_nil : NotMask [] := by
  refine notMask_of (fun k => ?_)
  cases k <;> exact after_head (by simp)

/-! ## Reading a text -/

/-- The text does not begin with a mask. -/
def Fresh0 (s : CStr) : Prop := ∀ l ls, linesOf s = l :: ls → NotMask l

theorem readLines_note {l : CStr} {ls : List CStr} {n : Note} (hl : l ≠ []) (hn : readNote l = some n)
    (hm : ∀ m ms, ls = m :: ms → NotMask m) : readLines (l :: ls) = (readLines ls).map (fun ns => n :: ns) := by
  cases ls with
  | nil => simp [readLines, hl, hn]
  | cons m ms =>
    rw [readLines, if_neg hl, hn]
    simp only [hm m ms rfl n.kind]

theorem readLines_mask {l m : CStr} {ls : List CStr} {n : Note} {b : Buf} (hl : l ≠ []) (hn : readNote l = some n)
    (hm : readMask n.kind m = some b) :
    readLines (l :: m :: ls) = (readLines ls).map (fun ns => { n with mask := some b } :: ns) := by
  rw [readLines, if_neg hl, hn]
  simp only [hm]

theorem readLines_empty (ls : List CStr) : readLines ([] :: ls) = readLines ls := by
  cases ls <;> simp [readLines]

/-- One message without mask. -/
theorem read_note {l s : CStr} {n : Note} (h1 : OneLine l) (h2 : l ≠ []) (h3 : NotMask l) (hn : readNote l = some n) (hs : Fresh0 s) :
    readReport (l ++ nl ++ s) = (readReport s).map (fun ns => n :: ns) ∧ Fresh0 (l ++ nl ++ s) := by
  rw [List.append_assoc]
  refine ⟨?_, fun m ms e => ?_⟩
  · unfold readReport
    rw [linesOf_line h1]
    exact readLines_note h2 hn hs
  · rw [linesOf_line h1] at e
    simp only [List.cons.injEq] at e
    rw [← e.1]; exact h3

/-- One message with mask. -/
theorem read_mask {l s : CStr} {n : Note} (b : Buf) (h1 : OneLine l) (h2 : l ≠ []) (h3 : NotMask l) (hn : readNote l = some n)
    (hk : OneLine (maskLabel n.kind)) :
    readReport (l ++ nl ++ (maskLabel n.kind ++ printHexStr b) ++ nl ++ s) =
      (readReport s).map (fun ns => { n with mask := some b } :: ns) ∧
      Fresh0 (l ++ nl ++ (maskLabel n.kind ++ printHexStr b) ++ nl ++ s) := by
  have e : l ++ nl ++ (maskLabel n.kind ++ printHexStr b) ++ nl ++ s =
      l ++ (nl ++ ((maskLabel n.kind ++ printHexStr b) ++ (nl ++ s))) := by simp [List.append_assoc]
  rw [e]
  refine ⟨?_, fun m ms e => ?_⟩
  · unfold readReport
    rw [linesOf_line h1, linesOf_line (oneLine_append.mpr ⟨hk, oneLine_hex b⟩)]
    exact readLines_mask h2 hn (readMask_label _ b)
  · rw [linesOf_line h1] at e
    simp only [List.cons.injEq] at e
    rw [← e.1]; exact h3

theorem read_empty (s : CStr) : readReport (nl ++ s) = readReport s ∧ Fresh0 (nl ++ s) := by
  have e := linesOf_line (l := []) (by simp [OneLine]) s
  rw [List.nil_append] at e
  refine ⟨?_, fun m ms h => ?_⟩
  · unfold readReport
    rw [e, readLines_empty]
  · rw [e] at h
    simp only [List.cons.injEq] at h
    rw [← h.1]; exact notMask_nil

theorem maskLabel_oneLine (k : Note.Kind) : OneLine (maskLabel k) := by
  cases k <;> (unfold OneLine; decide +kernel)

theorem labels_oneLine : ∀ p ∈ labels, OneLine p.1 ∧ p.1 ≠ [] := by unfold OneLine; decide +kernel

/-- A message about an interface or name. -/
theorem read_told {p : CStr × Note.Kind} (hp : p ∈ labels) {a : CStr} (ha : Readable a) {s : CStr} (hs : Fresh0 s) :
    (∀ n, OneLine n → readReport (p.1 ++ pad16 a ++ c!": name " ++ n ++ nl ++ s) =
        (readReport s).map (fun ns => ⟨p.2, a, .name n, none⟩ :: ns) ∧ Fresh0 (p.1 ++ pad16 a ++ c!": name " ++ n ++ nl ++ s)) ∧
    (∀ b, readReport (p.1 ++ pad16 a ++ c!": " ++ printHexStr b ++ nl ++ s) =
        (readReport s).map (fun ns => ⟨p.2, a, .bytes b, none⟩ :: ns) ∧ Fresh0 (p.1 ++ pad16 a ++ c!": " ++ printHexStr b ++ nl ++ s)) := by
  obtain ⟨o1, o2⟩ := labels_oneLine p hp
  constructor
  · intro n hn
    have e : p.1 ++ pad16 a ++ c!": name " ++ n = p.1 ++ (pad16 a ++ (c!": " ++ (c!"name " ++ n))) := by simp
    rw [e]
    refine read_note ?_ (by simp [o2]) (notMask_label hp _) ?_ hs
    · simp only [oneLine_append]
      exact ⟨o1, oneLine_pad16 ha.1, by unfold OneLine; decide, by unfold OneLine; decide, hn⟩
    · rw [readNote_label hp, readBody_name _ ha]
  · intro b
    have e : p.1 ++ pad16 a ++ c!": " ++ printHexStr b = p.1 ++ (pad16 a ++ (c!": " ++ printHexStr b)) := by simp
    rw [e]
    refine read_note ?_ (by simp [o2]) (notMask_label hp _) ?_ hs
    · simp only [oneLine_append]
      exact ⟨o1, oneLine_pad16 ha.1, by unfold OneLine; decide, oneLine_hex b⟩
    · rw [readNote_label hp, readBody_hex _ ha]

/-- A message about an interface or name with a mask. -/
theorem read_told_mask {p : CStr × Note.Kind} (hp : p ∈ labels) {a : CStr} (ha : Readable a) (s : CStr) (b m : Buf) :
    readReport (p.1 ++ pad16 a ++ c!": " ++ printHexStr b ++ nl ++ maskLabel p.2 ++ printHexStr m ++ nl ++ s) =
        (readReport s).map (fun ns => ⟨p.2, a, .bytes b, some m⟩ :: ns) ∧
      Fresh0 (p.1 ++ pad16 a ++ c!": " ++ printHexStr b ++ nl ++ maskLabel p.2 ++ printHexStr m ++ nl ++ s) := by
  obtain ⟨o1, o2⟩ := labels_oneLine p hp
  have e : p.1 ++ pad16 a ++ c!": " ++ printHexStr b ++ nl ++ maskLabel p.2 ++ printHexStr m ++ nl ++ s =
      (p.1 ++ (pad16 a ++ (c!": " ++ printHexStr b))) ++ nl ++ (maskLabel p.2 ++ printHexStr m) ++ nl ++ s := by simp
  rw [e]
  have hn : readNote (p.1 ++ (pad16 a ++ (c!": " ++ printHexStr b))) = some ⟨p.2, a, .bytes b, none⟩ := by
    rw [readNote_label hp, readBody_hex _ ha]
  refine read_mask (n := ⟨p.2, a, .bytes b, none⟩) m ?_ (by simp [o2]) (notMask_label hp _) hn (maskLabel_oneLine _)
  simp only [oneLine_append]
  exact ⟨o1, oneLine_pad16 ha.1, by unfold OneLine; decide, oneLine_hex b⟩

/-- Events whose text can be read. -/
def ReadableEvent : Event → Prop
  | .named n _ _ => Readable n
  | .noSuchName n => OneLine n
  | .hex b _ => b ≠ []
  | .rxOk a _ n _ => Readable a ∧ ∀ m, n = some m → OneLine m
  | .rxErr a _ => Readable a
  | .txDone a _ n => Readable a ∧ ∀ m, n = some m → OneLine m
  | .noRx a _ n _ => Readable a ∧ ∀ m, n = some m → OneLine m
  | _ => True

theorem read_out {e : Event} (he : ReadableEvent e) {s : CStr} (hs : Fresh0 s) :
    readReport ((eventText e).1 ++ s) = (readReport s).map (fun ns => (outNote e).toList ++ ns) ∧ Fresh0 ((eventText e).1 ++ s) := by
  have hid : (readReport s).map (fun ns => ([] : List Note) ++ ns) = readReport s := by simp
  cases e with
  | named n b m =>
    have hp : (c!"NAME:  ", Note.Kind.named) ∈ labels := by simp [labels]
    cases m with
    | none => exact (read_told hp he hs).2 b
    | some m => exact read_told_mask hp he s b m
  | noSuchName n => exact ⟨hid.symm, hs⟩
  | pcap a b => exact ⟨hid.symm, hs⟩
  | hex b m =>
    have hne : printHexStr b ≠ [] := by
      cases b with
      | nil => exact absurd rfl he
      | cons x b => simp [printHexStr]
    cases m with
    | none => exact read_note (oneLine_hex b) hne (notMask_hex b) (readNote_hex b) hs
    | some m =>
      have := read_mask (s := s) (n := ⟨.data, [], .bytes b, none⟩) m (l := c!"DATA: " ++ printHexStr b)
        (oneLine_append.mpr ⟨by unfold OneLine; decide, oneLine_hex b⟩) (by simp) (notMask_data _) (readNote_data b) (maskLabel_oneLine _)
      have e : (eventText (.hex b (some m))).1 ++ s = c!"DATA: " ++ printHexStr b ++ nl ++ (maskLabel .data ++ printHexStr m) ++ nl ++ s := by
        simp [eventText, maskLabel]
      rw [e]
      exact this
  | opened a => exact ⟨hid.symm, hs⟩
  | wait t => exact ⟨hid.symm, hs⟩
  | rxOk a b n m =>
    have hp : (c!"RX-OK  ", Note.Kind.received) ∈ labels := by simp [labels]
    cases n with
    | some n => exact (read_told hp he.1 hs).1 n (he.2 n rfl)
    | none =>
      cases m with
      | none => exact (read_told hp he.1 hs).2 b
      | some m =>
        have := read_told_mask hp he.1 (nl ++ s) b m
        rw [(read_empty s).1] at this
        have e : (eventText (.rxOk a b none (some m))).1 ++ s =
            c!"RX-OK  " ++ pad16 a ++ c!": " ++ printHexStr b ++ nl ++ maskLabel .received ++ printHexStr m ++ nl ++ (nl ++ s) := by
          simp [eventText, maskLabel]
        rw [e]
        exact this
  | rxErr a b => exact ⟨hid.symm, hs⟩
  | send a b r => exact ⟨hid.symm, hs⟩
  | txDone a b n =>
    have hp : (c!"TX     ", Note.Kind.transmitted) ∈ labels := by simp [labels]
    cases n with
    | some n => exact (read_told hp he.1 hs).1 n (he.2 n rfl)
    | none => exact (read_told hp he.1 hs).2 b
  | noRx a b n m => cases n <;> cases m <;> exact ⟨hid.symm, hs⟩

theorem read_err {e : Event} (he : ReadableEvent e) {s : CStr} (hs : Fresh0 s) :
    readReport ((eventText e).2 ++ s) = (readReport s).map (fun ns => (errNote e).toList ++ ns) ∧ Fresh0 ((eventText e).2 ++ s) := by
  have hid : (readReport s).map (fun ns => ([] : List Note) ++ ns) = readReport s := by simp
  cases e with
  | named n b m => cases m <;> exact ⟨hid.symm, hs⟩
  | noSuchName n =>
    exact read_note (oneLine_append.mpr ⟨by unfold OneLine; decide, he⟩) (by simp) (notMask_unknown n) (readNote_unknown n) hs
  | pcap a b => exact ⟨hid.symm, hs⟩
  | hex b m => cases m <;> exact ⟨hid.symm, hs⟩
  | opened a => exact ⟨hid.symm, hs⟩
  | wait t => exact ⟨hid.symm, hs⟩
  | rxOk a b n m => cases n <;> cases m <;> exact ⟨hid.symm, hs⟩
  | rxErr a b =>
    have hp : (c!"RX-ERR ", Note.Kind.unexpected) ∈ labels := by simp [labels]
    exact (read_told hp he hs).2 b
  | send a b r => exact ⟨hid.symm, hs⟩
  | txDone a b n => cases n <;> exact ⟨hid.symm, hs⟩
  | noRx a b n m =>
    have hp : (c!"NO-RX  ", Note.Kind.missing) ∈ labels := by simp [labels]
    cases n with
    | some n => exact (read_told hp he.1 hs).1 n (he.2 n rfl)
    | none =>
      cases m with
      | none =>
        have := (read_told hp he.1 (read_empty s).2).2 b
        rw [(read_empty s).1] at this
        have e : (eventText (.noRx a b none none)).2 ++ s =
            c!"NO-RX  " ++ pad16 a ++ c!": " ++ printHexStr b ++ nl ++ (nl ++ s) := by
          simp [eventText]
        rw [e]
        exact this
      | some m =>
        have := read_told_mask hp he.1 (nl ++ s) b m
        rw [(read_empty s).1] at this
        have e : (eventText (.noRx a b none (some m))).2 ++ s =
            c!"NO-RX  " ++ pad16 a ++ c!": " ++ printHexStr b ++ nl ++ maskLabel .missing ++ printHexStr m ++ nl ++ (nl ++ s) := by
          simp [eventText, maskLabel]
        rw [e]
        exact this

theorem read_all {es : List Event} (h : ∀ e ∈ es, ReadableEvent e) :
    (readReport (stdoutOf es) = some (es.filterMap outNote) ∧ Fresh0 (stdoutOf es)) ∧
    (readReport (stderrOf es) = some (es.filterMap errNote) ∧ Fresh0 (stderrOf es)) := by
  induction es with
  | nil => exact ⟨⟨rfl, fun l ls e => by simp [stdoutOf, linesOf] at e⟩, ⟨rfl, fun l ls e => by simp [stderrOf, linesOf] at e⟩⟩
  | cons e es ih =>
    obtain ⟨⟨i1, i2⟩, i3, i4⟩ := ih (fun x hx => h x (by simp [hx]))
    have he := h e (by simp)
    have o := read_out he i2
    have r := read_err he i4
    rw [i1] at o
    rw [i3] at r
    have e1 : stdoutOf (e :: es) = (eventText e).1 ++ stdoutOf es := by simp [stdoutOf]
    have e2 : stderrOf (e :: es) = (eventText e).2 ++ stderrOf es := by simp [stderrOf]
    rw [e1, e2, List.filterMap_cons, List.filterMap_cons]
    refine ⟨⟨?_, o.2⟩, ?_, r.2⟩
    · rw [o.1]; cases outNote e <;> rfl
    · rw [r.1]; cases errNote e <;> rfl

end Ef
