import Verif.Model.BufList
import Verif.Lemmas.Report

/-!
# C112, C113: lists of buffers, and dumps

Functions of the interface that the tool itself does not call: printing to a list of buffers, and the dump of a buffer.
-/

namespace Ef.Props

open Ef Ef.Spec

/-! ## C112: lists of buffers -/

/-- The intended meaning: whatever is printed to an empty list is found in it, in order. -/
def C112_statement : Prop := ∀ ndebug ts, ∃ b, blPrintfs ndebug {} ts = .ok b ∧ b.head.flatten.take b.size = ts.flatten

/-- With assertions switched on no check and no call of `bl_printf_append` ever returns. -/
theorem C112_debug (b : BufList) (t : CStr) : (blCheck false b).get? = none ∧ (blPrintfAppend false b t).get? = none := by
  have h : (blCheck false b).get? = none := by
    cases hc : (blCheck false b) with
    | ok u =>
      exfalso
      unfold blCheck at hc
      obtain ⟨_, _, hc⟩ := Out.bind_eq_ok.mp hc
      obtain ⟨_, _, hc⟩ := Out.bind_eq_ok.mp hc
      simp only [show ∀ x : Bool, assertC false x = if x then .ok () else .abort by intro x; simp [assertC]] at hc
      split at hc
      · obtain ⟨_, _, hc⟩ := Out.bind_eq_ok.mp hc
        obtain ⟨_, _, hc⟩ := Out.bind_eq_ok.mp hc
        cases hc
      · cases hc
    | _ => rfl
  refine ⟨h, ?_⟩
  cases hr : blPrintfAppend false b t with
  | ok r =>
    exfalso
    unfold blPrintfAppend at hr
    obtain ⟨u, hu, _⟩ := Out.bind_eq_ok.mp hr
    rw [hu] at h
    simp [Out.get?] at h
  | _ => rfl

theorem C112_false : ¬ C112_statement := by
  intro h
  obtain ⟨b, hb, _⟩ := h false [c!"x"]
  unfold blPrintfs at hb
  obtain ⟨r, hr, _⟩ := Out.bind_eq_ok.mp hb
  have := (C112_debug {} c!"x").2
  rw [hr] at this
  simp [Out.get?] at this

theorem blCheck_ndebug (b : BufList) : blCheck true b = .ok () := by
  simp [blCheck, assertC, Out.ok_bind]

/-- What a call does to a list without free space. -/
theorem blPrintf_full (n : Nat) (t : CStr) :
    blPrintfAppend true { size := n, capacity := n, head := [] } t =
      .ok (t.length, { size := n + t.length, capacity := n + (if t.length = 0 then 0 else max t.length 4096), head := [] }) := by
  have hf : (n + 2 ^ 64 - n) % 2 ^ 64 = 0 := by rw [Nat.add_sub_cancel_left]
  unfold blPrintfAppend
  simp only [blCheck_ndebug, Out.ok_bind, hf, if_true]
  by_cases h0 : t.length = 0
  · simp [h0]
  · rw [if_neg (by omega), if_neg h0]
    congr 4
    split <;> omega

/-- What a call does to a list that claims free space but has no element. -/
theorem blPrintf_free (n m : Nat) (hn : n < m) (hm : m - n < 2 ^ 64) (t : CStr) :
    blPrintfAppend true { size := n, capacity := m, head := [] } t = .ub .nullDeref := by
  have hf : (m + 2 ^ 64 - n) % 2 ^ 64 = m - n := by
    rw [show m + 2 ^ 64 - n = (m - n) + 2 ^ 64 by omega, Nat.add_mod_right, Nat.mod_eq_of_lt hm]
  unfold blPrintfAppend
  simp only [blCheck_ndebug, Out.ok_bind, hf]
  rw [if_neg (by omega)]
  rfl

/-- A text that fills its element: nothing, or a page at least. -/
def Fills (t : CStr) : Prop := t.length = 0 ∨ 4096 ≤ t.length

instance (t : CStr) : Decidable (Fills t) := by unfold Fills; infer_instance

theorem blPrintfs_full (ts : List CStr) (n : Nat) :
    ((blPrintfs true { size := n, capacity := n, head := [] } ts).get?.isSome ↔ ∀ t ∈ ts.dropLast, Fills t) ∧
    (∀ b, blPrintfs true { size := n, capacity := n, head := [] } ts = .ok b → b.head = [] ∧ b.size = n + ts.flatten.length) ∧
    ((∃ t ∈ ts.dropLast, ¬ Fills t) → blPrintfs true { size := n, capacity := n, head := [] } ts = .ub .nullDeref) := by
  induction ts generalizing n with
  | nil => simp [blPrintfs, Out.get?]
  | cons t ts ih =>
    unfold blPrintfs
    rw [blPrintf_full, Out.ok_bind]
    simp only
    by_cases hF : Fills t
    · have he : n + (if t.length = 0 then 0 else max t.length 4096) = n + t.length := by
        unfold Fills at hF
        split <;> omega
      rw [he]
      obtain ⟨h1, h2, h3⟩ := ih (n + t.length)
      cases ts with
      | nil => simp [blPrintfs, Out.get?]
      | cons u us =>
        rw [List.dropLast_cons_of_ne_nil (by simp)]
        refine ⟨?_, ?_, ?_⟩
        · rw [h1]; simp [hF]
        · intro b hb
          obtain ⟨ha, hc⟩ := h2 b hb
          refine ⟨ha, ?_⟩
          rw [hc, List.flatten_cons (l := t), List.length_append, Nat.add_assoc]
        · rintro ⟨x, hx, hnx⟩
          rcases List.mem_cons.mp hx with rfl | hx
          · exact absurd hF hnx
          · exact h3 ⟨x, hx, hnx⟩
    · have hlt : t.length ≠ 0 ∧ t.length < 4096 := by unfold Fills at hF; omega
      cases ts with
      | nil => simp [blPrintfs, Out.get?]
      | cons u us =>
        have hcap : n + (if t.length = 0 then 0 else max t.length 4096) = n + 4096 := by
          rw [if_neg hlt.1]; omega
        rw [hcap, blPrintfs, blPrintf_free _ _ (by omega) (by omega)]
        rw [List.dropLast_cons_of_ne_nil (by simp)]
        refine ⟨?_, ?_, ?_⟩
        · constructor
          · intro h; exact absurd h (by simp [bind, Out.bind, Out.get?])
          · intro h; exact absurd (h t (List.mem_cons_self ..)) hF
        · intro b hb; exact absurd hb (by simp [bind, Out.bind])
        · intro _; rfl

/-- Compiled without assertions, the calls return exactly if every text but the last is empty or fills a page; otherwise
NULL is dereferenced. What was printed is counted but lost: the list has no element. -/
theorem C112_printed_partial (ts : List CStr) :
    ((∃ b, blPrintfs true {} ts = .ok b) ↔ ∀ t ∈ ts.dropLast, Fills t) ∧
    (∀ b, blPrintfs true {} ts = .ok b → b.head = [] ∧ b.size = ts.flatten.length) ∧
    ((∃ t ∈ ts.dropLast, ¬ Fills t) → blPrintfs true {} ts = .ub .nullDeref) := by
  obtain ⟨h1, h2, h3⟩ := blPrintfs_full ts 0
  refine ⟨?_, fun b hb => by simpa using h2 b hb, h3⟩
  rw [← h1]
  constructor
  · rintro ⟨b, hb⟩
    show (blPrintfs true {} ts).get?.isSome
    rw [hb]; rfl
  · intro h
    change (blPrintfs true {} ts).get?.isSome = true at h
    cases hb : blPrintfs true {} ts with
    | ok b => exact ⟨b, rfl⟩
    | _ => rw [hb] at h; simp [Out.get?] at h

/-- Elements and buffers that are appended come last, the others stay; there has to be an element to append to. -/
theorem C112_append (head e : Chain) (b : Buf) :
    (bleAppend head e = if head = [] then .ub .nullDeref else .ok (head ++ e)) ∧
    (bleAppendBuf head b = if head = [] then .ub .nullDeref else .ok (head ++ [b])) := by
  have h : ∀ e, bleAppend head e = if head = [] then .ub .nullDeref else .ok (head ++ e) := by
    intro e
    unfold bleAppend bleTail
    cases hl : head.getLast? with
    | none =>
      rw [List.getLast?_eq_none_iff] at hl
      subst hl
      rfl
    | some x =>
      rw [if_neg (fun hn => by rw [hn] at hl; cases hl)]
      rfl
  exact ⟨h e, by unfold bleAppendBuf; rw [h]; rfl⟩

/-- A buffer that is printed holds the text and the zero that ends it. -/
theorem C112_bprintf (t : CStr) : bprintf t = t ++ [0#8] := by
  unfold bprintf snprintfTo balloc
  rw [if_neg (by omega), Nat.add_sub_cancel, List.take_length]
  simp

-- Three texts of which only the last may be short: all calls return, but nothing is left of them.
example : blPrintfs true {} [[], c!"hello"] = .ok { size := 5, capacity := 4096, head := [] } ∧
    blPrintfs true {} [c!"hello", c!"world"] = .ub .nullDeref ∧ blPrintfs false {} [c!"hello"] = .abort ∧
    bleAppendBuf [[1#8]] [2#8, 3#8] = .ok [[1#8], [2#8, 3#8]] ∧ bprintf c!"ab" = [97#8, 98#8, 0#8] := by decide +kernel

/-! ## C113: dumps -/

/-- The number written with the hexadecimal digits `s`. -/
def hexNumber (s : CStr) : Option Nat :=
  s.foldl (fun a c => match a, Spec.hexVal c with | some a, some v => some (16 * a + v) | _, _ => none) (some 0)

/-- The bytes written as pairs of digits, each with a blank after it. -/
def spacedBytes : CStr → Option Buf
  | [] => some []
  | x :: y :: z :: s =>
    match Spec.hexVal x, Spec.hexVal y, decide (z = ch!" "), spacedBytes s with
    | some a, some b, true, some r => some (BitVec.ofNat 8 (16 * a + b) :: r)
    | _, _, _, _ => none
  | _ => none

/-- A line of a dump: the position (8 digits), a colon, and bytes. -/
def dumpLine (l : CStr) : Option (Nat × Buf) :=
  match hexNumber (l.take 8), after c!": " (l.drop 8) with
  | some n, some s => (spacedBytes s).map (fun b => (n, b))
  | _, _ => none

/-- A reader of dumps: the positions and bytes of its lines. -/
def readDump (t : CStr) : Option (List (Nat × Buf)) := (linesOf t).mapM dumpLine

/-- Rows of 16 bytes, the last may be shorter but not empty, with their positions. -/
inductive Rows : Nat → Buf → List (Nat × Buf) → Prop
  | nil (pos) : Rows pos [] []
  | last {pos b} : b ≠ [] → b.length ≤ 16 → Rows pos b [(pos, b)]
  | row {pos b d rs} : b.length = 16 → d ≠ [] → Rows (pos + 16) d rs → Rows pos (b ++ d) ((pos, b) :: rs)

theorem hexNumber_hex08 (n : Nat) (h : n < 2 ^ 32) : hexNumber (hex08 n) = some n := by
  have e : ∀ k, Spec.hexVal (hexChar (k % 16)) = some (k % 16) := fun k => (hexChar_facts _ (Nat.mod_lt _ (by omega))).2.1
  have hl : hex08 n = [hexChar (n / 16 ^ 7 % 16), hexChar (n / 16 ^ 6 % 16), hexChar (n / 16 ^ 5 % 16), hexChar (n / 16 ^ 4 % 16),
      hexChar (n / 16 ^ 3 % 16), hexChar (n / 16 ^ 2 % 16), hexChar (n / 16 ^ 1 % 16), hexChar (n / 16 ^ 0 % 16)] := rfl
  rw [hl]
  simp only [hexNumber, List.foldl_cons, List.foldl_nil, e]
  congr 1
  omega

theorem spacedBytes_hex (b : Buf) :
    spacedBytes (b.flatMap (fun b => [hexChar (b.toNat / 16), hexChar (b.toNat % 16), ch!" "])) = some b := by
  induction b with
  | nil => rfl
  | cons x b ih =>
    have hx := x.isLt
    rw [List.flatMap_cons]
    simp only [List.cons_append, List.nil_append]
    rw [spacedBytes, (hexChar_facts _ (show x.toNat / 16 < 16 by omega)).2.1,
      (hexChar_facts _ (show x.toNat % 16 < 16 by omega)).2.1, ih]
    simp only [decide_true, Option.some.injEq, List.cons.injEq, and_true]
    rw [show 16 * (x.toNat / 16) + x.toNat % 16 = x.toNat by omega]
    simp

theorem oneLine_row (n : Nat) (b : Buf) :
    OneLine (hex08 n ++ c!": " ++ b.flatMap (fun b => [hexChar (b.toNat / 16), hexChar (b.toNat % 16), ch!" "])) := by
  have e : ∀ k, hexChar (k % 16) ≠ 10#8 := fun k => (hexChar_facts _ (Nat.mod_lt _ (by omega))).1
  rw [oneLine_append, oneLine_append]
  refine ⟨⟨?_, by unfold OneLine; decide⟩, ?_⟩
  · unfold OneLine hex08
    simp only [List.mem_map, not_exists, not_and]
    intro i _ h
    exact e _ h
  · unfold OneLine
    simp only [List.mem_flatMap, not_exists, not_and]
    intro x _ h
    have hx := x.isLt
    simp only [List.mem_cons, List.not_mem_nil, or_false] at h
    rcases h with h | h | h
    · exact (hexChar_facts _ (show x.toNat / 16 < 16 by omega)).1 h.symm
    · exact (hexChar_facts _ (show x.toNat % 16 < 16 by omega)).1 h.symm
    · revert h; decide

theorem dumpLine_row (n : Nat) (h : n < 2 ^ 32) (b : Buf) :
    dumpLine (hex08 n ++ c!": " ++ b.flatMap (fun b => [hexChar (b.toNat / 16), hexChar (b.toNat % 16), ch!" "])) = some (n, b) := by
  have hl : (hex08 n).length = 8 := by simp [hex08]
  unfold dumpLine
  rw [List.append_assoc, List.take_left' hl, List.drop_left' hl, hexNumber_hex08 n h, after_append]
  simp only [spacedBytes_hex, Option.map_some]

theorem readDump_from (fuel pos : Nat) (d : Buf) (hf : d.length ≤ fuel) (h : pos + d.length < 2 ^ 32) :
    ∃ rs, readDump (hexdumpFrom fuel pos d) = some rs ∧ Rows pos d rs := by
  induction fuel generalizing pos d with
  | zero =>
    have : d = [] := List.eq_nil_of_length_eq_zero (by omega)
    subst this
    exact ⟨[], rfl, .nil _⟩
  | succ fuel ih =>
    unfold hexdumpFrom
    by_cases hd : d = []
    · subst hd
      exact ⟨[], rfl, .nil _⟩
    · rw [if_neg hd]
      have hp : 0 < d.length := List.length_pos_iff.mpr hd
      unfold readDump
      rw [List.append_assoc _ c!"\n", show c!"\n" = nl from rfl, linesOf_line (oneLine_row pos (d.take 16)), List.mapM_cons, dumpLine_row _ (by omega)]
      by_cases h16 : d.length ≤ 16
      · rw [List.take_of_length_le h16, List.drop_of_length_le h16]
        refine ⟨[(pos, d)], ?_, .last hd h16⟩
        cases fuel <;> simp [hexdumpFrom, linesOf]
      · obtain ⟨rs, h1, h2⟩ := ih (pos + 16) (d.drop 16) (by rw [List.length_drop]; omega) (by rw [List.length_drop]; omega)
        refine ⟨(pos, d.take 16) :: rs, ?_, ?_⟩
        · unfold readDump at h1
          rw [h1]; rfl
        · have := Rows.row (b := d.take 16) (by rw [List.length_take]; omega)
            (fun hn => by have := congrArg List.length hn; rw [List.length_drop] at this; simp at this; omega) h2
          rwa [List.take_append_drop] at this

theorem Rows.bytes {pos d rs} (h : Rows pos d rs) : (rs.map (·.2)).flatten = d ∧ rs.length = (d.length + 15) / 16 ∧
    ∀ i (hi : i < rs.length), rs[i].1 = pos + 16 * i := by
  induction h with
  | nil => simp
  | @last pos b hb h16 =>
    have : 0 < b.length := List.length_pos_iff.mpr hb
    refine ⟨by simp, by simp; omega, ?_⟩
    intro i hi
    have : i = 0 := by simpa using hi
    subst this
    rfl
  | @row pos b d rs hb hd _ ih =>
    obtain ⟨h1, h2, h3⟩ := ih
    refine ⟨by simp [h1], by simp [h2]; omega, ?_⟩
    intro i hi
    cases i with
    | zero => rfl
    | succ i =>
      simp only [List.getElem_cons_succ]
      rw [h3 i (by simpa using hi)]
      omega

/-- The dump of a buffer can be read back: rows of 16 bytes, each with its position, and together they are the buffer. -/
theorem C113_dump (d : Buf) (h : d.length < 2 ^ 31) : ∃ rs, readDump (hexdump d) = some rs ∧ Rows 0 d rs ∧
    (rs.map (·.2)).flatten = d ∧ rs.length = (d.length + 15) / 16 ∧ ∀ i (hi : i < rs.length), rs[i].1 = 16 * i := by
  obtain ⟨rs, h1, h2⟩ := readDump_from d.length 0 d (Nat.le_refl _) (by omega)
  have h3 := h2.bytes
  exact ⟨rs, h1, h2, h3.1, h3.2.1, fun i hi => by rw [h3.2.2 i hi]; omega⟩

example : hexdump ((List.range 18).map (BitVec.ofNat 8)) =
    c!"00000000: 00 01 02 03 04 05 06 07 08 09 0a 0b 0c 0d 0e 0f \n00000010: 10 11 \n" ∧
    readDump c!"00000010: 10 11 \n" = some [(16, [16#8, 17#8])] ∧ readDump c!"0000001: 10 11 \n" = none := by decide +kernel

end Ef.Props
