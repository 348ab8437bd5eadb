import Verif.Props.Repeat
import Verif.Spec.Number

/-!
# The numbers of timeouts and repetitions (C133)
-/

namespace Ef.Props

open Ef Ef.Spec

theorem whites_iff (c : Byte) : isSpace c = true ↔ c ∈ whites := by
  revert c
  decide +kernel

theorem digits_iff (c : Byte) : (48 ≤ c.toNat ∧ c.toNat ≤ 57) ↔ c ∈ digits := by
  revert c
  decide +kernel

theorem atoiLoop_rest (ds rest : CStr) (h : ∀ c, rest.head? = some c → c ∉ digits) (acc : Nat) :
    atoiLoop (ds ++ rest) acc = atoiLoop ds acc := by
  induction ds generalizing acc with
  | nil =>
    cases rest with
    | nil => rfl
    | cons c cs =>
      have := h c rfl
      rw [← digits_iff] at this
      simp only [List.nil_append, atoiLoop, if_neg this]
  | cons d ds ih =>
    simp only [List.cons_append, atoiLoop]
    split
    · exact ih _
    · rfl

theorem dropWhile_whites (sp t : CStr) (hs : ∀ c ∈ sp, c ∈ whites) (ht : ∀ c, t.head? = some c → c ∉ whites) :
    (sp ++ t).dropWhile isSpace = t := by
  induction sp with
  | nil =>
    cases t with
    | nil => rfl
    | cons c cs =>
      have := ht c rfl
      rw [← whites_iff] at this
      rw [List.nil_append, List.dropWhile_cons_of_neg this]
  | cons c sp ih =>
    have := hs c (by simp)
    rw [← whites_iff] at this
    rw [List.cons_append, List.dropWhile_cons_of_pos this]
    exact ih (fun x hx => hs x (by simp [hx]))

theorem clip_plus (n : Nat) : u32ToInt ((min (n : Int) (2 ^ 63 - 1)) % 2 ^ 32).toNat = asInt n := by
  unfold u32ToInt asInt
  by_cases h : (n : Int) ≤ 2 ^ 63 - 1
  · rw [Int.min_eq_left h, if_neg (show ¬ (2 : Int) ^ 63 ≤ n by omega), if_neg (show ¬ (n : Int) < -(2 ^ 63) by omega)]
    split <;> omega
  · rw [Int.min_eq_right (by omega), if_pos (show (2 : Int) ^ 63 ≤ n by omega)]
    decide

theorem clip_minus (n : Nat) : u32ToInt ((max (-(n : Int)) (-(2 ^ 63))) % 2 ^ 32).toNat = asInt (-(n : Int)) := by
  unfold u32ToInt asInt
  by_cases h : -(2 ^ 63) ≤ -(n : Int)
  · rw [Int.max_eq_left h, if_neg (show ¬ (2 : Int) ^ 63 ≤ -(n : Int) by omega), if_neg (show ¬ -(n : Int) < -(2 ^ 63) by omega)]
    split <;> omega
  · rw [Int.max_eq_right (by omega), if_neg (show ¬ (2 : Int) ^ 63 ≤ -(n : Int) by omega), if_pos (show -(n : Int) < -(2 ^ 63) by omega)]
    decide

theorem numeral_in {ds : CStr} {n : Nat} (h : Numeral 10 ds n) : ∀ c ∈ ds, c ∈ digits := fun c hc =>
  (digits_iff c).mp (numeral_digits h c hc)

theorem digit_other : ∀ c ∈ digits, c ∉ whites ∧ c ≠ ch!"+" ∧ c ≠ ch!"-" := by decide

theorem atoi_reads {s : CStr} {v : Int} (h : BeginsWith s v) : atoi s = asInt v := by
  obtain ⟨sp, sg, ds, rest, σ, n, rfl, hsp, hsg, hn, rfl, hrest⟩ := h
  have hl : atoiLoop (ds ++ rest) 0 = n := by rw [atoiLoop_rest ds rest (fun c hc => (hrest c hc).1), atoiLoop_numeral hn]
  rw [List.append_assoc, List.append_assoc]
  unfold atoi
  cases hsg with
  | none =>
    have hhead : ∀ c, (ds ++ rest).head? = some c → c ∉ whites ∧ c ≠ ch!"+" ∧ c ≠ ch!"-" := by
      intro c hc
      cases ds with
      | nil => exact (hrest c hc).2 rfl rfl
      | cons d ds =>
        simp only [List.cons_append, List.head?_cons, Option.some.injEq] at hc
        subst hc
        exact digit_other d (numeral_in hn d (by simp))
    rw [List.nil_append, dropWhile_whites sp _ hsp (fun c hc => (hhead c hc).1)]
    rw [Int.one_mul, ← clip_plus, ← hl]
    revert hhead
    cases hx : ds ++ rest with
    | nil => intro _; rfl
    | cons c cs =>
      intro hhead
      obtain ⟨-, h1, h2⟩ := hhead c rfl
      simp only
      rw [if_neg h2, if_neg h1]
  | plus =>
    rw [dropWhile_whites sp _ hsp (by intro c hc; simp at hc; subst hc; decide)]
    rw [Int.one_mul, ← clip_plus, ← hl]
    simp only [List.cons_append, List.nil_append]
    rw [if_neg (by decide), if_pos trivial]
  | minus =>
    rw [dropWhile_whites sp _ hsp (by intro c hc; simp at hc; subst hc; decide)]
    have e : (-1 : Int) * (n : Int) = -(n : Int) := by omega
    rw [e, ← clip_minus, ← hl]
    simp only [List.cons_append, List.nil_append]
    rw [if_pos trivial]

theorem numeral_exists (ds : CStr) (h : ∀ c ∈ ds, c ∈ digits) : ∃ n, Numeral 10 ds n := by
  have key : ∀ l : CStr, (∀ c ∈ l, c ∈ digits) → ∃ n, Numeral 10 l.reverse n := by
    intro l
    induction l with
    | nil => intro _; exact ⟨0, .nil⟩
    | cons c l ih =>
      intro hl
      obtain ⟨n, hn⟩ := ih (fun x hx => hl x (by simp [hx]))
      have hc := (digits_iff c).mpr (hl c (by simp))
      have e : c = BitVec.ofNat 8 (48 + (c.toNat - 48)) := by
        apply BitVec.eq_of_toNat_eq
        rw [BitVec.toNat_ofNat]
        omega
      refine ⟨n * 10 + (c.toNat - 48), ?_⟩
      rw [List.reverse_cons]
      refine Numeral.snoc _ _ _ _ hn ?_ (by omega)
      have := Digit.dec (c.toNat - 48) (by omega)
      rw [← e] at this
      exact this
  have := key ds.reverse (fun c hc => h c (List.mem_reverse.mp hc))
  rwa [List.reverse_reverse] at this

theorem head_dropWhile (p : Byte → Bool) (l : CStr) (c : Byte) (h : (l.dropWhile p).head? = some c) : p c = false := by
  induction l with
  | nil => simp at h
  | cons x l ih =>
    by_cases hx : p x = true
    · rw [List.dropWhile_cons_of_pos hx] at h; exact ih h
    · rw [List.dropWhile_cons_of_neg hx] at h
      simp only [List.head?_cons, Option.some.injEq] at h
      subst h
      simpa using hx

theorem mem_takeWhile_of (p : Byte → Bool) (l : CStr) : ∀ c ∈ l.takeWhile p, p c = true := by
  induction l with
  | nil => simp
  | cons x l ih =>
    by_cases hx : p x = true
    · rw [List.takeWhile_cons_of_pos hx]
      intro c hc
      rcases List.mem_cons.mp hc with rfl | hc
      · exact hx
      · exact ih c hc
    · rw [List.takeWhile_cons_of_neg hx]; simp

theorem split_digits (t : CStr) : ∃ ds rest n, t = ds ++ rest ∧ Numeral 10 ds n ∧ (∀ c, rest.head? = some c → c ∉ digits) := by
  let p : Byte → Bool := fun c => decide (c ∈ digits)
  obtain ⟨n, hn⟩ := numeral_exists (t.takeWhile p) (fun c hc => by simpa [p] using mem_takeWhile_of p t c hc)
  exact ⟨_, t.dropWhile p, n, List.takeWhile_append_dropWhile.symm, hn, fun c hc => by simpa [p] using head_dropWhile p t c hc⟩

/-! ## C133: a number that is not one is refused -/

/-- C133 as one would like it: a timeout that is not a decimal number below 2^31 is refused. -/
def C133_statement : Prop :=
  ∀ (w : World) (v : CStr) (rest : List CStr) (r : RunRes), (¬ ∃ n, v ≠ [] ∧ Numeral 10 v n ∧ n < 2 ^ 31) →
    main_ w (c!"-t" :: v :: c!"--" :: rest) = .ok r → r.ret = some (-1)

/-- Every text begins with a number in the sense of `BeginsWith`, so nothing is refused. -/
theorem C133_every (s : CStr) : ∃ v, BeginsWith s v := by
  let sp := s.takeWhile isSpace
  let t := s.dropWhile isSpace
  have hs : s = sp ++ t := List.takeWhile_append_dropWhile.symm
  have hsp : ∀ c ∈ sp, c ∈ whites := fun c hc => (whites_iff c).mp (mem_takeWhile_of isSpace s c hc)
  have ht : ∀ c, t.head? = some c → c ∉ whites := fun c hc => by
    rw [← whites_iff, head_dropWhile isSpace s c hc]; simp
  have signed : ∀ (sg t' : CStr) (σ : Int), Sign sg σ → sg ≠ [] → t = sg ++ t' → ∃ v, BeginsWith s v := by
    intro sg t' σ hsg hne e
    obtain ⟨ds, rest, n, e2, hn, hr⟩ := split_digits t'
    exact ⟨σ * n, sp, sg, ds, rest, σ, n, by rw [hs, e, e2]; simp, hsp, hsg, hn, rfl, fun c hc => ⟨hr c hc, fun h => absurd h hne⟩⟩
  by_cases h1 : t.head? = some ch!"+"
  · obtain ⟨t', e⟩ := List.head?_eq_some_iff.mp h1
    exact signed c!"+" t' 1 .plus (by simp) e
  · by_cases h2 : t.head? = some ch!"-"
    · obtain ⟨t', e⟩ := List.head?_eq_some_iff.mp h2
      exact signed c!"-" t' (-1) .minus (by simp) e
    · obtain ⟨ds, rest, n, e2, hn, hr⟩ := split_digits t
      refine ⟨1 * n, sp, [], ds, rest, 1, n, by rw [hs]; simp [e2], hsp, .none, hn, rfl, fun c hc => ⟨hr c hc, fun _ hd => ?_⟩⟩
      subst hd
      rw [List.nil_append] at e2
      rw [← e2] at hc
      exact ⟨ht c hc, fun h => h1 (by rw [hc, h]), fun h => h2 (by rw [hc, h])⟩

/-- C133, as far as it holds: the words of a line are executed with the timeout that the last `-t` begins with, as an `int`. White
space before the number, and everything after it, is ignored. -/
theorem C133_timeout_partial (w : World) (hw : w.posix = false) (l : List Item) (hl : ∀ it ∈ l, it.Valid) (rest : List CStr)
    (s : CStr) (v : Int) (hs : (timeouts l).getLast? = some s) (hv : BeginsWith s v) :
    main_ w (l.flatMap Item.words ++ c!"--" :: rest) =
      (do let r ← argcCmds w (asInt v) (captures l) (plainWords l ++ rest)
          .ok { r with deleted := (captures l).map captureFile }) ∧
    main_ w (l.flatMap Item.words) =
      (do let r ← argcCmds w (asInt v) (captures l) (plainWords l)
          .ok { r with deleted := (captures l).map captureFile }) := by
  have ht : timeoutOf l = asInt v := by simp [timeoutOf, hs, atoi_reads hv]
  have := C73_options_anywhere w hw l hl rest
  rw [ht] at this
  exact this

/-- C133 for the number of repetitions: it is the number that the word begins with, modulo 2^32. -/
theorem C133_repeat_partial (hp : Bool) (a u k : CStr) (hu : u = c!"rep" ∨ u = c!"repeat") (v : Int) (hv : BeginsWith k v)
    (ws : List CStr) (f : Frame) (b : Buf) (m : Option Buf) (hf : FrameWords ws f b m) (hlen : ws.length ≤ 97) :
    parseCmds hp (c!"tx" :: a :: u :: k :: ws) =
      .ok (some [{ type := .tx, arg0 := some a, rep := (asInt v % 2 ^ 32).toNat, frame := some f, buf := some b, mask := m }]) := by
  have hh := Head.txRep (hasPcap := hp) a u k hu
  rw [atoi_reads hv] at hh
  have hc := Command.frame hh hf
  have := C52_commands_partial hp [(_, _)] (by simpa using hc) trivial (by simp [allWords]; omega)
  simpa [allWords] using this

/-- The number is unique: two readings of a word give the same `int`. -/
theorem C133_unique (s : CStr) (v v' : Int) (h : BeginsWith s v) (h' : BeginsWith s v') : asInt v = asInt v' := by
  rw [← atoi_reads h, ← atoi_reads h']

/-- **C133 does not hold**: `-t 1O0` with a letter instead of a zero is accepted. -/
theorem C133_false : ¬ C133_statement := by
  intro h
  have hn : ¬ ∃ n, c!"1O0" ≠ [] ∧ Numeral 10 c!"1O0" n ∧ n < 2 ^ 31 := by
    rintro ⟨n, -, hn, -⟩
    exact absurd (numeral_in hn ch!"O" (by decide)) (by decide)
  have key : ∀ o : Out RunRes, (o.get?.map (·.ret)) = some (some 0) → ∃ r, o = .ok r ∧ r.ret = some 0 := by
    intro o ho
    cases o with
    | ok r => exact ⟨r, rfl, by simpa [Out.get?] using ho⟩
    | _ => simp [Out.get?] at ho
  obtain ⟨r, hr, h0⟩ := key (main_ quiet [c!"-t", c!"1O0", c!"--", c!"hex", c!"eth"]) (by decide +kernel)
  have := h quiet c!"1O0" [c!"hex", c!"eth"] r hn hr
  rw [h0] at this
  exact absurd this (by decide)

/-- Some readings: white space, signs, letters, numbers that are too large. -/
theorem C133_examples : BeginsWith c!"1O0" 1 ∧ BeginsWith c!"abc" 0 ∧ BeginsWith (32#8 :: 9#8 :: c!"-7ms") (-7) ∧ asInt 4294967396 = 100 ∧
    asInt (2 ^ 64) = -1 ∧ asInt (-(2 ^ 64)) = 0 ∧ asInt 2147483648 = -2147483648 ∧ asInt (-7) = -7 := by
  refine ⟨?_, ?_, ?_, by decide, by decide, by decide, by decide, by decide⟩
  · exact ⟨[], [], c!"1", c!"O0", 1, 1, rfl, by simp, .none, .snoc [] 0 _ 1 .nil (.dec 1 (by omega)) (by omega), rfl, by
      intro c hc
      simp only [List.head?_cons, Option.some.injEq] at hc
      subst hc
      exact ⟨by decide, fun _ h => by simp at h⟩⟩
  · exact ⟨[], [], [], c!"abc", 1, 0, rfl, by simp, .none, .nil, rfl, by
      intro c hc
      simp only [List.head?_cons, Option.some.injEq] at hc
      subst hc
      exact ⟨by decide, fun _ _ => by decide⟩⟩
  · exact ⟨[32#8, 9#8], c!"-", c!"7", c!"ms", -1, 7, rfl, by decide, .minus, .snoc [] 0 _ 7 .nil (.dec 7 (by omega)) (by omega), rfl, by
      intro c hc
      simp only [List.head?_cons, Option.some.injEq] at hc
      subst hc
      exact ⟨by decide, fun h => by simp at h⟩⟩

end Ef.Props
