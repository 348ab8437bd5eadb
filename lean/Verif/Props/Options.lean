import Verif.Props.Tool

/-!
# Options and captures of a whole run (C73, C74)
-/

namespace Ef.Props

open Ef Ef.Spec

/-! ## Numbers -/

theorem atoiLoop_snoc (s : CStr) (c : Byte) (d : Nat) (hc : Digit c d) (hd : d < 10)
    (hs : ∀ x ∈ s, 48 ≤ x.toNat ∧ x.toNat ≤ 57) : ∀ acc, atoiLoop (s ++ [c]) acc = atoiLoop s acc * 10 + d := by
  have hc' : 48 ≤ c.toNat ∧ c.toNat ≤ 57 ∧ c.toNat - 48 = d := by
    cases hc with
    | dec d h => rw [BitVec.toNat_ofNat]; omega
    | lower d h1 h2 => omega
    | upper d h1 h2 => omega
  induction s with
  | nil =>
    intro acc
    simp only [List.nil_append, atoiLoop]
    rw [if_pos ⟨hc'.1, hc'.2.1⟩, hc'.2.2]
  | cons x s ih =>
    intro acc
    have hx := hs x (by simp)
    rw [List.cons_append, atoiLoop, if_pos hx, atoiLoop, if_pos hx, ih (fun y hy => hs y (by simp [hy]))]

theorem numeral_digits {s : CStr} {n : Nat} (h : Numeral 10 s n) : ∀ x ∈ s, 48 ≤ x.toNat ∧ x.toNat ≤ 57 := by
  induction h with
  | nil => simp
  | snoc s n c d _ hc hd ih =>
    intro x hx
    rcases List.mem_append.mp hx with hx | hx
    · exact ih x hx
    · rw [List.mem_singleton] at hx
      subst hx
      cases hc with
      | dec d h => rw [BitVec.toNat_ofNat]; omega
      | lower d h1 h2 => omega
      | upper d h1 h2 => omega

theorem atoiLoop_numeral {s : CStr} {n : Nat} (h : Numeral 10 s n) : atoiLoop s 0 = n := by
  induction h with
  | nil => rfl
  | snoc s n c d hs hc hd ih => rw [atoiLoop_snoc s c d hc hd (numeral_digits hs), ih]

/-- A decimal numeral below 2^31 is read as its value. -/
theorem atoi_numeral {s : CStr} {n : Nat} (h : Numeral 10 s n) (hn : n < 2 ^ 31) : atoi s = n := by
  have hd := numeral_digits h
  have hl := atoiLoop_numeral h
  have hdrop : s.dropWhile isSpace = s := by
    cases s with
    | nil => rfl
    | cons x s =>
      have hx := hd x (by simp)
      rw [List.dropWhile_cons_of_neg]
      simp only [isSpace, Bool.or_eq_true, decide_eq_true_eq, Bool.and_eq_true, not_or]
      refine ⟨?_, ?_⟩
      · rintro rfl; exact absurd hx.1 (by decide)
      · omega
  have hu : u32ToInt ((n : Int) % 2 ^ 32).toNat = n := by
    have e : ((n : Int) % 2 ^ 32).toNat = n := by omega
    rw [e]
    unfold u32ToInt
    rw [if_pos hn]
  unfold atoi
  rw [hdrop]
  cases s with
  | nil =>
    simp only
    rw [show atoiLoop [] 0 = 0 from rfl] at hl
    rw [← hl]
    decide
  | cons x s =>
    have hx := hd x (by simp)
    have h1 : x ≠ ch!"-" := by rintro rfl; exact absurd hx.1 (by decide)
    have h2 : x ≠ ch!"+" := by rintro rfl; exact absurd hx.1 (by decide)
    simp only
    rw [if_neg h1, if_neg h2, hl, Int.min_eq_left (by omega), hu]

/-! ## C73: options may stand anywhere -/

/-- The option `getopt` reports for an item. -/
def itemOpt : Item → List Opt
  | .word _ => []
  | .timeout v _ => [.timeout v]
  | .capture v _ => [.capture v]

theorem getopt_plain (w : CStr) (h : PlainWord w) (ws : List CStr) :
    getopt false (w :: ws) = ((getopt false ws).1, w :: (getopt false ws).2) := by
  have h0 : w ≠ c!"--" := by
    rintro rfl
    rcases h with h | h
    · exact h rfl
    · exact absurd h (by decide)
  rcases w with _ | ⟨d, _ | ⟨c, cs⟩⟩
  · rfl
  · simp [getopt]
  · have hd : d ≠ ch!"-" := by
      rintro rfl
      rcases h with h | h
      · exact h rfl
      · simp at h
    simp [getopt, h0, hd]

theorem getopt_item (p : Bool) (it : Item) (h : it.Valid) (hp : p = true → ∀ w, it ≠ .word w) (ws : List CStr) :
    getopt p (it.words ++ ws) = (itemOpt it ++ (getopt p ws).1, plainWords [it] ++ (getopt p ws).2) := by
  cases it with
  | word w =>
    cases p with
    | false => exact getopt_plain w h ws
    | true => exact absurd rfl (hp rfl w)
  | timeout v j =>
    cases j with
    | false =>
      show getopt p (c!"-t" :: v :: ws) = _
      rw [getopt, if_neg (by decide)]
      rfl
    | true =>
      have hv := h rfl
      rcases v with _ | ⟨x, v⟩
      · exact absurd rfl hv
      · show getopt p ((ch!"-" :: ch!"t" :: x :: v) :: ws) = _
        rw [getopt, if_neg (by simp)]
        rfl
  | capture v j =>
    cases j with
    | false =>
      show getopt p (c!"-c" :: v :: ws) = _
      rw [getopt, if_neg (by decide)]
      rfl
    | true =>
      have hv := h rfl
      rcases v with _ | ⟨x, v⟩
      · exact absurd rfl hv
      · show getopt p ((ch!"-" :: ch!"c" :: x :: v) :: ws) = _
        rw [getopt, if_neg (by simp)]
        rfl

theorem getopt_items (p : Bool) (l : List Item) (h : ∀ it ∈ l, it.Valid) (hp : p = true → plainWords l = [])
    (ws : List CStr) :
    getopt p (l.flatMap Item.words ++ ws) =
      (l.flatMap itemOpt ++ (getopt p ws).1, plainWords l ++ (getopt p ws).2) := by
  induction l with
  | nil => rfl
  | cons it l ih =>
    have hc : plainWords (it :: l) = plainWords [it] ++ plainWords l := by
      cases it <;> rfl
    rw [List.flatMap_cons, List.append_assoc, getopt_item p it (h it (by simp)) (by
      intro hpt w e
      have := hp hpt
      rw [hc, e] at this
      simp [plainWords] at this),
      ih (fun x hx => h x (by simp [hx])) (by
        intro hpt
        have := hp hpt
        rw [hc] at this
        exact (List.append_eq_nil_iff.mp this).2), List.flatMap_cons, hc, List.append_assoc, List.append_assoc]

/-- The timeout in effect: the last one given, else 100 milliseconds. -/
def timeoutOf (l : List Item) : Int := ((timeouts l).getLast?.map atoi).getD 100

theorem opts_run (w : World) (argv : List CStr) (l : List Item) (os : List Opt) :
    ∀ (ms : Int) (caps : List CStr),
      mainLoopOpts w argv (l.flatMap itemOpt ++ os) ms caps =
        mainLoopOpts w argv os (((timeouts l).getLast?.map atoi).getD ms) (caps ++ captures l) := by
  induction l with
  | nil => intro ms caps; simp [timeouts, captures]
  | cons it l ih =>
    intro ms caps
    cases it with
    | word x => exact ih ms caps
    | timeout v j =>
      rw [List.flatMap_cons, List.append_assoc]
      show mainLoopOpts w argv (l.flatMap itemOpt ++ os) (atoi v) caps = _
      rw [ih]
      have e1 : captures (Item.timeout v j :: l) = captures l := rfl
      have e2 : timeouts (Item.timeout v j :: l) = v :: timeouts l := rfl
      rw [e1, e2, List.getLast?_cons]
      cases (timeouts l).getLast? <;> rfl
    | capture v j =>
      rw [List.flatMap_cons, List.append_assoc]
      show mainLoopOpts w argv (l.flatMap itemOpt ++ os) ms (caps ++ [v]) = _
      rw [ih]
      have e1 : captures (Item.capture v j :: l) = v :: captures l := rfl
      have e2 : timeouts (Item.capture v j :: l) = timeouts l := rfl
      rw [e1, e2, List.append_assoc]
      rfl

/-- **C73**: options may stand anywhere between the other words, with their value in the same or in the next word. The
other words are executed as if they stood alone, with the last timeout given (100 milliseconds without) and all
captures in the order given. Words after `--` are no options. -/
theorem C73_options_anywhere (w : World) (hw : w.posix = false) (l : List Item) (hl : ∀ it ∈ l, it.Valid)
    (rest : List CStr) :
    main_ w (l.flatMap Item.words ++ c!"--" :: rest) =
      (do let r ← argcCmds w (timeoutOf l) (captures l) (plainWords l ++ rest)
          .ok { r with deleted := (captures l).map captureFile }) ∧
    main_ w (l.flatMap Item.words) =
      (do let r ← argcCmds w (timeoutOf l) (captures l) (plainWords l)
          .ok { r with deleted := (captures l).map captureFile }) := by
  refine ⟨?_, ?_⟩
  · unfold main_
    rw [getopt_items _ l hl (by rw [hw]; simp), getopt, if_pos rfl]
    simp only
    rw [opts_run]
    rfl
  · unfold main_
    have := getopt_items w.posix l hl (by rw [hw]; simp) []
    rw [List.append_nil] at this
    rw [this]
    simp only [getopt]
    rw [opts_run, List.append_nil]
    rfl

/-- **C73**: with `POSIXLY_CORRECT` set the options must stand before the other words. -/
theorem C73_options_first (w : World) (hw : w.posix = true) (l : List Item) (hl : ∀ it ∈ l, it.Valid)
    (hp : plainWords l = []) (x : CStr) (hx : PlainWord x) (rest : List CStr) :
    main_ w (l.flatMap Item.words ++ x :: rest) =
      (do let r ← argcCmds w (timeoutOf l) (captures l) (x :: rest)
          .ok { r with deleted := (captures l).map captureFile }) := by
  unfold main_
  have h0 : getopt true (x :: rest) = ([], x :: rest) := by
    have h0 : x ≠ c!"--" := by
      rintro rfl
      rcases hx with h | h
      · exact h rfl
      · exact absurd h (by decide)
    rcases x with _ | ⟨d, _ | ⟨c, cs⟩⟩
    · rfl
    · simp [getopt]
    · have hd : d ≠ ch!"-" := by
        rintro rfl
        rcases hx with h | h
        · exact h rfl
        · simp at h
      simp [getopt, h0, hd]
  rw [getopt_items _ l hl (fun _ => hp), hw, h0, hp]
  simp only
  rw [opts_run]
  rfl

/-- **C73**: an unknown option, or an option whose value is missing, prints the help text and executes nothing,
whatever else is given. -/
theorem C73_bad_option (w : World) (hw : w.posix = false) (l : List Item) (hl : ∀ it ∈ l, it.Valid) (rest : List CStr) :
    (∀ c cs, c ≠ ch!"-" → c ∉ [ch!"v", ch!"h", ch!"t", ch!"c"] →
      main_ w (l.flatMap Item.words ++ (ch!"-" :: c :: cs) :: rest) =
        .ok { ret := some (-1), help := true, deleted := (captures l).map captureFile }) ∧
    (∀ x, x = c!"-t" ∨ x = c!"-c" →
      main_ w (l.flatMap Item.words ++ [x]) =
        .ok { ret := some (-1), help := true, deleted := (captures l).map captureFile }) := by
  refine ⟨?_, ?_⟩
  · intro c cs hd hc
    simp only [List.mem_cons, List.not_mem_nil, or_false, not_or] at hc
    have h1 : ∃ os r, getopt w.posix ((ch!"-" :: c :: cs) :: rest) = (.bad :: os, r) := by
      rw [getopt, if_neg (by intro e; simp only [List.cons.injEq] at e; exact hd e.2.1)]
      simp only
      rw [if_pos trivial]
      have h2 : optCluster (c :: cs) = (.bad :: (optCluster cs).1, (optCluster cs).2) := by
        rw [optCluster, if_neg hc.2.2.1, if_neg hc.2.2.2, if_neg hc.1, if_neg hc.2.1]
      rw [h2]
      split
      · rename_i os e
        simp only [Prod.mk.injEq] at e
        rw [← e.1]
        exact ⟨_, _, rfl⟩
      · rename_i os k e
        simp only [Prod.mk.injEq] at e
        rw [← e.1]
        split <;> exact ⟨_, _, rfl⟩
    obtain ⟨os, r, h1⟩ := h1
    unfold main_
    rw [getopt_items _ l hl (by rw [hw]; simp), h1]
    simp only
    rw [opts_run]
    rfl
  · intro x hx
    have h1 : getopt w.posix [x] = ([.bad], []) := by
      rcases hx with rfl | rfl <;> (rw [getopt, if_neg (by decide)]; rfl)
    unfold main_
    rw [getopt_items _ l hl (by rw [hw]; simp), h1]
    simp only
    rw [opts_run]
    rfl

/-- **C73**: `-v` prints the version and executes nothing, `-h` prints the help text and executes nothing. -/
theorem C73_version_help (w : World) (hw : w.posix = false) (l : List Item) (hl : ∀ it ∈ l, it.Valid) (cs : CStr)
    (rest : List CStr) :
    main_ w (l.flatMap Item.words ++ (c!"-v" ++ cs) :: rest) =
        .ok { ret := some 0, version := true, deleted := (captures l).map captureFile } ∧
      main_ w (l.flatMap Item.words ++ (c!"-h" ++ cs) :: rest) =
        .ok { ret := some (-1), help := true, deleted := (captures l).map captureFile } := by
  have h1 : ∀ (c : Byte) (o : Opt), c ≠ ch!"-" → (optCluster (c :: cs)).1 = o :: (optCluster cs).1 →
      ∃ os r, getopt w.posix ((ch!"-" :: c :: cs) :: rest) = (o :: os, r) := by
    intro c o hd ho
    rw [getopt, if_neg (by intro e; simp only [List.cons.injEq] at e; exact hd e.2.1)]
    simp only
    rw [if_pos trivial]
    split
    · rename_i os e
      rw [e] at ho
      simp only at ho
      rw [ho]
      exact ⟨_, _, rfl⟩
    · rename_i os k e
      rw [e] at ho
      simp only at ho
      rw [ho]
      split <;> exact ⟨_, _, rfl⟩
  refine ⟨?_, ?_⟩
  · obtain ⟨os, r, h2⟩ := h1 (ch!"v") .version (by decide) (by rw [optCluster]; rfl)
    unfold main_
    rw [getopt_items _ l hl (by rw [hw]; simp)]
    rw [show (c!"-v" ++ cs) = ch!"-" :: ch!"v" :: cs from rfl, h2]
    simp only
    rw [opts_run]
    rfl
  · obtain ⟨os, r, h2⟩ := h1 (ch!"h") .help (by decide) (by rw [optCluster]; rfl)
    unfold main_
    rw [getopt_items _ l hl (by rw [hw]; simp)]
    rw [show (c!"-h" ++ cs) = ch!"-" :: ch!"h" :: cs from rfl, h2]
    simp only
    rw [opts_run]
    rfl

/-- **C73**: a decimal timeout below 2^31 is that number of milliseconds; the last one counts. -/
theorem C73_timeout (l : List Item) :
    ((timeouts l = []) → timeoutOf l = 100) ∧
      ∀ v n, (timeouts l).getLast? = some v → Numeral 10 v n → n < 2 ^ 31 → timeoutOf l = n := by
  refine ⟨?_, ?_⟩
  · intro h
    simp [timeoutOf, h]
  · intro v n h hv hn
    simp [timeoutOf, h, atoi_numeral hv hn]

/-- Non-vacuity: two timeouts, a capture and a command between them. -/
example : main_ quiet [c!"hex", c!"-t20", c!"eth", c!"-c", c!"e0", c!"-t", c!"250"] =
    (do let r ← argcCmds quiet 250 [c!"e0"] [c!"hex", c!"eth"]
        .ok { r with deleted := [c!"e0.pcap"] }) := by
  have h := (C73_options_anywhere quiet rfl
    [.word c!"hex", .timeout c!"20" true, .word c!"eth", .capture c!"e0" false, .timeout c!"250" false]
    (by
      intro it hit
      simp only [List.mem_cons, List.not_mem_nil, or_false] at hit
      rcases hit with rfl | rfl | rfl | rfl | rfl
      · exact Or.inl (by decide)
      · exact fun _ => by decide
      · exact Or.inl (by decide)
      · exact fun _ => by decide
      · exact fun _ => by decide) []).2
  exact h

/-! ## C74: captures run at least as long as the timeout -/

theorem finished_of_ret {env : Env} {cmds : List Cmd} {x : ExecRes} (h : execCmds env cmds = .ok x) (hr : x.ret ≠ none) :
    x.status = .finished := by
  unfold execCmds at h
  simp only at h
  split at h
  · simp only [Out.ok.injEq] at h
    rw [← h]
  · rw [Out.bind_eq_ok] at h
    obtain ⟨y, hy, h⟩ := h
    simp only [Out.ok.injEq] at h
    subst h
    simp only at hr ⊢
    unfold execResolved at hy
    simp only [Out.bind_eq_ok] at hy
    obtain ⟨ep, _, eh, _, rs, _, ⟨eo, ok⟩, _, hy⟩ := hy
    simp only at hy
    split at hy
    · simp only [Out.ok.injEq] at hy
      rw [← hy]
    · rw [Out.bind_eq_ok] at hy
      obtain ⟨⟨st, rs', el⟩, _, hy⟩ := hy
      simp only at hy
      split at hy
      · simp only [Out.ok.injEq] at hy
        rw [← hy]
      · simp only [Out.ok.injEq] at hy
        rw [← hy] at hr
        exact absurd rfl hr

/-- **C74**: with captures, the tool sleeps before it stops them, for exactly the time that is left of the timeout
since the captures have been started; not at all if nothing is left, and never without captures. -/
theorem C74_sleep (w : World) (ms : Int) (caps argv : List CStr) (r : RunRes) (hms : 0 ≤ ms)
    (hb : Normalised w.before) (ha : Normalised w.after) (h : argcCmds w ms caps argv = .ok r) :
    (∀ t, r.slept = some t → Normalised t ∧ caps ≠ [] ∧ 0 < micros t ∧
        micros w.after + micros t = micros w.before + 1000 * ms) ∧
      (r.slept = none → r.started ≠ [] → r.ret ≠ none → micros w.before + 1000 * ms ≤ micros w.after) := by
  unfold argcCmds at h
  rw [Out.bind_eq_ok] at h
  obtain ⟨pc, _, h⟩ := h
  cases pc with
  | none =>
    simp only [Out.ok.injEq] at h
    subst h
    simp
  | some cmds =>
    simp only [Out.bind_eq_ok] at h
    obtain ⟨x, hx, h⟩ := h
    simp only [Out.ok.injEq] at h
    have ht := micros_timeout hms
    have hadd := micros_add hb ht.2
    have hlt := micros_gt hadd.2 ha
    have hsub := micros_sub hadd.2 ha
    have hlt' : timerLt w.after (timerAdd w.before (timeoutVal ms)) = timerGt (timerAdd w.before (timeoutVal ms)) w.after := by
      unfold timerLt timerGt
      by_cases e : w.after.sec = (timerAdd w.before (timeoutVal ms)).sec
      · rw [if_pos e, if_pos e.symm]
      · rw [if_neg e, if_neg (fun h => e h.symm)]
    subst h
    simp only
    rw [hlt']
    refine ⟨?_, ?_⟩
    · intro t h1
      split at h1
      · rename_i hc
        simp only [Option.some.injEq] at h1
        subst h1
        refine ⟨hsub.2, hc.2.1, ?_, ?_⟩
        · rw [hsub.1]
          have := hlt.mp hc.2.2
          omega
        · rw [hsub.1, hadd.1, ht.1]
          omega
      · simp at h1
    · intro h1 h2 h3
      split at h1
      · simp at h1
      · rename_i hc
        have hfin := finished_of_ret hx h3
        have hcaps : caps ≠ [] := by
          rintro rfl
          exact h2 rfl
        have : ¬ timerGt (timerAdd w.before (timeoutVal ms)) w.after = true := fun e => hc ⟨hfin, hcaps, e⟩
        rw [hlt, hadd.1, ht.1] at this
        omega

/-- Non-vacuity: 100 milliseconds from 3.95 s, the commands end at 4.01 s: 40 milliseconds are left. -/
example : argcCmds { quiet with before := ⟨3, 950000⟩, after := ⟨4, 10000⟩ } 100 [c!"e0"] [] =
    .ok { ret := some 0, started := [c!"tcpdump -i e0 -w e0.pcap"], slept := some ⟨0, 40000⟩ } := by decide +kernel

/-- Nothing is left. -/
example : argcCmds { quiet with before := ⟨3, 950000⟩, after := ⟨5, 10000⟩ } 100 [c!"e0"] [] =
    .ok { ret := some 0, started := [c!"tcpdump -i e0 -w e0.pcap"], slept := none } := by decide +kernel

end Ef.Props
