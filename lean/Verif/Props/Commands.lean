import Verif.Lemmas.Commands
import Verif.Model.Main

/-!
# The commands of a command line (C51, C52)
-/

namespace Ef.Props

open Spec

/-! ## C51: a command line is executed completely or not at all -/

/-- The words of an accepted command line are those of at most 100 commands, and these are the commands that were
read. -/
theorem parseCmds_conv {hp : Bool} {argv : List CStr} {cmds : List Cmd} (h : parseCmds hp argv = .ok (some cmds)) :
    ∃ l : List (List CStr × Cmd), argv = allWords l ∧ cmds = l.map (·.2) ∧ l.length ≤ 100 ∧ ∀ p ∈ l, Command hp p.1 p.2 := by
  unfold parseCmds at h
  rw [Out.bind_eq_ok] at h
  obtain ⟨o, ho, h⟩ := h
  cases o with
  | none => simp at h
  | some p =>
    obtain ⟨cs, rest⟩ := p
    simp only at h
    split at h
    · rename_i hr
      simp only [Out.ok.injEq, Option.some.injEq] at h
      subst h
      obtain ⟨l, h1, h2, h3, h4⟩ := argcCmdsLoop_conv ho
      exact ⟨l, by rw [h1, hr, List.append_nil], h2, h3, h4⟩
    · simp at h

/-- **C51** for the commands (the words behind the options): either all the words are those of at most 100 commands
which then are executed, or the result is −1, nothing is executed and no capture is started. -/
theorem C51_all_or_nothing {w : World} {ms : Int} {caps argv : List CStr} {r : RunRes} (h : argcCmds w ms caps argv = .ok r) :
    (∃ l : List (List CStr × Cmd), argv = allWords l ∧ l.length ≤ 100 ∧ (∀ p ∈ l, Command w.env.cfg.hasPcap p.1 p.2) ∧
      ∃ x, execCmds { w.env with timeoutMs := ms } (l.map (·.2)) = .ok x ∧ r.ret = x.ret ∧ r.events = x.events) ∨
    (r.ret = some (-1) ∧ r.events = [] ∧ r.started = [] ∧ r.deleted = [] ∧ r.slept = none) := by
  unfold argcCmds at h
  rw [Out.bind_eq_ok] at h
  obtain ⟨o, ho, h⟩ := h
  cases o with
  | none =>
    simp only [Out.ok.injEq] at h
    subst h
    exact Or.inr ⟨rfl, rfl, rfl, rfl, rfl⟩
  | some cmds =>
    simp only at h
    rw [Out.bind_eq_ok] at h
    obtain ⟨x, hx, h⟩ := h
    simp only [Out.ok.injEq] at h
    subst h
    obtain ⟨l, h1, h2, h3, h4⟩ := parseCmds_conv ho
    exact Or.inl ⟨l, h1, h3, h4, x, by rw [← h2]; exact hx, rfl, rfl⟩

theorem mainLoopOpts_conv {w : World} {words : List CStr} {os : List Opt} {ms : Int} {caps : List CStr} {r : RunRes}
    (h : mainLoopOpts w words os ms caps = .ok r) :
    (∃ ms caps r', argcCmds w ms caps words = .ok r' ∧ r.ret = r'.ret ∧ r.events = r'.events ∧ r.started = r'.started ∧
      r.slept = r'.slept) ∨
    ((r.ret = some 0 ∧ r.version = true ∨ r.ret = some (-1) ∧ r.help = true) ∧ r.events = [] ∧ r.started = [] ∧ r.slept = none) := by
  induction os generalizing ms caps with
  | nil =>
    unfold mainLoopOpts at h
    rw [Out.bind_eq_ok] at h
    obtain ⟨r', h1, h⟩ := h
    simp only [Out.ok.injEq] at h
    subst h
    exact Or.inl ⟨ms, caps, r', h1, rfl, rfl, rfl, rfl⟩
  | cons o os ih =>
    cases o with
    | version =>
      simp only [mainLoopOpts, Out.ok.injEq] at h; subst h
      exact Or.inr ⟨Or.inl ⟨rfl, rfl⟩, rfl, rfl, rfl⟩
    | help =>
      simp only [mainLoopOpts, Out.ok.injEq] at h; subst h
      exact Or.inr ⟨Or.inr ⟨rfl, rfl⟩, rfl, rfl, rfl⟩
    | bad =>
      simp only [mainLoopOpts, Out.ok.injEq] at h; subst h
      exact Or.inr ⟨Or.inr ⟨rfl, rfl⟩, rfl, rfl, rfl⟩
    | timeout a => rw [mainLoopOpts] at h; exact ih h
    | capture a => rw [mainLoopOpts] at h; exact ih h

/-- **C51** for the whole tool: if anything is transmitted, printed about frames or captured, the words that are no
options are those of at most 100 commands, and exactly these are executed. -/
theorem C51_whole_tool {w : World} {argv : List CStr} {r : RunRes} (h : main_ w argv = .ok r)
    (hsome : r.events ≠ [] ∨ r.started ≠ [] ∨ r.slept ≠ none) :
    ∃ l : List (List CStr × Cmd), (getopt w.posix argv).2 = allWords l ∧ l.length ≤ 100 ∧
      (∀ p ∈ l, Command w.env.cfg.hasPcap p.1 p.2) ∧
      ∃ ms x, execCmds { w.env with timeoutMs := ms } (l.map (·.2)) = .ok x ∧ r.ret = x.ret ∧ r.events = x.events := by
  unfold main_ at h
  simp only at h
  rcases mainLoopOpts_conv h with ⟨ms, caps, r', h1, e1, e2, e3, e4⟩ | ⟨_, e2, e3, e4⟩
  · rcases C51_all_or_nothing h1 with ⟨l, a, b, c, x, d, e, f⟩ | ⟨_, a, b, _, c⟩
    · exact ⟨l, a, b, c, ms, x, d, e1.trans e, e2.trans f⟩
    · rw [e2, e3, e4, a, b, c] at hsome
      simp at hsome
  · rw [e2, e3, e4] at hsome
    simp at hsome

/-- An environment without traffic. -/
def quietEnv : Env := ⟨⟨true, true⟩, fun _ => true, ⟨0, 0⟩, 100, [], 0⟩

/-- A world without traffic. -/
def quiet : World := ⟨quietEnv, false, ⟨0, 0⟩, ⟨0, 0⟩⟩

/-- A command that is executed. -/
example : (match main_ quiet [c!"hex", c!"eth"] with
    | .ok r => decide (r.ret = some 0 ∧ r.events = [.hex (List.replicate 6 255#8 ++ zeros 5 ++ [1#8, 0xaa#8, 0xaa#8] ++ zeros 46) none])
    | _ => false) = true := by decide +kernel

/-- A word that is not understood: nothing is executed, nothing captured; the file of the capture has been deleted. -/
example : main_ quiet [c!"-c", c!"e0", c!"hex", c!"eth", c!"bogus"] =
    .ok { ret := some (-1), deleted := [c!"e0.pcap"] } := by decide +kernel

/-! ## C52: splitting the command line into commands is unambiguous -/

/-- C52 as claimed: every sequence of commands is read as these commands. -/
def C52_statement : Prop :=
  ∀ (hp : Bool) (l : List (List CStr × Cmd)), (∀ p ∈ l, Command hp p.1 p.2) → l.length ≤ 100 → (allWords l).length ≤ 100 →
    parseCmds hp (allWords l) = .ok (some (l.map (·.2)))

/-- **C52** (partial): every sequence of commands is read as these commands provided that a frame that ends with
payload segments is not followed by `hex`, and that `rx IF` without a frame is not followed by `name` (see `C52_false`
for what happens otherwise). The words may even be 101. -/
theorem C52_commands_partial (hp : Bool) (l : List (List CStr × Cmd)) (hc : ∀ p ∈ l, Command hp p.1 p.2)
    (hs : Separated hp l) (hl : (allWords l).length ≤ 101) :
    parseCmds hp (allWords l) = .ok (some (l.map (·.2))) := by
  have hn : l.length ≤ 100 := by
    have : ∀ l : List (List CStr × Cmd), (∀ p ∈ l, Command hp p.1 p.2) → 2 * l.length ≤ (allWords l).length := by
      intro l
      induction l with
      | nil => simp
      | cons p l ih =>
        intro hc
        have h1 := (hc p (by simp)).first.1
        have h2 := ih (fun q hq => hc q (by simp [hq]))
        have e : allWords (p :: l) = p.1 ++ allWords l := rfl
        rw [e, List.length_append, List.length_cons]
        omega
    have := this l hc
    omega
  unfold parseCmds
  rw [argcCmdsLoop_split hc hs hn hl, Out.ok_bind]
  rfl

/-- **C52**: with more than 100 words behind the beginning of a command everything is rejected, even if only the first
few belong to its frame. -/
theorem C52_too_long (hp : Bool) {hd : List CStr} {c : Cmd} (h : Head hp hd c) (r : List CStr) (hr : 100 < r.length)
    (hw : ∀ w, r.head? = some w → w ≠ c!"name" ∧ w ≠ c!"rep" ∧ w ≠ c!"repeat") : parseCmds hp (hd ++ r) = .ok none := by
  have hne : r ≠ [] := by rintro rfl; simp at hr
  have e : argcCmd hp (hd ++ r) = .ok .err := by
    rw [argcCmd_head h hne (fun w e => (hw w e).2)]
    have e1 : argcFrame r = .ok none := by
      unfold argcFrame
      rw [if_pos (by unfold frameStackMax; omega)]
    have e2 : argcCmdFrame c hd.length r = .ok .err := by
      unfold argcCmdFrame
      rw [e1]; rfl
    unfold argcCmdRest
    split
    · rename_i w n tl
      rw [if_neg (fun e => (hw w rfl).1 e.1)]
      exact e2
    · exact e2
  unfold parseCmds argcCmdsLoop
  rw [if_neg (by simp [hne]), e]
  rfl

/-- Words that describe a frame without mask (decided by evaluation). -/
def frameWordsB (ws : List CStr) : Bool :=
  match argcFrame ws with
  | .ok (some (n, f0)) =>
    n == ws.length && ws != [] &&
      match frameToBuf f0 with
      | .ok (f, _) => !f.hasMask
      | _ => false
  | _ => false

theorem frameWords_of {ws : List CStr} (h : frameWordsB ws = true) : ∃ f b, FrameWords ws f b none := by
  unfold frameWordsB at h
  split at h
  · rename_i n f0 h1
    split at h
    · rename_i f b h2
      simp only [Bool.and_eq_true, beq_iff_eq, bne_iff_ne, ne_eq, Bool.not_eq_true'] at h
      obtain ⟨⟨rfl, h3⟩, h4⟩ := h
      exact ⟨f, b, h3, f0, h1, h2, Or.inl ⟨h4, rfl⟩⟩
    · simp at h
  · simp at h

/-- C52 is false: in `rx e name n eth` the frame definition is taken as the name of the expected frame, and the rest
is rejected. -/
theorem C52_false : ¬ C52_statement := by
  intro h
  obtain ⟨f, b, hw⟩ := frameWords_of (ws := [c!"eth"]) (by decide +kernel)
  have h2 := h false [([c!"rx", c!"e"], { type := .rx, arg0 := some c!"e" }),
    ([c!"name", c!"n", c!"eth"], { type := .name, name := some c!"n", frame := some f, buf := some b, mask := none })]
    (by
      intro p hp
      simp only [List.mem_cons, List.not_mem_nil, or_false] at hp
      rcases hp with rfl | rfl
      · exact .listen c!"e"
      · exact .define c!"n" hw) (by simp) (by simp [allWords])
  have h3 : parseCmds false [c!"rx", c!"e", c!"name", c!"n", c!"eth"] = .ok none := by decide +kernel
  have e : allWords [([c!"rx", c!"e"], { type := .rx, arg0 := some c!"e" }),
    ([c!"name", c!"n", c!"eth"], { type := .name, name := some c!"n", frame := some f, buf := some b, mask := none })] =
    [c!"rx", c!"e", c!"name", c!"n", c!"eth"] := rfl
  rw [e, h3] at h2
  simp at h2

/-- The other exception: the second command of `hex data ascii a hex eth` is taken as a payload segment, and the line
is rejected. -/
example : frameWordsB [c!"data", c!"ascii", c!"a"] = true ∧ frameWordsB [c!"eth"] = true ∧
    parseCmds true [c!"hex", c!"data", c!"ascii", c!"a", c!"hex", c!"eth"] = .ok none := by decide +kernel

/-- The theorem applies to a line with a listening command, a repeated transmission, an expected frame by name and a
definition. -/
example : ∃ f b, parseCmds true
    [c!"rx", c!"a", c!"tx", c!"b", c!"rep", c!"3", c!"eth", c!"rx", c!"b", c!"name", c!"n", c!"name", c!"n", c!"eth"] =
    .ok (some [{ type := .rx, arg0 := some c!"a" },
      { type := .tx, arg0 := some c!"b", rep := 3, frame := some f, buf := some b },
      { type := .rx, arg0 := some c!"b", name := some c!"n" },
      { type := .name, name := some c!"n", frame := some f, buf := some b }]) := by
  obtain ⟨f, b, hw⟩ := frameWords_of (ws := [c!"eth"]) (by decide +kernel)
  refine ⟨f, b, C52_commands_partial true
    [([c!"rx", c!"a"], { type := .rx, arg0 := some c!"a" }),
     ([c!"tx", c!"b", c!"rep", c!"3", c!"eth"], { type := .tx, arg0 := some c!"b", rep := 3, frame := some f, buf := some b }),
     ([c!"rx", c!"b", c!"name", c!"n"], { type := .rx, arg0 := some c!"b", name := some c!"n" }),
     ([c!"name", c!"n", c!"eth"], { type := .name, name := some c!"n", frame := some f, buf := some b })] ?_ ?_ (by simp [allWords])⟩
  · intro p hp
    simp only [List.mem_cons, List.not_mem_nil, or_false] at hp
    rcases hp with rfl | rfl | rfl | rfl
    · exact .listen c!"a"
    · exact .frame (.txRep c!"b" c!"rep" c!"3" (Or.inl rfl)) hw
    · exact .ref c!"n" (.rx c!"b")
    · exact .define c!"n" hw
  · refine ⟨?_, ?_, ?_, trivial⟩ <;>
      (simp only [List.head?_cons, Option.some.injEq]; rintro w rfl; refine ⟨fun _ => by decide, ?_⟩; rintro ⟨i, e⟩; first | decide | (simp at e))

end Ef.Props
