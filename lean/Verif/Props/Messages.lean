import Verif.Lemmas.MsgValues
import Verif.Props.Errors
import Verif.Props.Names

/-!
# Properties C81 and C82: what is wrong with a command line is printed
-/

namespace Ef.Props

open Ef Spec

/-! ## C81: rejected command lines -/

/-- **C81**: if a command line is rejected, something is printed. -/
def C81_statement : Prop := ∀ (hp : Bool) (file : CStr) (argv : List CStr), parseCmds hp argv = .ok none → printed hp file argv ≠ []

theorem usage_ne : usageText ≠ [] := by decide +kernel

theorem msgText_ne (file : CStr) (m : Msg) : msgText file m ≠ [] := by
  cases m with
  | hdrList => unfold msgText hdrListText; simp
  | usage => exact usage_ne
  | hdrHelp h t => unfold msgText hdrHelpText; simp [nl]
  | fieldHelp f t => unfold msgText fieldHelpText; simp [nl]
  | _ => simp [msgText, nl]

theorem printed_ne {hp : Bool} {file : CStr} {argv : List CStr} (h : parseMsgs hp argv ≠ []) : printed hp file argv ≠ [] := by
  unfold printed
  intro e
  cases hm : parseMsgs hp argv with
  | nil => exact h hm
  | cons m ms =>
    rw [hm, List.flatMap_cons] at e
    exact msgText_ne file m (List.append_eq_nil_iff.1 e).1

/-- **C81, without the headers `data` and `padding`**: if a command line without these words is rejected, something is printed. -/
theorem C81_rejected_reported_partial (hp : Bool) (file : CStr) (argv : List CStr)
    (hw : ∀ w ∈ argv, w ≠ c!"data" ∧ w ≠ c!"padding") (h : parseCmds hp argv = .ok none) : printed hp file argv ≠ [] :=
  printed_ne (parseMsgs_ne h (fun h => (hw _ h).1 rfl) (fun h => (hw _ h).2 rfl))

/-- **C81 is false**: `hex eth padding` is rejected without a word. -/
theorem C81_false : ¬ C81_statement := by
  intro h
  exact h false [] [c!"hex", c!"eth", c!"padding"] (by decide +kernel) (by decide +kernel)

/-- **C81, position**: the line "Parse error! arg# I out of N, cmd_idx = K" tells that of the N words of the command line the first
I make up K complete commands, and that words are left behind them, which do not start with a command (or K is 100, the largest
number of commands). A command whose frame goes on into the next words does not count. -/
theorem C81_parse_error {hp : Bool} {argv : List CStr} {i n k : Nat} (h : Msg.parseError i n k ∈ parseMsgs hp argv) :
    n = argv.length ∧ ∃ (l : List (List CStr × Cmd)) (rest : List CStr), argv = allWords l ++ rest ∧ rest ≠ [] ∧
      (∀ p ∈ l, Command hp p.1 p.2) ∧ l.length = k ∧ (allWords l).length = i ∧
      (k = 100 ∨ ∀ ws r c, rest = ws ++ r → rest.length ≤ 101 → Command hp ws c →
        ∃ w tl, r = w :: tl ∧ ¬ (w ∈ cmdWords ∧ MayPrecede hp ws w)) := by
  obtain ⟨h1, l, rest, h2, h3, h4, h5, h6, h7⟩ := cmdsMsgs_parseError h
  refine ⟨h1, l, rest, h2, h4, h3, by omega, ?_, ?_⟩
  · rw [h6, h2, List.length_append]; omega
  · rcases h7 with h7 | h7
    · exact Or.inl (by omega)
    · refine Or.inr fun ws r c e hlen hc => Classical.byContradiction fun hn => ?_
      have := argcCmd_command hc (r := r) (by
        intro w tl hw
        refine Classical.byContradiction fun hn' => hn ⟨w, tl, hw, hn'⟩) (by rw [e, List.length_append] at hlen; exact hlen)
      rw [← e, h7] at this
      simp at this

-- `hex eth foo`: two of the three words are a command.
example : printed false [] [c!"hex", c!"eth", c!"foo"] = c!"Parse error! arg# 2 out of 3, cmd_idx = 1\n" ∧
    parseCmds false [c!"hex", c!"eth", c!"foo"] = .ok none ∧
    Msg.parseError 2 3 1 ∈ parseMsgs false [c!"hex", c!"eth", c!"foo"] := by
  have key : (parseMsgs false [c!"hex", c!"eth", c!"foo"]).any (fun m => match m with
      | .parseError i n k => i == 2 && n == 3 && k == 1
      | _ => false) = true := by decide +kernel
  refine ⟨by decide +kernel, by decide +kernel, ?_⟩
  obtain ⟨m, hm, h⟩ := List.any_eq_true.1 key
  split at h
  · simp only [Bool.and_eq_true, beq_iff_eq] at h
    obtain ⟨⟨rfl, rfl⟩, rfl⟩ := h
    exact hm
  · simp at h

/-! ## C82: values that are not understood -/

/-- The number of bytes of a value of `ft`: those needed for its bits, at least one. -/
def valBytes (ft : Field) : Nat := max 1 ((ft.width + 7) / 8)

theorem valBytes_eq (ft : Field) : bitToByte ft.width = valBytes ft := by
  unfold bitToByte valBytes
  omega

/-- **C82**: whenever a value given for a field is not understood (and therefore not used), something is printed. -/
def C82_statement : Prop :=
  ∀ (hp : Bool) (file : CStr) (l : List (List CStr × Cmd)) (hd argv pre rest lead : List CStr) (c : Cmd) (f0 f : Frame) (t : Hdr)
    (as : List (CStr × CStr)) (ft : Field) (name v : CStr) (n : Nat),
    (∀ p ∈ l, Command hp p.1 p.2) → Separated hp (l ++ [(hd ++ argv, c)]) → LeadWords hp hd → l.length < 100 →
    (allWords l ++ (hd ++ argv)).length ≤ 101 → Assigned argv pre f0 t lead as rest → argcFrame argv = .ok (some (n, f)) →
    (name, v) ∈ as → t.fields.find? (fun k => k.name == name) = some ft → NoValue ft v →
    printed hp file (allWords l ++ (hd ++ argv)) ≠ []

/-- **C82, values**: what is printed for the text `s` as a value of `n` bytes. Something is printed exactly if the text is not understood
although it looks like an address of that size, or is `0x` with digits or `0b` with bits and more than 8 bytes are needed. -/
theorem C82_value_messages (s : CStr) (n : Nat) :
    parseBytesMsgs s n ≠ [] ↔ parseBytes s n = .ok none ∧ (AddressLike n s ∨ LongLiteral n s) := parseBytesMsgs_iff s n

/-- **C82, for values that look like an address or are long**: if such a value is not understood, something is printed, wherever on the
command line it is. -/
theorem C82_dropped_reported_partial (hp : Bool) (file : CStr) (l : List (List CStr × Cmd)) (hd argv pre rest lead : List CStr) (c : Cmd)
    (f0 f : Frame) (t : Hdr) (as : List (CStr × CStr)) (ft : Field) (name v : CStr) (n : Nat)
    (hc : ∀ p ∈ l, Command hp p.1 p.2) (hs : Separated hp (l ++ [(hd ++ argv, c)])) (hlead : LeadWords hp hd) (hn : l.length < 100)
    (hlen : (allWords l ++ (hd ++ argv)).length ≤ 101) (hA : Assigned argv pre f0 t lead as rest)
    (hok : argcFrame argv = .ok (some (n, f))) (hm : (name, v) ∈ as)
    (hft : t.fields.find? (fun k => k.name == name) = some ft) (hv : NoValue ft v)
    (hkind : AddressLike (valBytes ft) v ∨ LongLiteral (valBytes ft) v) :
    printed hp file (allWords l ++ (hd ++ argv)) ≠ [] := by
  have hst : FrameStart argv := by
    rw [hA.words]
    exact frameStart_of (head_pre hA.pre ⟨t, hA.tmpl, rfl⟩)
  obtain ⟨x, y, e⟩ := parseMsgs_frame hc hs hlead hst hn hlen
  obtain ⟨x', y', e'⟩ := argcFrameMsgs_asgn hA hok
  obtain ⟨v1, v2, v3, v4⟩ := hv
  rw [valBytes_eq] at v2
  have hne : parseBytesMsgs v (valBytes ft) ≠ [] := (parseBytesMsgs_iff v _).2 ⟨v2, hkind⟩
  apply printed_ne
  rw [e, e']
  intro hnil
  simp only [List.append_eq_nil_iff] at hnil
  have hz := hnil.1.2.1.2
  unfold asgnMsgs at hz
  rw [List.flatMap_eq_nil_iff] at hz
  have hz := hz (name, v) hm
  have hff : findField t name = some ft := hft
  simp only [hff] at hz
  unfold valMsgs fieldMsgs at hz
  rw [v1, valBytes_eq] at hz
  have hig : isIgn v = false := by
    cases ei : isIgn v with
    | false => rfl
    | true => exact absurd ((isIgn_iff v).1 ei) v3
  rw [hig] at hz
  exact hne hz

/-- `eth dmac V`. -/
theorem dropped_case (v : CStr) (hv : plainB HDR_ETH [(c!"dmac", v)] = true) :
    Assigned [c!"eth", c!"dmac", v] [] {} HDR_ETH [] [(c!"dmac", v)] [] := by
  refine ⟨rfl, rfl, by decide +kernel, rfl, by intro h hh; simp at hh, Or.inl rfl, plain_of hv, ?_⟩
  intro x tl e; cases e

/-- The field `dmac`. -/
def dmacField : Field := { name := c!"dmac", width := 48, offset := 0, dflt := some (List.replicate 6 255#8) }

-- `hex eth dmac 1:2:3:4:5:6:7` is accepted, and a message is printed.
example : printed false [] [c!"hex", c!"eth", c!"dmac", c!"1:2:3:4:5:6:7"] ≠ [] ∧
    parseCmds false [c!"hex", c!"eth", c!"dmac", c!"1:2:3:4:5:6:7"] ≠ .ok none := by
  obtain ⟨n, f, h1, _⟩ := parsed_of (p := fun _ _ => true) (argv := [c!"eth", c!"dmac", c!"1:2:3:4:5:6:7"]) (by decide +kernel)
  refine ⟨C82_dropped_reported_partial false [] [] [c!"hex"] [c!"eth", c!"dmac", c!"1:2:3:4:5:6:7"] [] [] []
    { type := .hex } {} f HDR_ETH [(c!"dmac", c!"1:2:3:4:5:6:7")] dmacField c!"dmac" c!"1:2:3:4:5:6:7" n (by simp) trivial
    (Or.inl ⟨_, Head.hex⟩) (by decide) (by decide) (dropped_case _ (by decide +kernel)) h1 (by simp) (by decide +kernel)
    ⟨rfl, by decide +kernel, by decide +kernel, by decide⟩ (Or.inl ⟨by decide, Or.inr (Or.inl ⟨by decide, by decide, ?_⟩)⟩), ?_⟩
  · intro c hc
    simp only [List.mem_cons, List.not_mem_nil, or_false] at hc
    rcases hc with rfl | rfl | rfl | rfl | rfl | rfl | rfl | rfl | rfl | rfl | rfl | rfl | rfl <;>
      first
      | exact Or.inr rfl
      | exact Or.inl ((hexDigit_class _).1 (by decide))
  · have key : (match parseCmds false [c!"hex", c!"eth", c!"dmac", c!"1:2:3:4:5:6:7"] with
      | .ok none => false
      | _ => true) = true := by decide +kernel
    intro e
    rw [e] at key
    simp at key

/-- **C82 is false**: nothing is printed for `hex eth dmac xyz`, although `xyz` is no address. -/
theorem C82_false : ¬ C82_statement := by
  intro h
  obtain ⟨n, f, h1, _⟩ := parsed_of (p := fun _ _ => true) (argv := [c!"eth", c!"dmac", c!"xyz"]) (by decide +kernel)
  exact h false [] [] [c!"hex"] [c!"eth", c!"dmac", c!"xyz"] [] [] []
    { type := .hex } {} f HDR_ETH [(c!"dmac", c!"xyz")] dmacField c!"dmac" c!"xyz" n (by simp) trivial
    (Or.inl ⟨_, Head.hex⟩) (by decide) (by decide) (dropped_case _ (by decide +kernel)) h1 (by simp) (by decide +kernel)
    ⟨rfl, by decide +kernel, by decide +kernel, by decide⟩ (by decide +kernel)

end Ef.Props
