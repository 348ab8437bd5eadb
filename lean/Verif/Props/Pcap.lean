import Verif.Lemmas.Pcap
import Verif.Props.Tool

/-!
# Capture files

C97: the frames of the `pcap` commands are in the files.
-/

namespace Ef.Props

open Ef Ef.Spec

theorem argcCmds_events {w ms caps argv cmds r} (hc : parseCmds w.env.cfg.hasPcap argv = .ok (some cmds))
    (h : argcCmds w ms caps argv = .ok r) :
    ∃ r0, execCmds { w.env with timeoutMs := ms } cmds = .ok r0 ∧ r.events = r0.events := by
  unfold argcCmds at h
  rw [hc, Out.ok_bind] at h
  simp only [Out.bind_eq_ok] at h
  obtain ⟨r0, h0, h⟩ := h
  simp only [Out.ok.injEq] at h
  subst h
  exact ⟨r0, h0, rfl⟩

/-- A libpcap that accepts the files with its own header and may write everything. -/
def libOwn : PcapLib := { mayWrite := fun _ => true, accepts := fun c => decide (c.take 24 = pcapHeader) }

theorem libOwn_sound : Sound libOwn where
  header := by
    intro c d h
    simp only [libOwn]
    rw [List.take_append_of_le_length h]
  own := by decide +kernel

/-- **C97**, full statement: after a run with exit status 0 every file holds the packets it held before, followed by the
frames of its `pcap` commands, complete and in the order of the commands. -/
def C97_statement : Prop :=
  ∀ (lib : PcapLib) (w : World) (ms : Int) (caps argv : List CStr) (cmds : List Cmd) (r : RunRes) (fs : Files) (n : CStr)
    (ps : List (Buf × Nat)), Sound lib → w.env.cfg.hasPcap = true → parseCmds true argv = .ok (some cmds) →
    argcCmds w ms caps argv = .ok r → r.ret = some 0 →
    (∀ c ∈ cmds.map (resolve cmds), ∀ b, c.buf = some b → b.length < 2 ^ 32) → Holds (fs n) ps →
    Holds (filesAfter lib fs r.events n) (ps ++ writtenTo n cmds)

/-- **C97**, partial: a file that can be opened, or created, gets the frames of its `pcap` commands after the packets it
held, complete and in the order of the commands, whatever the exit status of the run is. The names have to be
resolved. -/
theorem C97_pcap_files_partial {lib : PcapLib} {w : World} {ms : Int} {caps argv : List CStr} {cmds : List Cmd}
    {r : RunRes} {fs : Files} {n : CStr} {ps : List (Buf × Nat)} (hs : Sound lib) (hp : w.env.cfg.hasPcap = true)
    (hc : parseCmds true argv = .ok (some cmds)) (hu : ∀ c ∈ cmds, unresolved cmds c = false)
    (h : argcCmds w ms caps argv = .ok r)
    (hb : ∀ c ∈ cmds.map (resolve cmds), ∀ b, c.buf = some b → b.length < 2 ^ 32) (hf : Holds (fs n) ps)
    (hw : lib.mayWrite n = true) (ha : ∀ c, fs n = some c → c ≠ [] → lib.accepts c = true) :
    Holds (filesAfter lib fs r.events n) (ps ++ writtenTo n cmds) := by
  obtain ⟨r0, h0, e0⟩ := argcCmds_events (by rw [hp]; exact hc) h
  rw [e0, filesAfter_eq, execCmds_writes hu h0, if_pos hp, ← packetsFor_written]
  refine (fold_open hs hw _ ?_ ⟨hf, ha⟩).1
  intro p hp' _
  rw [List.mem_filterMap] at hp'
  obtain ⟨c, hc, e⟩ := hp'
  unfold pcapOf at e
  split at e
  · split at e
    · rename_i hb'
      simp only [Option.some.injEq] at e
      subst e
      exact hb c hc _ hb'
    · simp at e
  · simp at e

/-- The packets of a file are determined by its contents, so that `Holds` says what a reader finds. -/
theorem C97_packets_unique {f : Option Buf} {ps qs : List (Buf × Nat)} (h : Holds f ps) (h' : Holds f qs) : ps = qs := by
  cases f with
  | none => exact h.trans h'.symm
  | some c =>
    rcases h with ⟨e, h⟩ | h <;> rcases h' with ⟨e', h'⟩ | h'
    · rw [h, h']
    · subst e; exact absurd h'.long (by simp)
    · subst e'; exact absurd h.long (by simp)
    · exact h.records.unique h'.records

/-- **C97**: no other file is touched: a file which is named in no `pcap` command, which cannot be opened for writing, or
which libpcap refuses, is as before; without libpcap, or with a name that nobody defines, no file is touched at all. -/
theorem C97_other_files {lib : PcapLib} {w : World} {ms : Int} {caps argv : List CStr} {cmds : List Cmd} {r : RunRes}
    {fs : Files} {n : CStr} (hc : parseCmds w.env.cfg.hasPcap argv = .ok (some cmds)) (h : argcCmds w ms caps argv = .ok r)
    (hn : (∀ c ∈ cmds, c.type = .pcap → c.arg0 ≠ some n) ∨ lib.mayWrite n = false ∨
      (∃ c, fs n = some c ∧ c ≠ [] ∧ lib.accepts c = false) ∨ w.env.cfg.hasPcap = false ∨
      ∃ c ∈ cmds, unresolved cmds c = true) :
    filesAfter lib fs r.events n = fs n := by
  have hfix : ∀ {ws : List (CStr × Buf)}, ((∀ p ∈ ws, p.1 ≠ n) ∨ lib.mayWrite n = false ∨
      ∃ c, fs n = some c ∧ c ≠ [] ∧ lib.accepts c = false) →
      ∀ gs : Files, gs n = fs n → ws.foldl (fun fs p => (pcapAppend lib fs p.1 p.2).1) gs n = fs n := by
    intro ws hws
    induction ws with
    | nil => intro gs hg; exact hg
    | cons p ws ih =>
      intro gs hg
      rw [List.foldl_cons]
      refine ih ?_ _ ?_
      · rcases hws with hws | hws
        · exact .inl fun q hq => hws q (List.mem_cons_of_mem _ hq)
        · exact .inr hws
      · rcases hws with hws | hws | ⟨c, h1, h2, h3⟩
        · rw [pcapAppend_other (Ne.symm (hws p (by simp))), hg]
        · rw [pcapAppend_refused hws, hg]
        · by_cases e : n = p.1
          · subst e
            have : pcapOpen lib p.1 (gs p.1) = none := by
              unfold pcapOpen
              rw [hg, h1]
              cases c with
              | nil => exact absurd rfl h2
              | cons x xs => simp [h3]
            unfold pcapAppend
            rw [this]
            exact hg
          · rw [pcapAppend_other e, hg]
  obtain ⟨r0, h0, e0⟩ := argcCmds_events hc h
  rw [e0, filesAfter_eq]
  by_cases hu : ∀ c ∈ cmds, unresolved cmds c = false
  · cases hp : w.env.cfg.hasPcap with
    | false =>
      rw [execCmds_writes hu h0, hp]
      rfl
    | true =>
      rw [execCmds_writes hu h0, if_pos hp]
      refine hfix ?_ fs rfl
      rcases hn with hn | hn | hn | hn | ⟨c, hc, hn⟩
      · left
        intro p hp' e
        rw [List.mem_filterMap] at hp'
        obtain ⟨c, hc, hpc⟩ := hp'
        obtain ⟨c0, hc0, rfl⟩ := List.mem_map.1 hc
        unfold pcapOf at hpc
        rw [resolve_type, resolve_arg0] at hpc
        split at hpc
        · rename_i ht
          split at hpc
          · rename_i a b ha hb
            simp only [Option.some.injEq] at hpc
            subst hpc
            exact hn c0 hc0 ht (by rw [ha]; exact congrArg some e)
          · simp at hpc
        · simp at hpc
      · exact .inr (.inl hn)
      · exact .inr (.inr hn)
      · rw [hp] at hn; exact absurd hn (by simp)
      · rw [hu c hc] at hn; exact absurd hn (by simp)
  · rw [execCmds_writes_unresolved hu h0]
    rfl

/-- A line with the command `pcap FILE FRAME` only. -/
theorem pcap_line (w : World) (ms : Int) (file : CStr) {ws : List CStr} {f : Frame} {b : Buf} {m : Option Buf}
    (hp : w.env.cfg.hasPcap = true) (hw : FrameWords ws f b m) (hl : ws.length ≤ 99) :
    argcCmds w ms [] (c!"pcap" :: file :: ws) = .ok { ret := some 0, events := [.pcap file b] } := by
  generalize hc : ({ type := .pcap, arg0 := some file, frame := some f, buf := some b, mask := m } : Cmd) = c
  have hp' := C52_commands_partial w.env.cfg.hasPcap [(c!"pcap" :: file :: ws, c)]
    (by
      intro p hq
      rw [List.mem_singleton] at hq
      subst hq hc
      exact .frame (hd := [c!"pcap", file]) (.pcap file hp) hw) trivial
    (by simp only [allWords, List.flatMap_cons, List.flatMap_nil, List.append_nil, List.length_cons]; omega)
  have e : allWords [(c!"pcap" :: file :: ws, c)] = c!"pcap" :: file :: ws := by simp [allWords]
  rw [e] at hp'
  unfold argcCmds
  rw [hp', Out.ok_bind]
  simp only [List.map_cons, List.map_nil]
  have hx : execCmds { w.env with timeoutMs := ms } [c] = .ok ⟨some 0, .finished, [], [.pcap file b]⟩ := by
    subst hc
    unfold execCmds
    rw [show ∀ c : Cmd, c.buf = some b → c.type = .pcap → pairNames [c] [c] = ([c], []) from
      fun c h1 h2 => by simp [pairNames_eq, refersTo, resolve, unresolved, h1] ]
    · simp only [ne_eq, not_true_eq_false, if_false]
      unfold execResolved
      dsimp only
      rw [show pcapAll w.env.cfg
          [{ type := .pcap, arg0 := some file, frame := some f, buf := some b, mask := m }] = .ok [.pcap file b] by
            unfold pcapAll; rw [if_pos hp]; rfl]
      rw [Out.ok_bind]
      rw [show hexEvents [{ type := .pcap, arg0 := some file, frame := some f, buf := some b, mask := m }] = .ok [] from
        rfl, Out.ok_bind]
      rw [show mapCmds [{ type := .pcap, arg0 := some file, frame := some f, buf := some b, mask := m }] [] = .ok [] from
        rfl, Out.ok_bind]
      rw [show ∀ co, openAll co [] = .ok ([], true) from fun _ => rfl, Out.ok_bind]
      simp only [not_true_eq_false, if_false]
      rw [show ∀ cfg fuel tend hist left, mainLoop cfg fuel tend hist left [] = .ok (.finished, [], []) from
        fun _ _ _ hist _ => by cases hist <;> simp [mainLoop, wantsIo]]
      rfl
    · rfl
    · rfl
  rw [hx, Out.ok_bind]
  rfl

/-- **C97** for the tool: `pcap FILE FRAME` appends one packet with the bytes of the frame, those that `hex FRAME`
prints. -/
theorem C97_pcap_line {lib : PcapLib} (w : World) (ms : Int) {file : CStr} {ws : List CStr} {f : Frame} {b : Buf}
    {m : Option Buf} {fs : Files} {ps : List (Buf × Nat)} (hs : Sound lib) (hp : w.env.cfg.hasPcap = true)
    (hw : FrameWords ws f b m) (hl : ws.length ≤ 99) (hb : b.length < 2 ^ 32) (hf : Holds (fs file) ps)
    (hm : lib.mayWrite file = true) (ha : ∀ c, fs file = some c → c ≠ [] → lib.accepts c = true) :
    ∃ r, argcCmds w ms [] (c!"pcap" :: file :: ws) = .ok r ∧ r.ret = some 0 ∧
      Holds (filesAfter lib fs r.events file) (ps ++ [(b, b.length)]) ∧
      (∀ n, n ≠ file → filesAfter lib fs r.events n = fs n) ∧
      (m = none → ∃ r' T, argcCmds w ms [] (c!"hex" :: ws) = .ok r' ∧ HexText T b ∧ stdoutOf r'.events = T ++ nl) := by
  refine ⟨_, pcap_line w ms file hp hw hl, rfl, ?_, ?_, ?_⟩
  · exact (pcapAppend_open hs hm ⟨hf, ha⟩ hb).1.1
  · intro n hn
    exact pcapAppend_other hn
  · rintro rfl
    exact ⟨_, printHexStr b, hex_line w ms hw, printHexStr_text b, by simp [stdoutOf, eventText]⟩

/-- The commands of the non-vacuity example. -/
def pcapWords : List CStr :=
  [c!"pcap", c!"f", c!"name", c!"n", c!"pcap", c!"g", c!"eth", c!"name", c!"n", c!"eth", c!"dmac", c!"1::2", c!"pcap", c!"f", c!"eth"]

/-- Non-vacuity: two frames of 60 bytes go to `f`, the first one given by its name. -/
example : ∃ cmds, parseCmds true pcapWords = .ok (some cmds) ∧ (∀ c ∈ cmds, unresolved cmds c = false) ∧
    (∀ c ∈ cmds.map (resolve cmds), ∀ b, c.buf = some b → b.length = 60) ∧
    ((writtenTo c!"f" cmds).map fun p => p.1.take 6) = [[1, 0, 0, 0, 0, 2], [255, 255, 255, 255, 255, 255]] ∧
    (writtenTo c!"g" cmds).length = 1 := by
  have hk : (match parseCmds true pcapWords with
    | .ok (some cmds) => cmds.all (fun c => !unresolved cmds c) &&
        (cmds.map (resolve cmds)).all (fun c => c.buf.all (fun b => b.length == 60)) &&
        decide (((writtenTo c!"f" cmds).map fun p => p.1.take 6) = [[1, 0, 0, 0, 0, 2], [255, 255, 255, 255, 255, 255]]) &&
        decide ((writtenTo c!"g" cmds).length = 1)
    | _ => false) = true := by decide +kernel
  split at hk
  · rename_i cmds hc
    simp only [Bool.and_eq_true, List.all_eq_true, Bool.not_eq_true', decide_eq_true_eq, Option.all_eq_true_iff_get,
      beq_iff_eq] at hk
    refine ⟨cmds, hc, hk.1.1.1, ?_, hk.1.2, hk.2⟩
    intro c hc' b hb
    have := hk.1.1.2 c hc'
    simpa [hb] using this
  · simp at hk

/-- A quiet world with libpcap. -/
def worldPcap : World := { quiet with env := { quiet.env with cfg := { quiet.env.cfg with hasPcap := true } } }

/-- The world of the counterexample: no file can be written. -/
def libNone : PcapLib := { libOwn with mayWrite := fun _ => false }

/-- **C97** is false: a `pcap` command whose file cannot be opened leaves exit status 0. -/
theorem C97_false : ¬ C97_statement := by
  intro h
  obtain ⟨f, b, hw⟩ := frameWords_of (ws := [c!"eth"]) (by decide +kernel)
  have hb : b.length = 60 := by
    obtain ⟨_, f0, h1, h2, _⟩ := hw
    have hk : (match argcFrame [c!"eth"] with
      | .ok (some (_, f0)) =>
        match frameToBuf f0 with
        | .ok (_, b) => b.length == 60
        | _ => false
      | _ => false) = true := by decide +kernel
    rw [h1] at hk
    simp only [h2] at hk
    exact beq_iff_eq.1 hk
  have hl := pcap_line worldPcap 100 c!"f" rfl hw (by simp)
  have hc := C52_commands_partial true
    [([c!"pcap", c!"f", c!"eth"], { type := .pcap, arg0 := some c!"f", frame := some f, buf := some b, mask := none })]
    (by
      intro p hq
      rw [List.mem_singleton] at hq
      subst hq
      exact .frame (hd := [c!"pcap", c!"f"]) (.pcap c!"f" rfl) hw) trivial (by simp [allWords])
  have := h libNone worldPcap 100 [] _ _ _ (fun _ => none) c!"f" [] ⟨libOwn_sound.1, libOwn_sound.2⟩ rfl hc hl rfl
    (by
      intro c hc' b' hb'
      simp only [List.map_cons, List.map_nil, List.mem_singleton] at hc'
      subst hc'
      simp only [resolve, refersTo] at hb'
      simp only [reduceCtorEq, and_false, if_false, Option.some.injEq] at hb'
      subst hb'
      rw [hb]
      decide) rfl
  have e : filesAfter libNone (fun _ => none) [.pcap c!"f" b] c!"f" = none := by
    simp [filesAfter, pcapAppend, pcapOpen, libNone]
  rw [e] at this
  simp [Holds, writtenTo, resolve, refersTo] at this

end Ef.Props
