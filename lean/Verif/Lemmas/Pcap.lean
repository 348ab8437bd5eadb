import Verif.Spec.Pcap
import Verif.Lemmas.Events

/-!
# Lemmas: capture files
-/

namespace Ef

open Ef.Spec

/-! ## The events that write to files -/

/-- File and frame of an event that writes. -/
def fileWrite : Event → Option (CStr × Buf)
  | .pcap n b => some (n, b)
  | _ => none

theorem fileWrite_none {es : List Event} (h : ∀ e ∈ es, ∀ a b, e ≠ .pcap a b) : es.filterMap fileWrite = [] := by
  rw [List.filterMap_eq_nil_iff]
  intro e he
  have := h e he
  cases e <;> first | rfl | exact absurd rfl (this _ _)

/-- File and frame of a `pcap` command. -/
def pcapOf (c : Cmd) : Option (CStr × Buf) :=
  if c.type = .pcap then
    match c.arg0, c.buf with
    | some n, some b => some (n, b)
    | _, _ => none
  else none

theorem pcapEvents_writes {cmds : List Cmd} {es} (h : pcapEvents cmds = .ok es) :
    es.filterMap fileWrite = cmds.filterMap pcapOf := by
  induction cmds generalizing es with
  | nil => simp only [pcapEvents, Out.ok.injEq] at h; subst h; rfl
  | cons c cs ih =>
    unfold pcapEvents at h
    split at h
    · rename_i ht
      split at h
      · rename_i a b ha hb
        simp only [Out.bind_eq_ok] at h
        obtain ⟨es', h1, h2⟩ := h
        simp only [Out.ok.injEq] at h2
        subst h2
        rw [List.filterMap_cons_some (f := fileWrite) (b := (a, b)) rfl, ih h1,
          List.filterMap_cons_some (b := (a, b)) (by simp [pcapOf, ht, ha, hb])]
      · simp at h
    · rename_i ht
      rw [ih h, List.filterMap_cons_none (by simp [pcapOf, ht])]

theorem openAll_opened {co : CStr → Bool} {rs : List Resource} {es ok} (h : openAll co rs = .ok (es, ok)) :
    ∀ e ∈ es, ∃ a, e = .opened a := by
  induction rs generalizing es ok with
  | nil => simp only [openAll, Out.ok.injEq, Prod.mk.injEq] at h; rw [← h.1]; simp
  | cons r rs ih =>
    unfold openAll at h
    simp only [Out.bind_eq_ok] at h
    obtain ⟨a, _, h⟩ := h
    split at h
    · simp only [Out.bind_eq_ok] at h
      obtain ⟨⟨es', ok'⟩, h1, h⟩ := h
      simp only [Out.ok.injEq, Prod.mk.injEq] at h
      rw [← h.1]
      intro e he
      rcases List.mem_cons.mp he with rfl | he
      · exact ⟨_, rfl⟩
      · exact ih h1 e he
    · simp only [Out.ok.injEq, Prod.mk.injEq] at h; rw [← h.1]; simp

theorem checkResults_noRx (rs : List Resource) : ∀ e ∈ (checkResults rs).2, ∃ a b n m, e = .noRx a b n m := by
  induction rs with
  | nil => simp [checkResults]
  | cons r rs ih =>
    intro e he
    unfold checkResults at he
    simp only [List.mem_append, List.mem_flatMap] at he
    rcases he with ⟨c, _, he⟩ | he
    · unfold noRxEvent at he
      split at he
      · rw [List.mem_singleton] at he; exact ⟨_, _, _, _, he⟩
      · simp at he
    · exact ih e he

/-- What a run without unresolved names writes to files. -/
theorem execCmds_writes {env cmds r} (hu : ∀ c ∈ cmds, unresolved cmds c = false) (h : execCmds env cmds = .ok r) :
    r.events.filterMap fileWrite =
      if env.cfg.hasPcap then (cmds.map (resolve cmds)).filterMap pcapOf else [] := by
  obtain ⟨r0, h0, rfl⟩ := execCmds_ok hu h
  have hi : (inventory cmds).filterMap fileWrite = [] := fileWrite_none (by
    intro e he a b
    obtain ⟨_, _, _, rfl⟩ := inventory_shape _ e he
    simp)
  unfold execResolved at h0
  simp only [Out.bind_eq_ok] at h0
  obtain ⟨ep, hep, eh, heh, rs, hm, ⟨eo, ok⟩, ho, h0⟩ := h0
  have he : ep.filterMap fileWrite = if env.cfg.hasPcap then (cmds.map (resolve cmds)).filterMap pcapOf else [] := by
    unfold pcapAll at hep
    split at hep
    · rename_i hp; rw [if_pos hp]; exact pcapEvents_writes hep
    · rename_i hp; rw [if_neg hp]; simp only [Out.ok.injEq] at hep; subst hep; rfl
  have hh : eh.filterMap fileWrite = [] := fileWrite_none (by
    intro e he a b
    obtain ⟨_, _, rfl⟩ := hexEvents_shape heh e he
    simp)
  have hoo : eo.filterMap fileWrite = [] := fileWrite_none (by
    intro e he a b
    obtain ⟨_, rfl⟩ := openAll_opened ho e he
    simp)
  simp only at h0
  split at h0
  · simp only [Out.ok.injEq] at h0
    subst h0
    simp [hi, hh, hoo, he]
  · simp only [Out.bind_eq_ok] at h0
    obtain ⟨⟨st, rs', el⟩, hml, h0⟩ := h0
    have hl : el.filterMap fileWrite = [] := fileWrite_none fun e he => (mainLoop_calm hml e he).2
    have hc : (checkResults rs').2.filterMap fileWrite = [] := fileWrite_none (by
      intro e he a b
      obtain ⟨_, _, _, _, rfl⟩ := checkResults_noRx _ e he
      simp)
    simp only at h0
    split at h0 <;>
    · simp only [Out.ok.injEq] at h0
      subst h0
      simp [hi, hh, hoo, he, hl, hc]

/-- With an unresolved name nothing is written. -/
theorem execCmds_writes_unresolved {env cmds r} (hu : ¬ ∀ c ∈ cmds, unresolved cmds c = false)
    (h : execCmds env cmds = .ok r) : r.events.filterMap fileWrite = [] := by
  unfold execCmds at h
  rw [pairNames_eq] at h
  have hne : ((cmds.filter (unresolved cmds)).filterMap fun c => (refersTo c).map Event.noSuchName) ≠ [] := by
    intro e
    refine hu fun c hc => ?_
    cases hx : unresolved cmds c with
    | false => rfl
    | true =>
      rw [List.filterMap_eq_nil_iff] at e
      have := e c (List.mem_filter.2 ⟨hc, hx⟩)
      rw [Option.map_eq_none_iff] at this
      unfold unresolved at hx
      rw [this] at hx
      simp at hx
  simp only [ne_eq, hne, not_false_eq_true, if_true, Out.ok.injEq] at h
  subst h
  refine fileWrite_none ?_
  intro e he a b
  rcases List.mem_append.1 he with he | he
  · obtain ⟨_, _, _, rfl⟩ := inventory_shape _ e he
    simp
  · rw [List.mem_filterMap] at he
    obtain ⟨c, _, he⟩ := he
    rw [Option.map_eq_some_iff] at he
    obtain ⟨_, _, rfl⟩ := he
    simp

/-! ## The files -/

theorem filesAfter_eq (lib : PcapLib) (fs : Files) (es : List Event) :
    filesAfter lib fs es = (es.filterMap fileWrite).foldl (fun fs p => (pcapAppend lib fs p.1 p.2).1) fs := by
  induction es generalizing fs with
  | nil => rfl
  | cons e es ih =>
    cases e <;> simp [filesAfter, fileWrite, ih, List.filterMap_cons]

theorem leVal_le32 (n : Nat) : leVal (le32Bytes n) = n % 2 ^ 32 := by
  simp only [le32Bytes, leVal, BitVec.toNat_ofNat]
  omega

theorem _root_.Ef.Spec.Records.append {c d : Buf} {ps qs : List (Buf × Nat)} (h : Records c ps) (h' : Records d qs) :
    Records (c ++ d) (ps ++ qs) := by
  induction h with
  | nil => exact h'
  | @cons time cap len bytes rest ps ht hc hl hb h ih =>
    have := Records.cons ht hc hl hb ih
    simpa only [List.append_assoc, List.cons_append] using this

theorem _root_.Ef.Spec.Records.single {b : Buf} (hb : b.length < 2 ^ 32) : Records (pcapRecord b) [(b, b.length)] := by
  have h := Records.cons (time := le32Bytes 0 ++ le32Bytes 0) (cap := le32Bytes b.length) (len := le32Bytes b.length)
    (bytes := b) rfl rfl rfl (by rw [leVal_le32, Nat.mod_eq_of_lt hb]) .nil
  rw [leVal_le32, Nat.mod_eq_of_lt hb] at h
  unfold pcapRecord
  rw [Nat.mod_eq_of_lt hb, List.take_length]
  simpa using h

/-- A sequence of records is read in one way only. -/
theorem _root_.Ef.Spec.Records.unique {c : Buf} {ps qs : List (Buf × Nat)} (h : Records c ps) (h' : Records c qs) :
    ps = qs := by
  induction h generalizing qs with
  | nil =>
    generalize e : ([] : Buf) = d at h'
    cases h' with
    | nil => rfl
    | cons ht => have := congrArg List.length e; simp [ht] at this; omega
  | @cons time cap len bytes rest ps ht hc hl hb h ih =>
    generalize e : time ++ cap ++ len ++ bytes ++ rest = d at h'
    cases h' with
    | nil => have := congrArg List.length e; simp [ht] at this
    | @cons time' cap' len' bytes' rest' ps' ht' hc' hl' hb' h' =>
      simp only [List.append_assoc] at e
      obtain ⟨_, e⟩ := List.append_inj e (by rw [ht, ht'])
      obtain ⟨e1, e⟩ := List.append_inj e (by rw [hc, hc'])
      obtain ⟨e2, e⟩ := List.append_inj e (by rw [hl, hl'])
      obtain ⟨e3, e4⟩ := List.append_inj e (by rw [← hb, ← hb', e1])
      subst e1 e2 e3 e4
      rw [ih h']

theorem pcapHeader_file : CaptureFile pcapHeader [] where
  long := by decide
  magic := by decide +kernel
  version := by decide +kernel
  link := by decide +kernel
  records := by
    rw [show pcapHeader.drop 24 = [] by decide +kernel]
    exact .nil

theorem _root_.Ef.Spec.CaptureFile.append {c : Buf} {ps : List (Buf × Nat)} (h : CaptureFile c ps) {b : Buf} (hb : b.length < 2 ^ 32) :
    CaptureFile (c ++ pcapRecord b) (ps ++ [(b, b.length)]) := by
  have hl := h.long
  have ht : ∀ i j, i + j ≤ 24 → ((c ++ pcapRecord b).drop i).take j = (c.drop i).take j := by
    intro i j hij
    rw [List.drop_append_of_le_length (by omega), List.take_append_of_le_length (by rw [List.length_drop]; omega)]
  refine ⟨?_, ?_, ⟨?_, ?_⟩, ?_, ?_⟩
  · rw [List.length_append]; omega
  · have := ht 0 4 (by omega)
    rw [List.drop_zero, List.drop_zero] at this
    rw [this]; exact h.magic
  · rw [ht 4 2 (by omega)]; exact h.version.1
  · rw [ht 6 2 (by omega)]; exact h.version.2
  · rw [ht 20 4 (by omega)]; exact h.link
  · rw [List.drop_append_of_le_length (by omega)]
    exact h.records.append (.single hb)

/-- A file that libpcap will open, with its packets. -/
def Open (lib : PcapLib) (file : Option Buf) (ps : List (Buf × Nat)) : Prop :=
  Holds file ps ∧ ∀ c, file = some c → c ≠ [] → lib.accepts c = true

theorem pcapAppend_open {lib : PcapLib} (hs : Sound lib) {fs : Files} {n : CStr} {ps} (hw : lib.mayWrite n = true)
    (h : Open lib (fs n) ps) {b : Buf} (hb : b.length < 2 ^ 32) :
    Open lib ((pcapAppend lib fs n b).1 n) (ps ++ [(b, b.length)]) ∧ (pcapAppend lib fs n b).2 = 0 := by
  have key : ∀ c qs, CaptureFile c qs → lib.accepts c = true → qs = ps → pcapOpen lib n (fs n) = some c →
      Open lib ((pcapAppend lib fs n b).1 n) (ps ++ [(b, b.length)]) ∧ (pcapAppend lib fs n b).2 = 0 := by
    rintro c qs hc ha rfl ho
    unfold pcapAppend
    rw [ho]
    simp only [if_true]
    refine ⟨⟨.inr (hc.append hb), ?_⟩, by simp⟩
    intro c' e _
    simp only [Option.some.injEq] at e
    rw [← e, hs.header _ _ hc.long]
    exact ha
  obtain ⟨h1, h2⟩ := h
  cases hf : fs n with
  | none =>
    rw [hf] at h1
    exact key _ _ pcapHeader_file hs.own h1.symm (by simp [pcapOpen, hw, hf])
  | some c =>
    rw [hf] at h1 h2
    cases c with
    | nil =>
      rcases h1 with ⟨_, h1⟩ | h1
      · exact key _ _ pcapHeader_file hs.own h1.symm (by simp [pcapOpen, hw, hf])
      · exact absurd h1.long (by simp)
    | cons x xs =>
      rcases h1 with ⟨h1, _⟩ | h1
      · exact absurd h1 (by simp)
      · have := h2 _ rfl (by simp)
        exact key _ _ h1 this rfl (by simp [pcapOpen, hw, hf, this])

theorem pcapAppend_other {lib : PcapLib} {fs : Files} {n m : CStr} {b : Buf} (h : m ≠ n) :
    (pcapAppend lib fs n b).1 m = fs m := by
  unfold pcapAppend
  split <;> simp [h]

theorem pcapAppend_refused {lib : PcapLib} {fs : Files} {n m : CStr} {b : Buf} (h : lib.mayWrite m = false) :
    (pcapAppend lib fs n b).1 m = fs m := by
  by_cases e : m = n
  · subst e; simp [pcapAppend, pcapOpen, h]
  · exact pcapAppend_other e

/-- The packets for the file `n`. -/
def packetsFor (n : CStr) (ws : List (CStr × Buf)) : List (Buf × Nat) :=
  ws.filterMap fun p => if p.1 = n then some (p.2, p.2.length) else none

theorem fold_open {lib : PcapLib} (hs : Sound lib) {n : CStr} (hw : lib.mayWrite n = true) (ws : List (CStr × Buf))
    (hb : ∀ p ∈ ws, p.1 = n → p.2.length < 2 ^ 32) {fs : Files} {ps} (h : Open lib (fs n) ps) :
    Open lib (ws.foldl (fun fs p => (pcapAppend lib fs p.1 p.2).1) fs n) (ps ++ packetsFor n ws) := by
  induction ws generalizing fs ps with
  | nil => simpa [packetsFor] using h
  | cons p ws ih =>
    have hb' : ∀ p ∈ ws, p.1 = n → p.2.length < 2 ^ 32 := fun q hq => hb q (List.mem_cons_of_mem _ hq)
    rw [List.foldl_cons]
    by_cases e : p.1 = n
    · have := ih hb' (pcapAppend_open hs (by rw [e]; exact hw) (fs := fs) (n := p.1) (by rw [e]; exact h) (hb p (by simp) e) |>.1 |> fun x => by rwa [e] at x)
      rw [← e] at this ⊢
      simpa [packetsFor] using this
    · have := ih hb' (fs := (pcapAppend lib fs p.1 p.2).1) (ps := ps) (by rw [pcapAppend_other (Ne.symm e)]; exact h)
      simpa [packetsFor, e] using this

theorem packetsFor_written (n : CStr) (cmds : List Cmd) :
    packetsFor n ((cmds.map (resolve cmds)).filterMap pcapOf) = writtenTo n cmds := by
  unfold packetsFor writtenTo
  rw [List.filterMap_filterMap]
  congr 1
  funext c
  unfold pcapOf
  by_cases ht : c.type = .pcap
  · simp only [ht, if_true, true_and]
    cases ha : c.arg0 with
    | none => simp
    | some a =>
      cases hb : c.buf with
      | none => simp
      | some b => by_cases e : a = n <;> simp [e]
  · simp [ht]

end Ef
