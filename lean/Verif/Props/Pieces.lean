import Verif.Model.Pieces
import Verif.Lemmas.NumText
import Verif.Props.Report

/-!
# The report when captures end (C127)
-/

namespace Ef.Props

open Ef Ef.Spec

/-! ## The pieces make up the text -/

/-- What a list of calls writes. -/
def written (ps : List Piece) : CStr × CStr := (ps.flatMap (·.1), ps.flatMap (·.2))

theorem written_append (ps qs : List Piece) :
    written (ps ++ qs) = ((written ps).1 ++ (written qs).1, (written ps).2 ++ (written qs).2) := by
  simp [written]

theorem written_hex_po (b : Buf) : written (hexPieces po b) = (printHexStr b, []) := by
  induction b with
  | nil => rfl
  | cons x b ih =>
    simp only [written, hexPieces, List.map_cons, List.flatMap_cons, Prod.mk.injEq] at ih ⊢
    rw [ih.1, ih.2]
    exact ⟨rfl, rfl⟩

theorem written_hex_pe (b : Buf) : written (hexPieces pe b) = ([], printHexStr b) := by
  induction b with
  | nil => rfl
  | cons x b ih =>
    simp only [written, hexPieces, List.map_cons, List.flatMap_cons, Prod.mk.injEq] at ih ⊢
    rw [ih.1, ih.2]
    exact ⟨rfl, rfl⟩

theorem written_po (s : CStr) (ps : List Piece) : written (po s :: ps) = (s ++ (written ps).1, (written ps).2) := by
  simp [written, po]

theorem written_pe (s : CStr) (ps : List Piece) : written (pe s :: ps) = ((written ps).1, s ++ (written ps).2) := by
  simp [written, pe]

theorem written_nil : written [] = ([], []) := rfl

theorem eventPieces_text (e : Event) : written (eventPieces e) = eventText e := by
  cases e with
  | named n b m => cases m <;> simp [eventPieces, eventText, written_append, written_hex_po, written_po, written_nil]
  | hex b m => cases m <;> simp [eventPieces, eventText, written_append, written_hex_po, written_po, written_nil]
  | rxOk a b n m =>
    cases n <;> cases m <;> simp [eventPieces, eventText, written_append, written_hex_po, written_po, written_nil]
  | txDone a b n => cases n <;> simp [eventPieces, eventText, written_append, written_hex_po, written_po, written_nil]
  | noRx a b n m =>
    cases n <;> cases m <;> simp [eventPieces, eventText, written_append, written_hex_pe, written_pe, written_nil]
  | noSuchName n => simp [eventPieces, eventText, written_pe, written_nil]
  | rxErr a b => simp [eventPieces, eventText, written_append, written_hex_pe, written_pe, written_nil]
  | _ => rfl

theorem pieces_text (es : List Event) : written (es.flatMap eventPieces) = (stdoutOf es, stderrOf es) := by
  induction es with
  | nil => rfl
  | cons e es ih => rw [List.flatMap_cons, written_append, ih, eventPieces_text]; rfl

/-! ## Messages of the handler -/

/-- A line of the handler. -/
def isPid (l : CStr) : Bool := l.take 4 == c!"PID "

/-- The report with the lines of the handler left out. -/
def readWithout (s : CStr) : Option (List Note) := readLines ((linesOf s).filter (fun l => !isPid l))

theorem numeral_oneLine {s : CStr} {n : Nat} (h : Numeral 10 s n) : OneLine s := by
  induction h with
  | nil => simp [OneLine]
  | snoc s n c d _ hd _ ih =>
    refine oneLine_append.mpr ⟨ih, ?_⟩
    unfold OneLine
    cases hd <;> simp only [List.mem_singleton] <;> intro hc <;> have hx := congrArg BitVec.toNat hc <;>
      simp only [BitVec.toNat_ofNat] at hx <;> omega

theorem oneLine_dec (n : Nat) : OneLine (decStr n) := numeral_oneLine (decStr_numeral n)

/-- A text that consists of whole lines, none of which looks like a message of the handler. -/
def Whole (x : CStr) : Prop := ∀ t, (linesOf (x ++ t)).filter (fun l => !isPid l) = linesOf x ++ (linesOf t).filter (fun l => !isPid l) ∧
  linesOf (x ++ t) = linesOf x ++ linesOf t

theorem whole_nil : Whole [] := fun _ => ⟨rfl, rfl⟩

theorem whole_line {l : CStr} (h : OneLine l) (hp : isPid l = false) : Whole (l ++ nl) := by
  intro t
  have e : linesOf (l ++ nl) = [l] := by
    have := linesOf_line h []
    rw [List.append_nil] at this
    rw [this]
    rfl
  rw [List.append_assoc, linesOf_line h t, e]
  exact ⟨by simp [hp], rfl⟩

theorem whole_append {x y : CStr} (hx : Whole x) (hy : Whole y) : Whole (x ++ y) := by
  intro t
  rw [List.append_assoc, (hx (y ++ t)).1, (hx (y ++ t)).2, (hx y).2, (hy t).1, (hy t).2, List.append_assoc, List.append_assoc]
  exact ⟨rfl, rfl⟩

theorem isPid_head {c : Byte} {s : CStr} (h : c ≠ ch!"P") : isPid (c :: s) = false := by
  unfold isPid
  simp [h]

theorem isPid_hex (b : Buf) : isPid (printHexStr b) = false := by
  cases b with
  | nil => rfl
  | cons x b =>
    refine isPid_head ?_
    have : ∀ n < 16, hexChar n ≠ ch!"P" := by decide +kernel
    exact this _ (by omega)

theorem whole_event {e : Event} (he : ReadableEvent e) : Whole (eventText e).1 := by
  have hc : OneLine c!": " := by unfold OneLine; decide
  have hn : OneLine c!": name " := by unfold OneLine; decide
  have body : ∀ {c : Byte} {p a t : CStr}, c ≠ ch!"P" → OneLine (c :: p) → OneLine a → OneLine t →
      Whole ((c :: p) ++ pad16 a ++ t ++ nl) := by
    intro c p a t h1 h2 h3 h4
    exact whole_line (oneLine_append.mpr ⟨oneLine_append.mpr ⟨h2, oneLine_pad16 h3⟩, h4⟩) (isPid_head h1)
  have mask : ∀ (k : Note.Kind) (m : Buf), Whole (maskLabel k ++ printHexStr m ++ nl) := by
    intro k m
    refine whole_line (oneLine_append.mpr ⟨maskLabel_oneLine k, oneLine_hex m⟩) ?_
    cases k <;> exact isPid_head (by decide)
  have empty : Whole nl := whole_line (l := []) (by simp [OneLine]) rfl
  cases e with
  | named n b m =>
    have h1 : Whole (c!"NAME:  " ++ pad16 n ++ (c!": " ++ printHexStr b) ++ nl) :=
      body (by decide) (by unfold OneLine; decide) he.1 (oneLine_append.mpr ⟨hc, oneLine_hex b⟩)
    cases m with
    | none => simpa [eventText] using h1
    | some m => simpa [eventText, maskLabel] using whole_append h1 (mask .named m)
  | hex b m =>
    cases m with
    | none => exact whole_line (oneLine_hex b) (isPid_hex b)
    | some m =>
      have h1 : Whole (c!"DATA: " ++ printHexStr b ++ nl) :=
        whole_line (oneLine_append.mpr ⟨by unfold OneLine; decide, oneLine_hex b⟩) (isPid_head (by decide))
      simpa [eventText, maskLabel] using whole_append h1 (mask .data m)
  | rxOk a b n m =>
    cases n with
    | some n =>
      have h1 : Whole (c!"RX-OK  " ++ pad16 a ++ (c!": name " ++ n) ++ nl) :=
        body (by decide) (by unfold OneLine; decide) he.1.1 (oneLine_append.mpr ⟨hn, he.2 n rfl⟩)
      simpa [eventText] using h1
    | none =>
      have h1 : Whole (c!"RX-OK  " ++ pad16 a ++ (c!": " ++ printHexStr b) ++ nl) :=
        body (by decide) (by unfold OneLine; decide) he.1.1 (oneLine_append.mpr ⟨hc, oneLine_hex b⟩)
      cases m with
      | none => simpa [eventText] using h1
      | some m => simpa [eventText, maskLabel] using whole_append (whole_append h1 (mask .received m)) empty
  | txDone a b n =>
    cases n with
    | some n =>
      have h1 : Whole (c!"TX     " ++ pad16 a ++ (c!": name " ++ n) ++ nl) :=
        body (by decide) (by unfold OneLine; decide) he.1.1 (oneLine_append.mpr ⟨hn, he.2 n rfl⟩)
      simpa [eventText] using h1
    | none =>
      have h1 : Whole (c!"TX     " ++ pad16 a ++ (c!": " ++ printHexStr b) ++ nl) :=
        body (by decide) (by unfold OneLine; decide) he.1.1 (oneLine_append.mpr ⟨hc, oneLine_hex b⟩)
      simpa [eventText] using h1
  | noRx a b n m => cases n <;> cases m <;> exact whole_nil
  | noSuchName n => exact whole_nil
  | rxErr a b => exact whole_nil
  | pcap a b => exact whole_nil
  | opened a => exact whole_nil
  | wait t => exact whole_nil
  | send a b r => exact whole_nil

theorem child_line (x : ChildEnd) (t : CStr) : ∃ l, isPid l = true ∧ linesOf ((childPiece x).1 ++ t) = l :: linesOf t := by
  cases x with
  | exited p c =>
    refine ⟨c!"PID " ++ decStr p ++ c!" exited with code " ++ decStr c, by simp [isPid], ?_⟩
    have h : OneLine (c!"PID " ++ decStr p ++ c!" exited with code " ++ decStr c) :=
      oneLine_append.mpr ⟨oneLine_append.mpr ⟨oneLine_append.mpr ⟨by unfold OneLine; decide, oneLine_dec p⟩,
        by unfold OneLine; decide⟩, oneLine_dec c⟩
    rw [← linesOf_line h t]
    simp [childPiece, po]
  | killed p s =>
    refine ⟨c!"PID " ++ decStr p ++ c!" exited with signal " ++ decStr s, by simp [isPid], ?_⟩
    have h : OneLine (c!"PID " ++ decStr p ++ c!" exited with signal " ++ decStr s) :=
      oneLine_append.mpr ⟨oneLine_append.mpr ⟨oneLine_append.mpr ⟨by unfold OneLine; decide, oneLine_dec p⟩,
        by unfold OneLine; decide⟩, oneLine_dec s⟩
    rw [← linesOf_line h t]
    simp [childPiece, po]

/-- The handler prints nothing to standard error. -/
theorem printed_err {ps : List Piece} {ends : List ChildEnd} {out err : CStr} (h : Printed ps ends out err) :
    err = (written ps).2 := by
  induction h with
  | done => rfl
  | tool p _ ih => rw [ih]; rfl
  | handler x _ ih => rw [ih]; cases x <;> rfl

/-- Between whole messages the handler does no harm. -/
theorem printed_whole {es : List Event} (he : ∀ e ∈ es, ReadableEvent e) {ends : List ChildEnd} {out err : CStr}
    {ps : List Piece} (hps : ps = es.map eventText) (h : Printed ps ends out err) :
    (linesOf out).filter (fun l => !isPid l) = linesOf (stdoutOf es) := by
  induction h generalizing es with
  | done =>
    cases es with
    | nil => rfl
    | cons e es => simp at hps
  | tool p _ ih =>
    cases es with
    | nil => simp at hps
    | cons e es =>
      simp only [List.map_cons, List.cons.injEq] at hps
      obtain ⟨rfl, hps⟩ := hps
      have hw := whole_event (he e (by simp))
      have e1 : stdoutOf (e :: es) = (eventText e).1 ++ stdoutOf es := rfl
      rw [(hw _).1, ih (fun x hx => he x (List.mem_cons_of_mem _ hx)) hps, e1, (hw _).2]
  | handler x _ ih =>
    obtain ⟨l, h1, h2⟩ := child_line x _
    rw [h2, List.filter_cons, if_neg (by simp [h1]), ih he hps]

/-! ## C127 -/

/-- **C127**: if captures end during a run, the two outputs can still be read: without the lines about these ends, they say
exactly what happened. -/
def C127_statement : Prop :=
  ∀ (w : World) (ms : Int) (caps argv : List CStr) (r : RunRes) (ends : List ChildEnd) (out err : CStr),
    argcCmds w ms caps argv = .ok r →
    (∀ cmds, parseCmds w.env.cfg.hasPcap argv = .ok (some cmds) → ∀ c ∈ cmds, ReadableCmd c) →
    Printed (r.events.flatMap eventPieces) ends out err →
    readWithout out = some (r.events.filterMap outNote) ∧ readReport err = some (r.events.filterMap errNote)

/-- **C127, standard error**: the messages about errors can be read whenever captures end. -/
theorem C127_errors_partial (w : World) (ms : Int) (caps argv : List CStr) (r : RunRes) (ends : List ChildEnd) (out err : CStr)
    (h : argcCmds w ms caps argv = .ok r)
    (hr : ∀ cmds, parseCmds w.env.cfg.hasPcap argv = .ok (some cmds) → ∀ c ∈ cmds, ReadableCmd c)
    (hp : Printed (r.events.flatMap eventPieces) ends out err) :
    readReport err = some (r.events.filterMap errNote) := by
  rw [printed_err hp, pieces_text]
  exact (C77_report h hr).2.1

/-- **C127, standard output**: the other messages can be read if captures end only between messages, for example while
the tool waits. Missing: a capture that ends while a message is printed (false, see `C127_false`). -/
theorem C127_messages_partial (w : World) (ms : Int) (caps argv : List CStr) (r : RunRes) (ends : List ChildEnd) (out err : CStr)
    (h : argcCmds w ms caps argv = .ok r)
    (hr : ∀ cmds, parseCmds w.env.cfg.hasPcap argv = .ok (some cmds) → ∀ c ∈ cmds, ReadableCmd c)
    (hp : Printed (r.events.map eventText) ends out err) :
    readWithout out = some (r.events.filterMap outNote) := by
  unfold readWithout
  rw [printed_whole (argcCmds_readable h hr) rfl hp]
  exact (C77_report h hr).1

/-- C127: this is a possible output of the tool, as the calls for each message make up its text. -/
theorem C127_possible {es : List Event} {ends : List ChildEnd} {out err : CStr}
    (h : Printed (es.map eventText) ends out err) : Printed (es.flatMap eventPieces) ends out err := by
  have all : ∀ (ps qs : List Piece) {ends out err}, Printed qs ends out err →
      Printed (ps ++ qs) ends ((written ps).1 ++ out) ((written ps).2 ++ err) := by
    intro ps
    induction ps with
    | nil => intro qs ends out err h; exact h
    | cons p ps ih =>
      intro qs ends out err h
      have := Printed.tool p (ih qs h)
      simpa [written] using this
  generalize hps : es.map eventText = ps at h
  induction h generalizing es with
  | done =>
    cases es with
    | nil => exact .done
    | cons e es => simp at hps
  | tool p _ ih =>
    cases es with
    | nil => simp at hps
    | cons e es =>
      simp only [List.map_cons, List.cons.injEq] at hps
      obtain ⟨rfl, hps⟩ := hps
      have := all (eventPieces e) _ (ih hps)
      rwa [eventPieces_text] at this
  | handler x _ ih => exact .handler x (ih hps)

/-- A capture that ends between two calls. -/
theorem printed_insert (ps qs : List Piece) (x : ChildEnd) :
    Printed (ps ++ qs) [x] ((written ps).1 ++ ((childPiece x).1 ++ (written qs).1))
      ((written ps).2 ++ ((childPiece x).2 ++ (written qs).2)) := by
  induction ps with
  | nil =>
    refine .handler x ?_
    induction qs with
    | nil => exact .done
    | cons q qs ih => simpa [written] using Printed.tool q ih
  | cons p ps ih => simpa [written] using Printed.tool p ih

/-- A capture that ends before all calls. -/
theorem printed_front (qs : List Piece) (x : ChildEnd) :
    Printed qs [x] ((childPiece x).1 ++ (written qs).1) (written qs).2 := by
  have := printed_insert [] qs x
  cases x <;> simpa [written_nil, childPiece, po] using this

/-- The frame `eth`. -/
def plainEth : Buf := List.replicate 6 0xff#8 ++ [0#8, 0#8, 0#8, 0#8, 0#8, 1#8, 0xaa#8, 0xaa#8] ++ zeros 46

/-- A frame that is expected. -/
def okArgs : List CStr := [c!"name", c!"f", c!"eth", c!"rx", c!"e", c!"name", c!"f"]

/-- A run in which it arrives. -/
def okRun : RunRes := toolResult (world (listening [plainEth])) okArgs

/-- The beginning of the report: the line about the name and the first part of the line about the received frame. -/
def firstPieces : List Piece := (okRun.events.flatMap eventPieces).take 63

/-- The rest of the report. -/
def lastPieces : List Piece := (okRun.events.flatMap eventPieces).drop 63

/-- The conditions can be met: a capture that ends before everything else. -/
theorem C127_example : argcCmds (world (listening [plainEth])) 100 [] okArgs = .ok okRun ∧
    Printed (okRun.events.map eventText) [.exited 7 0]
      ((childPiece (.exited 7 0)).1 ++ (written (okRun.events.map eventText)).1) (written (okRun.events.map eventText)).2 ∧
    (readWithout ((childPiece (.exited 7 0)).1 ++ (written (okRun.events.map eventText)).1)).map (·.map (·.kind)) =
      some [.named, .received] :=
  ⟨toolResult_ok (by decide +kernel), printed_front _ _,
    by decide +kernel⟩

/-- **C127 does not hold**: a capture ends when the first part of the line about the received frame has been printed. -/
theorem C127_false : ¬ C127_statement := by
  intro hs
  have h := hs (world (listening [plainEth])) 100 [] okArgs okRun [.exited 7 0] _ _ (toolResult_ok (by decide +kernel)) ?_
    (by
      have := printed_insert firstPieces lastPieces (.exited 7 0)
      unfold firstPieces lastPieces at this
      rw [List.take_append_drop] at this
      exact this)
  · revert h
    decide +kernel
  · intro cmds h c hc
    have h1 : ∀ c ∈ ((parseCmds true okArgs).get?.getD none).getD [], ∀ a, (c.arg0 = some a ∨ c.name = some a) → a ∈ [c!"f", c!"e"] := by
      have h2 : ∀ c ∈ ((parseCmds true okArgs).get?.getD none).getD [], ∀ a ∈ c.arg0.toList ++ c.name.toList, a ∈ [c!"f", c!"e"] := by
        decide +kernel
      intro c hc a ha
      refine h2 c hc a ?_
      rcases ha with ha | ha <;> simp [ha]
    have hp : parseCmds true okArgs = .ok (some cmds) := h
    rw [hp] at h1
    have h3 : ∀ a ∈ [c!"f", c!"e"], Readable a := by
      unfold Readable OneLine
      decide +kernel
    exact ⟨fun a _ ha => h3 a (h1 c hc a (.inl ha)), fun n hn => h3 n (h1 c hc n (.inr hn))⟩

end Ef.Props
