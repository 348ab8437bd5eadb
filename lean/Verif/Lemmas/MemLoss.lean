import Verif.Lemmas.MemCmds
import Verif.Lemmas.InstParse
import Verif.Spec.Memory

/-! # Where blocks are lost -/

namespace Ef

open Spec

/-- Nothing is lost. -/
def MQuiet {α : Type} (m : Mem α) : Prop := ∀ hp, (m hp).2.lost = hp.lost

theorem MQuiet.pure {α : Type} (a : α) : MQuiet (Pure.pure a) := fun _ => rfl

theorem MQuiet.lift {α : Type} (o : Out α) : MQuiet (lift o) := fun _ => rfl

theorem MQuiet.alloc : MQuiet alloc := fun _ => rfl

theorem MQuiet.free (p : Ptr) : MQuiet (free p) := by
  intro hp
  show (if _ then _ else _ : Heap).lost = _
  split <;> rfl

theorem MQuiet.use (p : Ptr) : MQuiet (use p) := by
  intro hp
  show (if _ then _ else _ : Heap).lost = _
  split <;> rfl

theorem MQuiet.bind {α β : Type} {m : Mem α} {k : α → Mem β} (h1 : MQuiet m) (h2 : ∀ a, MQuiet (k a)) :
    MQuiet (m >>= k) := by
  intro hp
  show (Mem.bind m k hp).2.lost = _
  unfold Mem.bind
  have := h1 hp
  generalize m hp = r at this
  obtain ⟨v, hp'⟩ := r
  cases v with
  | ok a => rw [← this]; exact h2 a hp'
  | ub u => exact this
  | abort => exact this
  | exit c => exact this

/-- One step of `q_all`, extended below. -/
syntax "q_one" : tactic
macro_rules | `(tactic| q_one) => `(tactic| with_reducible exact MQuiet.pure _)
macro_rules | `(tactic| q_one) => `(tactic| with_reducible exact MQuiet.lift _)
macro_rules | `(tactic| q_one) => `(tactic| with_reducible exact MQuiet.free _)
macro_rules | `(tactic| q_one) => `(tactic| with_reducible exact MQuiet.use _)
macro_rules | `(tactic| q_one) => `(tactic| with_reducible exact MQuiet.alloc)

/-- Proves `MQuiet` along the structure of the program. -/
macro "q_all" : tactic => `(tactic| repeat' (first | q_one | (with_reducible assumption) | with_reducible refine MQuiet.bind ?_ (fun _ => ?_) | split))

theorem q_useAll (ps : List Ptr) : MQuiet (useAll ps) := by
  induction ps with
  | nil => exact MQuiet.pure _
  | cons p ps ih => unfold useAll; q_all
macro_rules | `(tactic| q_one) => `(tactic| with_reducible exact q_useAll _)

theorem q_freeAll (ps : List Ptr) : MQuiet (freeAll ps) := by
  induction ps with
  | nil => exact MQuiet.pure _
  | cons p ps ih => unfold freeAll; q_all
macro_rules | `(tactic| q_one) => `(tactic| with_reducible exact q_freeAll _)

theorem q_balloc (b : Buf) : MQuiet (ballocM b) := by unfold ballocM; q_all
macro_rules | `(tactic| q_one) => `(tactic| with_reducible exact q_balloc _)

theorem q_newBuf (b : Option Buf) : MQuiet (newBuf b) := by cases b <;> (unfold newBuf; q_all)
macro_rules | `(tactic| q_one) => `(tactic| with_reducible exact q_newBuf _)

theorem q_bfree (b : Option PBuf) : MQuiet (bfreeM b) := by cases b <;> (unfold bfreeM; q_all)
macro_rules | `(tactic| q_one) => `(tactic| with_reducible exact q_bfree _)

theorem q_bclone (b : Option PBuf) : MQuiet (bcloneM b) := by cases b <;> (unfold bcloneM; q_all)
macro_rules | `(tactic| q_one) => `(tactic| with_reducible exact q_bclone _)

theorem q_getField (h : PHdr) (n : CStr) : MQuiet (getFieldM h n) := by unfold getFieldM; q_all
macro_rules | `(tactic| q_one) => `(tactic| with_reducible exact q_getField _ _)

theorem q_setVal (h : PHdr) (n : CStr) (v : Option PBuf) : MQuiet (setValM h n v) := by unfold setValM; q_all
macro_rules | `(tactic| q_one) => `(tactic| with_reducible exact q_setVal _ _ _)

theorem q_fieldsFree (fs : List PField) : MQuiet (fieldsFreeM fs) := by
  induction fs with
  | nil => exact MQuiet.pure _
  | cons f fs ih => unfold fieldsFreeM; q_all
macro_rules | `(tactic| q_one) => `(tactic| with_reducible exact q_fieldsFree _)

theorem q_hdrFree (h : PHdr) : MQuiet (hdrFreeM h) := by unfold hdrFreeM; q_all
macro_rules | `(tactic| q_one) => `(tactic| with_reducible exact q_hdrFree _)

theorem q_hdrsFree (hs : List PHdr) : MQuiet (hdrsFreeM hs) := by
  induction hs with
  | nil => exact MQuiet.pure _
  | cons f fs ih => unfold hdrsFreeM; q_all
macro_rules | `(tactic| q_one) => `(tactic| with_reducible exact q_hdrsFree _)

theorem q_frameFree (f : PFrame) : MQuiet (frameFreeM f) := by unfold frameFreeM; q_all
macro_rules | `(tactic| q_one) => `(tactic| with_reducible exact q_frameFree _)

theorem q_fieldsCopy (fs : List PField) : MQuiet (fieldsCopyM fs) := by
  induction fs with
  | nil => exact MQuiet.pure _
  | cons f fs ih => unfold fieldsCopyM; q_all
macro_rules | `(tactic| q_one) => `(tactic| with_reducible exact q_fieldsCopy _)

theorem q_hdrClone (h : PHdr) : MQuiet (hdrCloneM h) := by unfold hdrCloneM; q_all
macro_rules | `(tactic| q_one) => `(tactic| with_reducible exact q_hdrClone _)

theorem q_hdrsClone (hs : List PHdr) : MQuiet (hdrsCloneM hs) := by
  induction hs with
  | nil => exact MQuiet.pure _
  | cons f fs ih => unfold hdrsCloneM; q_all
macro_rules | `(tactic| q_one) => `(tactic| with_reducible exact q_hdrsClone _)

theorem q_frameCloneOpt (f : Option PFrame) : MQuiet (frameCloneOptM f) := by
  cases f <;> (unfold frameCloneOptM; try unfold frameCloneM; q_all)
macro_rules | `(tactic| q_one) => `(tactic| with_reducible exact q_frameCloneOpt _)

theorem q_copyFields (mask : Bool) (off : Nat) (fs : List PField) (b : PBuf) : MQuiet (copyFieldsM mask off fs b) := by
  induction fs generalizing b with
  | nil => exact MQuiet.pure _
  | cons f fs ih =>
    unfold copyFieldsM
    repeat' (first | q_one | (with_reducible exact ih _) | with_reducible refine MQuiet.bind ?_ (fun _ => ?_) | split)
macro_rules | `(tactic| q_one) => `(tactic| with_reducible exact q_copyFields _ _ _ _)

theorem q_copyHdr (mask : Bool) (h : PHdr) (off : Nat) (b : PBuf) : MQuiet (copyHdrM mask h off b) := by
  unfold copyHdrM; q_all
macro_rules | `(tactic| q_one) => `(tactic| with_reducible exact q_copyHdr _ _ _ _)

theorem q_copyHdrs (mask : Bool) (hs : List PHdr) (off : Nat) (b : PBuf) : MQuiet (copyHdrsM mask hs off b) := by
  induction hs generalizing off b with
  | nil => exact MQuiet.pure _
  | cons h hs ih =>
    unfold copyHdrsM
    repeat' (first | q_one | (with_reducible exact ih _ _) | with_reducible refine MQuiet.bind ?_ (fun _ => ?_) | split)
macro_rules | `(tactic| q_one) => `(tactic| with_reducible exact q_copyHdrs _ _ _ _)

theorem q_parseBytes (s : CStr) (n : Nat) : MQuiet (parseBytesM s n) := by unfold parseBytesM; q_all
macro_rules | `(tactic| q_one) => `(tactic| with_reducible exact q_parseBytes _ _)

theorem q_hex (s : CStr) (n : Nat) : MQuiet (parseVarBytesHexM s n) := by unfold parseVarBytesHexM; q_all
macro_rules | `(tactic| q_one) => `(tactic| with_reducible exact q_hex _ _)

theorem q_uint8 (s : CStr) : MQuiet (parseUint8M s) := by unfold parseUint8M; q_all
macro_rules | `(tactic| q_one) => `(tactic| with_reducible exact q_uint8 _)

theorem q_uint32 (s : CStr) : MQuiet (parseUint32M s) := by unfold parseUint32M; q_all
macro_rules | `(tactic| q_one) => `(tactic| with_reducible exact q_uint32 _)

theorem q_repeat (a b : CStr) : MQuiet (parseVarBytesRepeatM a b) := by unfold parseVarBytesRepeatM; q_all
macro_rules | `(tactic| q_one) => `(tactic| with_reducible exact q_repeat _ _)

theorem q_pattern (a b : CStr) : MQuiet (parseVarBytesPatternM a b) := by unfold parseVarBytesPatternM; q_all
macro_rules | `(tactic| q_one) => `(tactic| with_reducible exact q_pattern _ _)

theorem q_varBytes1 (argv : List CStr) : MQuiet (parseVarBytes1M argv) := by unfold parseVarBytes1M; q_all
macro_rules | `(tactic| q_one) => `(tactic| with_reducible exact q_varBytes1 _)

theorem q_join (a : Option PBuf) (b : PBuf) : MQuiet (joinM a b) := by unfold joinM; q_all
macro_rules | `(tactic| q_one) => `(tactic| with_reducible exact q_join _ _)

theorem q_varBytesLoop (fuel : Nat) (argv : List CStr) (i : Nat) (acc : Option PBuf) :
    MQuiet (parseVarBytesLoopM fuel argv i acc) := by
  induction fuel generalizing argv i acc with
  | zero => exact MQuiet.pure _
  | succ fuel ih =>
    unfold parseVarBytesLoopM
    repeat' (first | q_one | (with_reducible exact ih _ _ _) | with_reducible refine MQuiet.bind ?_ (fun _ => ?_) | split)
macro_rules | `(tactic| q_one) => `(tactic| with_reducible exact q_varBytesLoop _ _ _ _)

theorem q_varBytes (argv : List CStr) : MQuiet (parseVarBytesM argv) := by unfold parseVarBytesM; q_all
macro_rules | `(tactic| q_one) => `(tactic| with_reducible exact q_varBytes _)

theorem q_multi (h : PHdr) (n : CStr) (argv : List CStr) : MQuiet (fieldParseMultiVarByteM h n argv) := by
  unfold fieldParseMultiVarByteM; q_all
macro_rules | `(tactic| q_one) => `(tactic| with_reducible exact q_multi _ _ _)

theorem q_runMulti (h : PHdr) (f : PField) (argv : List CStr) : MQuiet (runMultiParserM h f argv) := by
  unfold runMultiParserM coapParseOptionValueM coapParseParmsM; q_all
macro_rules | `(tactic| q_one) => `(tactic| with_reducible exact q_runMulti _ _ _)

theorem q_payload (h : PHdr) (argv : List CStr) : MQuiet (payloadParserM h argv) := by unfold payloadParserM; q_all
macro_rules | `(tactic| q_one) => `(tactic| with_reducible exact q_payload _ _)

theorem q_padding (argv : List CStr) : MQuiet (paddingParserM argv) := by unfold paddingParserM; q_all
macro_rules | `(tactic| q_one) => `(tactic| with_reducible exact q_padding _)

/-! ## Default values -/

theorem q_fillField (h : PHdr) (n t : CStr) (k : Nat) : MQuiet (fillFieldM h n t k) := by unfold fillFieldM; q_all
macro_rules | `(tactic| q_one) => `(tactic| with_reducible exact q_fillField _ _ _ _)

theorem q_fillFieldOpt (h : PHdr) (n t : CStr) (k : Nat) : MQuiet (fillFieldOptM h n t k) := by
  unfold fillFieldOptM; q_all
macro_rules | `(tactic| q_one) => `(tactic| with_reducible exact q_fillFieldOpt _ _ _ _)

theorem q_fillPseudo (a b : PHdr) (p : CStr) (n : Nat) : MQuiet (fillPseudoM a b p n) := by unfold fillPseudoM; q_all
macro_rules | `(tactic| q_one) => `(tactic| with_reducible exact q_fillPseudo _ _ _ _)

theorem q_anyGiven (h : PHdr) (ns : List CStr) : MQuiet (anyGivenM h ns) := by
  induction ns with
  | nil => exact MQuiet.pure _
  | cons n ns ih => unfold anyGivenM; q_all
macro_rules | `(tactic| q_one) => `(tactic| with_reducible exact q_anyGiven _ _)

theorem q_anyVal (h : PHdr) (ns : List CStr) : MQuiet (anyValM h ns) := by
  induction ns with
  | nil => exact MQuiet.pure _
  | cons n ns ih => unfold anyValM; q_all
macro_rules | `(tactic| q_one) => `(tactic| with_reducible exact q_anyVal _ _)

theorem q_adjustQuery (h : PHdr) : MQuiet (adjustQueryM h) := by unfold adjustQueryM; q_all
macro_rules | `(tactic| q_one) => `(tactic| with_reducible exact q_adjustQuery _)

theorem q_adjustReportIgmp (h : PHdr) : MQuiet (adjustReportIgmpM h) := by unfold adjustReportIgmpM; q_all
macro_rules | `(tactic| q_one) => `(tactic| with_reducible exact q_adjustReportIgmp _)

theorem q_adjustReportMld (h : PHdr) : MQuiet (adjustReportMldM h) := by unfold adjustReportMldM; q_all
macro_rules | `(tactic| q_one) => `(tactic| with_reducible exact q_adjustReportMld _)

theorem q_mldAddr (h : PHdr) (n : CStr) : MQuiet (mldAddrM h n) := by unfold mldAddrM; q_all
macro_rules | `(tactic| q_one) => `(tactic| with_reducible exact q_mldAddr _ _)

theorem q_fillEtherType (h : PHdr) (a : List PHdr) : MQuiet (fillEtherTypeM h a) := by
  unfold fillEtherTypeM; q_all
macro_rules | `(tactic| q_one) => `(tactic| with_reducible exact q_fillEtherType _ _)

theorem q_fillIpv4Chksum (h : PHdr) : MQuiet (fillIpv4ChksumM h) := by
  unfold fillIpv4ChksumM; q_all
macro_rules | `(tactic| q_one) => `(tactic| with_reducible exact q_fillIpv4Chksum _)

theorem q_fillIpv4 (h : PHdr) (a : List PHdr) : MQuiet (fillIpv4M h a) := by
  unfold fillIpv4M; q_all
macro_rules | `(tactic| q_one) => `(tactic| with_reducible exact q_fillIpv4 _ _)

theorem q_fillIpv6 (h : PHdr) (a : List PHdr) : MQuiet (fillIpv6M h a) := by
  unfold fillIpv6M; q_all
macro_rules | `(tactic| q_one) => `(tactic| with_reducible exact q_fillIpv6 _ _)

theorem q_fillUdpChksum (t : PTmpls) (b : List PHdr) (h : PHdr) (a : List PHdr) : MQuiet (fillUdpChksumM t b h a) := by
  unfold fillUdpChksumM; q_all
macro_rules | `(tactic| q_one) => `(tactic| with_reducible exact q_fillUdpChksum _ _ _ _)

theorem q_fillUdpTcp (t : PTmpls) (b : List PHdr) (h : PHdr) (a : List PHdr) : MQuiet (fillUdpTcpM t b h a) := by
  unfold fillUdpTcpM; q_all
macro_rules | `(tactic| q_one) => `(tactic| with_reducible exact q_fillUdpTcp _ _ _ _)

theorem q_fillIcmp (t : PTmpls) (b : List PHdr) (h : PHdr) (a : List PHdr) : MQuiet (fillIcmpM t b h a) := by
  unfold fillIcmpM; q_all
macro_rules | `(tactic| q_one) => `(tactic| with_reducible exact q_fillIcmp _ _ _ _)

theorem q_fillIgmpChksum (h : PHdr) (a : List PHdr) : MQuiet (fillIgmpChksumM h a) := by
  unfold fillIgmpChksumM; q_all
macro_rules | `(tactic| q_one) => `(tactic| with_reducible exact q_fillIgmpChksum _ _)

theorem q_fillIgmp (h : PHdr) (a : List PHdr) : MQuiet (fillIgmpM h a) := by
  unfold fillIgmpM; q_all
macro_rules | `(tactic| q_one) => `(tactic| with_reducible exact q_fillIgmp _ _)

theorem q_fillMldChksum (b : List PHdr) (h : PHdr) (a : List PHdr) : MQuiet (fillMldChksumM b h a) := by
  unfold fillMldChksumM; q_all
macro_rules | `(tactic| q_one) => `(tactic| with_reducible exact q_fillMldChksum _ _ _)

theorem q_fillMld (b : List PHdr) (h : PHdr) (a : List PHdr) : MQuiet (fillMldM b h a) := by
  unfold fillMldM; q_all
macro_rules | `(tactic| q_one) => `(tactic| with_reducible exact q_fillMld _ _ _)

theorem q_fillSv (h : PHdr) : MQuiet (fillSvM h) := by
  unfold fillSvM; q_all
macro_rules | `(tactic| q_one) => `(tactic| with_reducible exact q_fillSv _)

theorem q_fillCoap (h : PHdr) : MQuiet (fillCoapM h) := by
  unfold fillCoapM; q_all
macro_rules | `(tactic| q_one) => `(tactic| with_reducible exact q_fillCoap _)

theorem q_fillCoapOpt (h : PHdr) : MQuiet (fillCoapOptM h) := by
  unfold fillCoapOptM; q_all
macro_rules | `(tactic| q_one) => `(tactic| with_reducible exact q_fillCoapOpt _)

theorem q_fillHdr (t : PTmpls) (below : List PHdr) (h : PHdr) (above : List PHdr) :
    MQuiet (fillHdrM t below h above) := by
  unfold fillHdrM; q_all
macro_rules | `(tactic| q_one) => `(tactic| with_reducible exact q_fillHdr _ _ _ _)

theorem q_fillStack (t : PTmpls) (below hs : List PHdr) : MQuiet (fillStackM t below hs) := by
  induction hs generalizing below with
  | nil => exact MQuiet.pure _
  | cons h hs ih =>
    unfold fillStackM
    repeat' (first | q_one | (with_reducible exact ih _) | with_reducible refine MQuiet.bind ?_ (fun _ => ?_) | split)
macro_rules | `(tactic| q_one) => `(tactic| with_reducible exact q_fillStack _ _ _)

theorem q_frameToBuf (t : PTmpls) (f : PFrame) : MQuiet (frameToBufM t f) := by unfold frameToBufM; q_all
macro_rules | `(tactic| q_one) => `(tactic| with_reducible exact q_frameToBuf _ _)

theorem q_frameMaskToBuf (f : PFrame) : MQuiet (frameMaskToBufM f) := by unfold frameMaskToBufM; q_all
macro_rules | `(tactic| q_one) => `(tactic| with_reducible exact q_frameMaskToBuf _)

theorem q_cmdDestruct (c : PCmd) : MQuiet (cmdDestructM c) := by unfold cmdDestructM; q_all
macro_rules | `(tactic| q_one) => `(tactic| with_reducible exact q_cmdDestruct _)

theorem q_cmdsDestruct (cs : List PCmd) : MQuiet (cmdsDestructM cs) := by
  induction cs with
  | nil => exact MQuiet.pure _
  | cons c cs ih => unfold cmdsDestructM; q_all
macro_rules | `(tactic| q_one) => `(tactic| with_reducible exact q_cmdsDestruct _)

theorem q_pairNames (all cs : List PCmd) : MQuiet (pairNamesM all cs) := by
  induction cs with
  | nil => exact MQuiet.pure _
  | cons c cs ih => unfold pairNamesM; q_all
macro_rules | `(tactic| q_one) => `(tactic| with_reducible exact q_pairNames _ _)

theorem q_execCmds (env : Env) (cs : List PCmd) : MQuiet (execCmdsM env cs) := by unfold execCmdsM; q_all
macro_rules | `(tactic| q_one) => `(tactic| with_reducible exact q_execCmds _ _)

theorem q_captureAdd (s : CStr) : MQuiet (captureAddM s) := by unfold captureAddM optTextM; q_all
macro_rules | `(tactic| q_one) => `(tactic| with_reducible exact q_captureAdd _)

theorem q_capturesFree (cs : List PCapture) : MQuiet (capturesFreeM cs) := by
  induction cs with
  | nil => exact MQuiet.pure _
  | cons c cs ih => unfold capturesFreeM; q_all
macro_rules | `(tactic| q_one) => `(tactic| with_reducible exact q_capturesFree _)

theorem q_initFields (fs : List Field) : MQuiet (initFieldsM fs) := by
  induction fs with
  | nil => exact MQuiet.pure _
  | cons c cs ih => unfold initFieldsM; q_all
macro_rules | `(tactic| q_one) => `(tactic| with_reducible exact q_initFields _)

theorem q_initHdrs (hs : List Hdr) : MQuiet (initHdrsM hs) := by
  induction hs with
  | nil => exact MQuiet.pure _
  | cons c cs ih => unfold initHdrsM initHdrM; q_all
macro_rules | `(tactic| q_one) => `(tactic| with_reducible exact q_initHdrs _)

theorem q_init : MQuiet initM := by unfold initM initHdrM; q_all


/-! ## Losses while the words are read -/

/-- What is lost satisfies `K`, and the result satisfies `P`. -/
def MKeeps {α : Type} (K : Loss → Prop) (P : α → Prop) (m : Mem α) : Prop :=
  ∀ hp, (∃ new, (m hp).2.lost = new ++ hp.lost ∧ ∀ x ∈ new, K x.2) ∧ ∀ a, (m hp).1 = .ok a → P a

theorem MKeeps.mono {α : Type} {K : Loss → Prop} {P Q : α → Prop} {m : Mem α} (h : MKeeps K P m)
    (hq : ∀ a, P a → Q a) : MKeeps K Q m := fun hp => ⟨(h hp).1, fun a ha => hq a ((h hp).2 a ha)⟩

theorem MQuiet.mkeeps {α : Type} {K : Loss → Prop} {m : Mem α} (h : MQuiet m) : MKeeps K (fun _ => True) m :=
  fun hp => ⟨⟨[], by simp [h hp], by simp⟩, fun _ _ => trivial⟩

theorem MKeeps.pure {α : Type} {K : Loss → Prop} {P : α → Prop} {a : α} (h : P a) : MKeeps K P (Pure.pure a) :=
  fun hp => ⟨⟨[], rfl, by simp⟩, fun b hb => by
    have : Out.ok a = Out.ok b := hb
    cases this
    exact h⟩

theorem MKeeps.lift {α : Type} {K : Loss → Prop} {P : α → Prop} {o : Out α} (h : ∀ a, o = .ok a → P a) :
    MKeeps K P (lift o) := fun _ => ⟨⟨[], rfl, by simp⟩, h⟩

theorem MKeeps.lose {K : Loss → Prop} {w : Loss} (p : Ptr) (h : K w) : MKeeps K (fun _ => True) (lose w p) :=
  fun _ => ⟨⟨[(p, w)], rfl, by simpa using h⟩, fun _ _ => trivial⟩

theorem MKeeps.bind {α β : Type} {K : Loss → Prop} {P : α → Prop} {Q : β → Prop} {m : Mem α} {k : α → Mem β}
    (h1 : MKeeps K P m) (h2 : ∀ a, P a → MKeeps K Q (k a)) : MKeeps K Q (m >>= k) := by
  intro hp
  show (∃ new, (Mem.bind m k hp).2.lost = new ++ hp.lost ∧ _) ∧ ∀ a, (Mem.bind m k hp).1 = .ok a → Q a
  unfold Mem.bind
  obtain ⟨⟨n1, e1, k1⟩, p1⟩ := h1 hp
  generalize m hp = r at e1 p1
  obtain ⟨v, hp'⟩ := r
  cases v with
  | ok a =>
    obtain ⟨⟨n2, e2, k2⟩, p2⟩ := h2 a (p1 a rfl) hp'
    refine ⟨⟨n2 ++ n1, ?_, ?_⟩, p2⟩
    · simp only at e1 ⊢
      rw [e2, e1, List.append_assoc]
    · intro x hx
      rcases List.mem_append.1 hx with hx | hx
      · exact k2 x hx
      · exact k1 x hx
  | ub u => exact ⟨⟨n1, e1, k1⟩, fun a ha => by cases ha⟩
  | abort => exact ⟨⟨n1, e1, k1⟩, fun a ha => by cases ha⟩
  | exit c => exact ⟨⟨n1, e1, k1⟩, fun a ha => by cases ha⟩

theorem MQuiet.then {α β : Type} {K : Loss → Prop} {Q : β → Prop} {m : Mem α} {k : α → Mem β}
    (h1 : MQuiet m) (h2 : ∀ a, MKeeps K Q (k a)) : MKeeps K Q (m >>= k) :=
  h1.mkeeps.bind (fun a _ => h2 a)

theorem MKeeps.loseAll {K : Loss → Prop} {w : Loss} (ps : List Ptr) (h : K w) :
    MKeeps K (fun _ => True) (loseAll w ps) := by
  induction ps with
  | nil => exact MKeeps.pure trivial
  | cons p ps ih => exact (MKeeps.lose p h).bind (fun _ _ => ih)

theorem Spec.ShortHex.drop {argv : List CStr} (h : ShortHex argv) (n : Nat) : ShortHex (argv.drop n) := by
  intro pre v post
  constructor <;> intro e
  · exact (h (argv.take n ++ pre) v post).1 (by rw [List.append_assoc, ← e, List.take_append_drop])
  · exact (h (argv.take n ++ pre) v post).2 (by rw [List.append_assoc, ← e, List.take_append_drop])

theorem Spec.ShortHex.tail {w : CStr} {rest : List CStr} (h : ShortHex (w :: rest)) : ShortHex rest := h.drop 1

theorem parseVarBytesHex_half {s : CStr} {n : Nat} {b : Buf} (h : parseVarBytesHex s n = .ok (some b)) :
    b.length ≤ max n (s.length / 2) ∧ 0 < b.length := by
  by_cases ht : ∃ bs, bs ≠ [] ∧ HexText s bs
  · obtain ⟨bs, hne, ht⟩ := ht
    rw [parseVarBytesHex_text ht hne] at h
    simp only [Out.ok.injEq, Option.some.injEq] at h
    have := hexText_length ht
    have h0 : bs.length ≠ 0 := by simpa using hne
    rw [← h, List.length_append]
    simp only [zeros, List.length_replicate]
    omega
  · rw [parseVarBytesHex_not_text ht] at h
    simp at h

theorem mk_hex {K : Loss → Prop} (s : CStr) (n : Nat) :
    MKeeps K (fun b => ∀ x, b = some x → x.data.length ≤ max n (s.length / 2) ∧ 0 < x.data.length)
      (parseVarBytesHexM s n) := by
  unfold parseVarBytesHexM
  refine (MKeeps.lift (P := fun b => ∀ x, b = some x → x.length ≤ max n (s.length / 2) ∧ 0 < x.length)
    (fun a ha x hx => parseVarBytesHex_half (by rw [ha, hx]))).bind (fun a ha => ?_)
  cases a with
  | none => exact MKeeps.pure (by simp)
  | some b =>
    unfold newBuf ballocM
    refine MKeeps.bind (P := fun x => x.data = b) (MQuiet.alloc.then fun p => MKeeps.pure rfl) fun x hx => ?_
    refine MKeeps.pure fun y hy => ?_
    cases hy
    rw [hx]
    exact ha b rfl

theorem mk_fieldHex {K : Loss → Prop} (s : CStr) (n : Nat) (h : K .refused ∨ s.length / 2 ≤ n) :
    MKeeps K (fun _ => True) (parseFieldHexM s n) := by
  unfold parseFieldHexM
  refine (q_balloc _).then fun r => (mk_hex s 0).bind fun b hb => ?_
  cases b with
  | none => exact MQuiet.mkeeps (by q_all)
  | some b =>
    dsimp only
    split
    · rcases h with h | h
      · exact (MKeeps.lose _ h).bind fun _ _ => (MKeeps.lose _ h).bind fun _ _ => MKeeps.pure trivial
      · have := (hb b rfl).1; omega
    · exact MQuiet.mkeeps (by q_all)

/-! ### The parsers belong to the names -/

/-- Headers without `meg_id`. -/
def KindA (f : PField) : Prop :=
  f.base.parser ≠ .fieldHex ∧ (f.base.parser = .coapToken → f.base.name = c!"token")

/-- Headers with `meg_id`. -/
def KindB (f : PField) : Prop :=
  f.base.multi = .none ∧ f.base.parser ≠ .coapToken ∧ f.base.parser ≠ .profinetData ∧
    (f.base.parser = .fieldHex → f.base.name = c!"meg_id" ∧ f.base.width = 384)

theorem all_updFirst {K : PField → Prop} {p : PField → Bool} {g : PField → PField} {fs : List PField}
    (h : ∀ f ∈ fs, K f) (hg : ∀ f, K f → K (g f)) : ∀ f ∈ updFirst p g fs, K f := by
  induction fs with
  | nil => simp [updFirst]
  | cons f fs ih =>
    intro x hx
    unfold updFirst at hx
    split at hx
    · rcases List.mem_cons.1 hx with rfl | hx
      · exact hg f (h f (by simp))
      · exact h x (by simp [hx])
    · rcases List.mem_cons.1 hx with rfl | hx
      · exact h _ (by simp)
      · exact ih (fun y hy => h y (by simp [hy])) x hx

theorem all_modify {K : PField → Prop} {n : Nat} {g : PField → PField} {fs : List PField}
    (h : ∀ f ∈ fs, K f) (hg : ∀ f, K f → K (g f)) : ∀ f ∈ fs.modify n g, K f := by
  induction fs generalizing n with
  | nil => simp
  | cons f fs ih =>
    cases n with
    | zero =>
      intro x hx
      rw [List.modify_zero_cons] at hx
      rcases List.mem_cons.1 hx with rfl | hx
      · exact hg f (h f (by simp))
      · exact h x (by simp [hx])
    | succ n =>
      intro x hx
      rw [List.modify_succ_cons] at hx
      rcases List.mem_cons.1 hx with rfl | hx
      · exact h _ (by simp)
      · exact ih (fun y hy => h y (by simp [hy])) x hx

theorem all_relayoutP {K : PField → Prop} (hg : ∀ f o, K f → K (PField.offset o f)) {fs : List PField} {off : Nat}
    (h : ∀ f ∈ fs, K f) : ∀ f ∈ (relayoutP fs off).1, K f := by
  induction fs generalizing off with
  | nil => simp [relayoutP]
  | cons f fs ih =>
    intro x hx
    rw [show (relayoutP (f :: fs) off).1 = f.offset off :: (relayoutP fs (off + f.base.width)).1 from rfl] at hx
    rcases List.mem_cons.1 hx with rfl | hx
    · exact hg f off (h f (by simp))
    · exact ih (fun y hy => h y (by simp [hy])) x hx

/-- All fields. -/
def AllF (K : PField → Prop) (h : PHdr) : Prop := ∀ f ∈ h.fields, K f

theorem AllF.upd {K : PField → Prop} {h : PHdr} (ha : AllF K h) (n : CStr) {g : PField → PField}
    (hg : ∀ f, K f → K (g f)) : AllF K (h.upd n g) := all_updFirst ha hg

theorem AllF.find {K : PField → Prop} {h : PHdr} (ha : AllF K h) {n : CStr} {f : PField} (hf : h.find n = some f) :
    K f ∧ f.base.name = n :=
  ⟨ha f (List.mem_of_find?_eq_some hf), by simpa using List.find?_some hf⟩

theorem AllF.relayout {h : PHdr} (ha : AllF KindA h) (n : Nat) (w : Nat) :
    AllF KindA (relayoutHdrP { h with fields := h.fields.modify n (PField.width w) }) :=
  all_relayoutP (fun _ _ hf => hf) (all_modify ha (fun _ hf => hf))

theorem mk_token {K : Loss → Prop} {h : PHdr} (ha : AllF KindA h) (s : CStr) (hs : K .refused ∨ s.length ≤ 16) :
    MKeeps K (fun x => AllF KindA x.1) (coapParseTokenM h s) := by
  unfold coapParseTokenM
  refine (mk_hex s 1).bind fun b hb => ?_
  cases b with
  | none => exact MKeeps.pure ha
  | some b =>
    dsimp only
    split
    · rename_i hl
      rcases hs with hs | hs
      · exact (MKeeps.lose _ hs).bind fun _ _ => MKeeps.pure ha
      · have := hb b rfl; omega
    · exact MKeeps.pure (ha.relayout _ _)

theorem mk_profinet {K : Loss → Prop} {h : PHdr} (ha : AllF KindA h) (s : CStr) :
    MKeeps K (fun x => AllF KindA x.1) (profinetDataParserM h s) := by
  unfold profinetDataParserM
  refine (q_hex _ _).then fun b => ?_
  cases b with
  | none => exact MKeeps.pure ha
  | some b => exact MKeeps.pure (ha.relayout _ _)

theorem mk_multi {K : Loss → Prop} {h : PHdr} (ha : AllF KindA h) (n : CStr) (argv : List CStr) :
    MKeeps K (fun x => AllF KindA x.1) (fieldParseMultiVarByteM h n argv) := by
  unfold fieldParseMultiVarByteM
  refine (q_varBytes _).then fun b => ?_
  split
  · split
    · exact MKeeps.pure (ha.upd _ (fun _ hf => hf))
    · exact (MQuiet.free _).then fun _ => MKeeps.pure ha
  · split
    · exact MKeeps.lift (by simp)
    · exact MKeeps.pure ha
  · exact MKeeps.pure ha

theorem mk_runMulti {K : Loss → Prop} {h : PHdr} (ha : AllF KindA h) (f : PField) (argv : List CStr) :
    MKeeps K (fun x => AllF KindA x.1) (runMultiParserM h f argv) := by
  unfold runMultiParserM
  split
  · exact MKeeps.pure ha
  · unfold coapParseOptionValueM
    refine (mk_multi ha _ _).bind fun x hx => ?_
    obtain ⟨h', res⟩ := x
    dsimp only
    split
    · refine (q_getField _ _).then fun f => ?_
      split
      · exact MKeeps.lift (by simp)
      · refine (MQuiet.use _).then fun _ => ?_
        split
        · exact MKeeps.pure (AllF.upd hx _ (fun _ hf => hf))
        · exact MKeeps.pure hx
    · exact MKeeps.pure hx
  · unfold coapParseParmsM
    refine (q_varBytes _).then fun b => ?_
    split
    · split
      · refine (q_balloc _).then fun _ => (MQuiet.use _).then fun _ => (MQuiet.free _).then fun _ => MKeeps.pure ?_
        exact ha.upd _ (fun _ hf => hf)
      · exact (MQuiet.free _).then fun _ => MKeeps.pure ha
    · exact MKeeps.lift (by simp)

/-- Either of the kinds. -/
def Kinds (h : PHdr) : Prop := AllF KindA h ∨ AllF KindB h

theorem Kinds.upd {h : PHdr} (hk : Kinds h) (n : CStr) {g : PField → PField} (hg : ∀ f, (g f).base.name = f.base.name ∧
    (g f).base.parser = f.base.parser ∧ (g f).base.multi = f.base.multi ∧ (g f).base.width = f.base.width) :
    Kinds (h.upd n g) := by
  rcases hk with hk | hk
  · refine .inl (hk.upd n fun f hf => ?_)
    obtain ⟨e1, e2, _, _⟩ := hg f
    unfold KindA at hf ⊢
    rw [e1, e2]
    exact hf
  · refine .inr (hk.upd n fun f hf => ?_)
    obtain ⟨e1, e2, e3, e4⟩ := hg f
    unfold KindB at hf ⊢
    rw [e1, e2, e3, e4]
    exact hf

theorem Kinds.skipAll {h : PHdr} (hk : Kinds h) : Kinds h.skipAll := by
  rcases hk with hk | hk
  · refine .inl fun f hf => ?_
    obtain ⟨g, hg, rfl⟩ := List.mem_map.1 hf
    exact hk g hg
  · refine .inr fun f hf => ?_
    obtain ⟨g, hg, rfl⟩ := List.mem_map.1 hf
    exact hk g hg

theorem mk_runField {K : Loss → Prop} {h : PHdr} (hk : Kinds h) {f : PField} {w : CStr} (hf : ∃ g, h.find w = some g ∧
    f.base = g.base) (v : CStr) (hs : K .refused ∨ ((w = c!"token" → v.length ≤ 16) ∧ (w = c!"meg_id" → v.length ≤ 96))) :
    MKeeps K (fun x => Kinds x.1) (runFieldParserM h f v) := by
  obtain ⟨g, hg, hb⟩ := hf
  unfold runFieldParserM
  split
  · exact (q_parseBytes _ _).then fun _ => MKeeps.pure hk
  · exact (q_newBuf _).then fun _ => MKeeps.pure hk
  · rename_i hp
    rw [hb] at hp
    rcases hk with hk | hk
    · refine (mk_token hk v ?_).mono fun _ hx => .inl hx
      rcases hs with hs | hs
      · exact .inl hs
      · obtain ⟨k, kn⟩ := hk.find hg
        exact .inr (hs.1 (by rw [← kn]; exact k.2 hp))
    · exact absurd hp (hk.find hg).1.2.1
  · rename_i hp
    rw [hb] at hp
    rcases hk with hk | hk
    · exact (mk_profinet hk v).mono fun _ hx => .inl hx
    · exact absurd hp (hk.find hg).1.2.2.1
  · refine MQuiet.then ?_ fun _ => MKeeps.pure hk
    unfold opcParseUint16M
    q_all
  · rename_i hp
    rw [hb] at hp
    rcases hk with hk | hk
    · exact absurd hp (hk.find hg).1.1
    · obtain ⟨k, kn⟩ := hk.find hg
      refine (mk_fieldHex v _ ?_).bind fun _ _ => MKeeps.pure (.inr hk)
      rcases hs with hs | hs
      · exact .inl hs
      · refine .inr ?_
        obtain ⟨e1, e2⟩ := k.2.2.2 hp
        have := hs.2 (by rw [← kn]; exact e1)
        rw [hb, e2]
        have : bitToByte 384 = 48 := rfl
        omega

theorem find_upd_base {h : PHdr} {w : CStr} {f : PField} (hf : h.find w = some f) (v : Option PBuf) :
    ∃ g, (h.setVal w v).find w = some g ∧ f.base = g.base := by
  unfold PHdr.setVal PHdr.upd PHdr.find at *
  dsimp only
  generalize h.fields = fs at hf
  induction fs with
  | nil => simp at hf
  | cons x xs ih =>
    unfold updFirst
    rw [List.find?_cons] at hf
    split
    · rename_i hx
      rw [hx] at hf
      cases hf
      refine ⟨{ f with val := v }, ?_, rfl⟩
      rw [List.find?_cons]
      simp only [hx]
    · rename_i hx
      have hx' : (x.base.name == w) = false := by simpa using hx
      rw [hx'] at hf
      rw [List.find?_cons, hx']
      exact ih hf

theorem mk_fieldsLoop {K : Loss → Prop} (fuel : Nat) {h : PHdr} (hk : Kinds h) (m : Bool) (i : Nat) (argv : List CStr)
    (hs : K .refused ∨ ShortHex argv) : MKeeps K (fun _ => True) (parseFieldsLoopM fuel h m i argv) := by
  induction fuel generalizing h m i argv with
  | zero => exact MKeeps.pure trivial
  | succ fuel ih =>
    unfold parseFieldsLoopM
    cases argv with
    | nil => exact MKeeps.pure trivial
    | cons w rest =>
      dsimp only
      split
      · exact MKeeps.pure trivial
      · split
        · exact ih hk.skipAll _ _ _ (hs.imp_right ShortHex.tail)
        · split
          · exact MKeeps.pure trivial
          · rename_i f hf
            refine (q_bfree _).then fun _ => ?_
            have hk1 : Kinds (h.setVal w none) := hk.upd w (fun _ => ⟨rfl, rfl, rfl, rfl⟩)
            have hf1 := find_upd_base hf none
            cases rest with
            | nil => exact MKeeps.pure trivial
            | cons v rest' =>
              dsimp only
              split
              · refine ih ?_ _ _ _ (hs.imp_right fun h => h.tail.tail)
                exact hk1.upd w (fun _ => ⟨rfl, rfl, rfl, rfl⟩)
              · split
                · exact MKeeps.pure trivial
                · split
                  · rename_i hm
                    rcases hk1 with hk1 | hk1
                    · refine (mk_runMulti hk1 _ _).bind fun x hx => ?_
                      obtain ⟨h', cnt⟩ := x
                      dsimp only
                      split
                      · refine ih ?_ _ _ _ (hs.imp_right fun h => h.tail.drop _)
                        exact .inl (AllF.upd hx w fun _ hf => hf)
                      · exact MKeeps.pure trivial
                    · obtain ⟨g, hg, hb⟩ := hf1
                      refine absurd (hk1.find hg).1.1 ?_
                      rw [← hb]
                      exact hm.2
                  · refine (mk_runField hk1 hf1 v ?_).bind fun x hx => ?_
                    · refine hs.imp_right fun h => ⟨fun e => (h [] v rest').1 (by rw [e]; rfl), fun e => (h [] v rest').2 (by rw [e]; rfl)⟩
                    · refine ih ?_ _ _ _ (hs.imp_right fun h => h.tail.tail)
                      exact Kinds.upd hx w (fun _ => ⟨rfl, rfl, rfl, rfl⟩)

theorem mk_runHdr {K : Loss → Prop} {h : PHdr} (hk : Kinds h) (pad : Int) (m : Bool) (argv : List CStr)
    (hs : K .refused ∨ ShortHex argv) : MKeeps K (fun _ => True) (runHdrParserM h pad m argv) := by
  unfold runHdrParserM
  split
  · refine (mk_fieldsLoop _ hk _ _ _ hs).bind fun _ _ => MQuiet.mkeeps ?_
    q_all
  · exact MQuiet.mkeeps (by q_all)
  · exact MQuiet.mkeeps (by q_all)

/-- The static headers. -/
def kindsB (h : Hdr) : Bool :=
  h.fields.all (fun f => f.parser ≠ .fieldHex && (f.parser ≠ .coapToken || f.name = c!"token")) ||
  h.fields.all (fun f => f.multi = .none && f.parser ≠ .coapToken && f.parser ≠ .profinetData &&
    (f.parser ≠ .fieldHex || (f.name = c!"meg_id" && f.width = 384)))

theorem tmpls_kinds : hdrTmpls.all kindsB = true := by decide +kernel

theorem kinds_of {h : PHdr} (hb : kindsB h.erase = true) : Kinds h := by
  have hfs : h.erase.fields = h.fields.map PField.erase := rfl
  unfold kindsB at hb
  rw [hfs, List.all_map, List.all_map, Bool.or_eq_true] at hb
  rcases hb with hb | hb
  · refine .inl fun f hf => ?_
    have := List.all_eq_true.1 hb f hf
    simp only [Function.comp, Bool.and_eq_true, Bool.or_eq_true, decide_eq_true_eq] at this
    have e : f.erase.parser = f.base.parser := rfl
    have e2 : f.erase.name = f.base.name := rfl
    rw [e, e2] at this
    exact ⟨this.1, fun h => this.2.resolve_left (by simp [h])⟩
  · refine .inr fun f hf => ?_
    have := List.all_eq_true.1 hb f hf
    simp only [Function.comp, Bool.and_eq_true, Bool.or_eq_true, decide_eq_true_eq] at this
    have e : f.erase.parser = f.base.parser := rfl
    have e2 : f.erase.name = f.base.name := rfl
    have e3 : f.erase.multi = f.base.multi := rfl
    have e4 : f.erase.width = f.base.width := rfl
    rw [e, e2, e3, e4] at this
    exact ⟨this.1.1.1, this.1.1.2, this.1.2, fun h => this.2.resolve_left (by simp [h])⟩


theorem mk_fieldsCopy {K : Loss → Prop} (fs : List PField) :
    MKeeps K (fun gs => gs.map (·.base) = fs.map (·.base)) (fieldsCopyM fs) := by
  induction fs with
  | nil => exact MKeeps.pure rfl
  | cons f fs ih =>
    unfold fieldsCopyM
    repeat' (first | (refine MKeeps.bind ih fun x hx => ?_) | refine MQuiet.then (by q_one) fun _ => ?_)
    refine MKeeps.pure ?_
    simp [hx]

theorem mk_hdrClone {K : Loss → Prop} {h : PHdr} (hk : Kinds h) : MKeeps K Kinds (hdrCloneM h) := by
  unfold hdrCloneM
  refine (q_useAll _).then fun _ => MQuiet.alloc.then fun _ => MQuiet.then (by q_all) fun _ => ?_
  refine (q_useAll _).then fun _ => (mk_fieldsCopy _).bind fun x hx => MKeeps.pure ?_
  have key : ∀ f ∈ x, ∃ g ∈ h.fields, g.base = f.base := by
    intro f hf
    have : f.base ∈ x.map (·.base) := List.mem_map.2 ⟨f, hf, rfl⟩
    rw [hx] at this
    exact List.mem_map.1 this
  rcases hk with hk | hk
  · refine .inl fun f hf => ?_
    obtain ⟨g, hg, e⟩ := key f hf
    have := hk g hg
    unfold KindA at this ⊢
    rw [← e]
    exact this
  · refine .inr fun f hf => ?_
    obtain ⟨g, hg, e⟩ := key f hf
    have := hk g hg
    unfold KindB at this ⊢
    rw [← e]
    exact this

theorem tmplsOk_kinds {t : PTmpls} (ht : TmplsOk t) {h : PHdr} (hh : h ∈ t.tmpls) : Kinds h := by
  refine kinds_of ?_
  have : h.erase ∈ hdrTmpls := by
    rw [← ht.tmpls]
    exact List.mem_map.2 ⟨h, hh, rfl⟩
  exact List.all_eq_true.1 tmpls_kinds _ this

theorem mk_argcFrameLoop {K : Loss → Prop} {t : PTmpls} (ht : TmplsOk t) (cap fuel : Nat) (f : PFrame) (i : Nat)
    (argv : List CStr) (hs : K .refused ∨ ShortHex argv) :
    MKeeps K (fun _ => True) (argcFrameLoopM t cap fuel f i argv) := by
  induction fuel generalizing f i argv with
  | zero => exact MKeeps.pure trivial
  | succ fuel ih =>
    unfold argcFrameLoopM
    cases argv with
    | nil => exact MKeeps.pure trivial
    | cons w rest =>
      dsimp only
      split
      · exact MKeeps.pure trivial
      · split
        · exact MKeeps.pure trivial
        · rename_i tm htm
          split
          · refine (mk_hdrClone (tmplsOk_kinds ht (List.mem_of_find?_eq_some htm))).bind fun h hk => ?_
            refine (MQuiet.use _).then fun _ => (mk_runHdr hk _ _ _ (hs.imp_right ShortHex.tail)).bind fun x _ => ?_
            split
            · exact MKeeps.pure trivial
            · exact ih _ _ _ (hs.imp_right fun h => h.tail.drop _)
          · exact MKeeps.lift (by simp)

theorem mk_argcFrame {K : Loss → Prop} {t : PTmpls} (ht : TmplsOk t) (f : PFrame) (argv : List CStr)
    (hs : K .refused ∨ ShortHex argv) : MKeeps K (fun _ => True) (argcFrameM t f argv) := by
  unfold argcFrameM
  split
  · exact MKeeps.pure trivial
  · exact (MQuiet.use _).then fun _ => mk_argcFrameLoop ht _ _ _ _ _ hs

theorem mk_argcCmdFrame {K : Loss → Prop} {t : PTmpls} (ht : TmplsOk t) (c : PCmd) (i : Nat) (argv : List CStr)
    (hs : K .refused ∨ ShortHex argv) : MKeeps K (fun _ => True) (argcCmdFrameM t c i argv) := by
  unfold argcCmdFrameM
  refine MQuiet.alloc.then fun p => (mk_argcFrame ht _ _ hs).bind fun x _ => MQuiet.mkeeps ?_
  q_all

theorem mk_argcCmdRest {K : Loss → Prop} {t : PTmpls} (ht : TmplsOk t) (c : PCmd) (i : Nat) (argv : List CStr)
    (hs : K .refused ∨ ShortHex argv) : MKeeps K (fun _ => True) (argcCmdRestM t c i argv) := by
  unfold argcCmdRestM
  split
  · split
    · exact MQuiet.mkeeps (by q_all)
    · exact mk_argcCmdFrame ht _ _ _ hs
  · exact mk_argcCmdFrame ht _ _ _ hs

theorem mk_argcCmd {K : Loss → Prop} {t : PTmpls} (ht : TmplsOk t) (hasPcap : Bool) (argv : List CStr)
    (hs : K .refused ∨ ShortHex argv) : MKeeps K (fun _ => True) (argcCmdM t hasPcap argv) := by
  unfold argcCmdM
  cases argv with
  | nil => exact MKeeps.pure trivial
  | cons w rest =>
    dsimp only
    have hs1 := hs.imp_right ShortHex.tail
    split
    · exact MKeeps.pure trivial
    · exact MKeeps.pure trivial
    · cases rest with
      | nil => exact MKeeps.pure trivial
      | cons a rest' =>
        have hs2 := hs1.imp_right ShortHex.tail
        dsimp only
        split
        · exact (q_balloc _).then fun _ => mk_argcCmdRest ht _ _ _ hs2
        · exact mk_argcCmdRest ht _ _ _ hs1
        · exact (q_balloc _).then fun _ => mk_argcCmdRest ht _ _ _ hs2
        · exact (q_balloc _).then fun _ => mk_argcCmdRest ht _ _ _ hs2
        · refine (q_balloc _).then fun _ => ?_
          cases rest' with
          | nil => exact MKeeps.lift (by simp)
          | cons r rest'' =>
            have hs3 := hs2.imp_right ShortHex.tail
            dsimp only
            split
            · cases rest'' with
              | nil => exact MKeeps.lift (by simp)
              | cons x rest3 => exact mk_argcCmdRest ht _ _ _ (hs3.imp_right ShortHex.tail)
            · exact mk_argcCmdRest ht _ _ _ hs2

/-! ## Losses of whole runs -/

/-- If there is a result, it satisfies `P` and what is lost satisfies `K` of the result. -/
def Loses {α : Type} (K : α → Loss → Prop) (P : α → Prop) (m : Mem α) : Prop :=
  ∀ hp, ∀ a, (m hp).1 = .ok a → P a ∧ ∃ new, (m hp).2.lost = new ++ hp.lost ∧ ∀ x ∈ new, K a x.2

theorem MKeeps.loses {α : Type} {K : Loss → Prop} {P : α → Prop} {m : Mem α} {K' : α → Loss → Prop} (h : MKeeps K P m)
    (hk : ∀ a c, P a → K c → K' a c) : Loses K' P m := fun hp a ha => by
  obtain ⟨⟨new, e, k⟩, p⟩ := h hp
  exact ⟨p a ha, new, e, fun x hx => hk a x.2 (p a ha) (k x hx)⟩

theorem Loses.pure {α : Type} {K : α → Loss → Prop} {P : α → Prop} {a : α} (h : P a) : Loses K P (Pure.pure a) :=
  (MKeeps.pure (K := fun _ => False) h).loses (fun _ _ _ h => h.elim)

theorem Loses.mono {α : Type} {K : α → Loss → Prop} {P Q : α → Prop} {m : Mem α} (h : Loses K P m)
    (hq : ∀ a, P a → Q a) : Loses K Q m := fun hp a ha => ⟨hq a (h hp a ha).1, (h hp a ha).2⟩

theorem Loses.bind {α β : Type} {K1 : α → Loss → Prop} {K : β → Loss → Prop} (P : α → β → Prop) {P1 : α → Prop}
    {Q : β → Prop} {m : Mem α} {k : α → Mem β} (h1 : Loses K1 P1 m) (h2 : ∀ a, P1 a → Loses K (P a) (k a))
    (h0 : ∀ a b, P1 a → P a b → Q b ∧ ∀ c, K1 a c → K b c) : Loses K Q (m >>= k) := by
  intro hp b hb
  change (Mem.bind m k hp).1 = _ at hb
  show _ ∧ ∃ new, (Mem.bind m k hp).2.lost = new ++ hp.lost ∧ _
  unfold Mem.bind at hb ⊢
  have := h1 hp
  generalize m hp = r at this hb
  obtain ⟨v, hp'⟩ := r
  cases v with
  | ub u => cases hb
  | abort => cases hb
  | exit c => cases hb
  | ok a =>
    obtain ⟨q1, n1, e1, k1⟩ := this a rfl
    obtain ⟨p2, n2, e2, k2⟩ := h2 a q1 hp' b hb
    obtain ⟨q, hk⟩ := h0 a b q1 p2
    refine ⟨q, n2 ++ n1, ?_, ?_⟩
    · simp only at e1 ⊢
      rw [e2, e1, List.append_assoc]
    · intro x hx
      rcases List.mem_append.1 hx with hx | hx
      · exact k2 x hx
      · exact hk _ (k1 x hx)

theorem MQuiet.thenL {α β : Type} {K : β → Loss → Prop} {Q : β → Prop} {m : Mem α} {k : α → Mem β}
    (h1 : MQuiet m) (h2 : ∀ a, Loses K Q (k a)) : Loses K Q (m >>= k) :=
  Loses.bind (fun _ => Q) ((h1.mkeeps (K := fun _ => False)).loses (K' := fun _ _ => False) (fun _ _ _ h => h))
    (fun a _ => h2 a) (fun _ _ _ hb => ⟨hb, fun _ h => h.elim⟩)

/-- The losses of reading all commands. -/
def KP {α : Type} (K : Loss → Prop) (r : Option α) (c : Loss) : Prop := K c ∨ (c = .parseError ∧ r = none)

theorem l_argcCmdsLoop {K : Loss → Prop} {t : PTmpls} (ht : TmplsOk t) (hasPcap : Bool) (slots : Nat)
    (argv : List CStr) (hs : K .refused ∨ ShortHex argv) :
    Loses (KP K) (fun _ => True) (argcCmdsLoopM t hasPcap slots argv) := by
  induction slots generalizing argv with
  | zero => exact Loses.pure trivial
  | succ slots ih =>
    unfold argcCmdsLoopM
    split
    · exact Loses.pure trivial
    · refine Loses.bind (fun _ _ => True) ((mk_argcCmd ht hasPcap argv hs).loses (K' := fun _ => K) (fun _ _ _ h => h))
        (fun a _ => ?_) (fun _ _ _ _ => ⟨trivial, fun c hc => .inl hc⟩)
      split
      · exact Loses.pure trivial
      · exact Loses.pure trivial
      · rename_i c used
        refine Loses.bind (fun a b => a = none → b = none) (ih (argv.drop used) (hs.imp_right fun h => h.drop _))
          (fun a _ => ?_) (fun a b _ hab => ⟨trivial, fun c hc => hc.imp_right fun h => ⟨h.1, hab h.2⟩⟩)
        split
        · exact ((MKeeps.loseAll (K := fun c => c = .parseError) _ rfl).bind
            (Q := fun b => none = none → b = none) fun _ _ => MKeeps.pure fun _ => rfl).loses
            (fun b c hb hc => .inr ⟨hc, hb rfl⟩)
        · exact Loses.pure (by simp)

theorem l_parseCmds {K : Loss → Prop} {t : PTmpls} (ht : TmplsOk t) (hasPcap : Bool)
    (argv : List CStr) (hs : K .refused ∨ ShortHex argv) :
    Loses (KP K) (fun _ => True) (parseCmdsM t hasPcap argv) := by
  unfold parseCmdsM
  refine Loses.bind (fun a b => a = none → b = none) (l_argcCmdsLoop ht hasPcap 100 argv hs)
    (fun a _ => ?_) (fun a b _ hab => ⟨trivial, fun c hc => hc.imp_right fun h => ⟨h.1, hab h.2⟩⟩)
  split
  · exact Loses.pure fun _ => rfl
  · split
    · exact Loses.pure (by simp)
    · exact (((MKeeps.loseAll (K := fun c => c = .parseError) _ rfl).bind
        (Q := fun b => b = none) fun _ _ => MKeeps.pure rfl).loses (K' := KP K)
        (fun b c hb hc => .inr ⟨hc, hb⟩)).mono fun b hb _ => hb

/-- The losses of a run. -/
def KR (K : Loss → Prop) (r : RunRes) (c : Loss) : Prop :=
  K c ∨ (c = .parseError ∧ r.ret = some (-1)) ∨ (c = .running ∧ r.ret = none) ∨
    (c = .option ∧ (r.version = true ∨ r.help = true))

theorem l_argcCmds {K : Loss → Prop} {t : PTmpls} (ht : TmplsOk t) (w : World) (ms : Int) (caps : List PCapture)
    (argv : List CStr) (hs : K .refused ∨ ShortHex argv) :
    Loses (KR K) (fun _ => True) (argcCmdsM t w ms caps argv) := by
  unfold argcCmdsM
  refine Loses.bind (fun a b => a = none → b.ret = some (-1)) (l_parseCmds ht _ argv hs) (fun a _ => ?_)
    (fun a b _ hab => ⟨trivial, fun c hc => hc.imp_right fun h => .inl ⟨h.1, hab h.2⟩⟩)
  split
  · exact (((MKeeps.loseAll (K := fun c => c = .parseError) _ rfl).bind
      (Q := fun b => b.ret = some (-1)) fun _ _ => MKeeps.pure rfl).loses (K' := KR K)
      (fun b c hb hc => .inr (.inl ⟨hc, hb⟩))).mono fun b hb _ => hb
  · refine (q_useAll _).thenL fun _ => (q_execCmds _ _).thenL fun x => ?_
    obtain ⟨r, cmds'⟩ := x
    dsimp only
    split
    · refine Loses.mono (P := fun _ => True) ?_ (fun _ _ h => by cases h)
      refine (MQuiet.mkeeps ?_).loses (K := fun _ => False) fun _ _ _ h => h.elim
      q_all
    · rename_i hr
      refine Loses.mono (P := fun b => b.ret = none) ?_ (fun _ _ h => by cases h)
      refine MKeeps.loses (K := fun c => c = .running) (K' := KR K) ?_ (fun b c hb hc => .inr (.inr (.inl ⟨hc, hb⟩)))
      refine (MKeeps.loseAll (K := fun c => c = .running) _ rfl).bind fun _ _ => MKeeps.pure ?_
      simpa using hr

theorem l_mainLoopOpts {K : Loss → Prop} {t : PTmpls} (ht : TmplsOk t) (w : World) (argv : List CStr)
    (hs : K .refused ∨ ShortHex argv) (os : List Opt) (ms : Int) (args : List CStr) (caps : List PCapture) :
    Loses (KR K) (fun _ => True) (mainLoopOptsM t w argv os ms args caps) := by
  induction os generalizing ms args caps with
  | nil =>
    unfold mainLoopOptsM
    exact Loses.bind (fun a b => b.ret = a.ret ∧ b.version = a.version ∧ b.help = a.help)
      (l_argcCmds ht w ms caps argv hs) (fun a _ => Loses.pure ⟨rfl, rfl, rfl⟩)
      (fun a b _ hab => ⟨trivial, fun c hc => by
        unfold KR at hc ⊢
        rw [hab.1, hab.2.1, hab.2.2]
        exact hc⟩)
  | cons o os ih =>
    have opt : ∀ b : RunRes, b.version = true ∨ b.help = true →
        Loses (KR K) (fun _ => True) (do loseAll .option (ownCaps caps); Pure.pure b) := fun b hb =>
      (((MKeeps.loseAll (K := fun c => c = .option) _ rfl).bind
        (Q := fun b' => b' = b) fun _ _ => MKeeps.pure rfl).loses (K' := KR K)
        (fun b' c e hc => .inr (.inr (.inr ⟨hc, by rw [e]; exact hb⟩)))).mono fun _ _ => trivial
    unfold mainLoopOptsM
    cases o with
    | version => exact opt _ (.inl rfl)
    | help => exact opt _ (.inr rfl)
    | bad => exact opt _ (.inr rfl)
    | timeout a => exact ih _ _ _
    | capture a => exact (q_captureAdd a).thenL fun c => ih _ _ _

theorem l_main {K : Loss → Prop} {t : PTmpls} (ht : TmplsOk t) (w : World) (argv : List CStr)
    (hs : K .refused ∨ ShortHex (getopt w.posix argv).2) : Loses (KR K) (fun _ => True) (mainM t w argv) := by
  unfold mainM
  exact l_mainLoopOpts ht w _ hs _ _ _ _

/-- The number of default values that are never released. -/
def leftOver : Nat :=
  ((hdrTmpls.filter (fun h => notReleased.contains h.name)).map
    (fun h => (h.fields.filter (fun f => f.dflt.isSome)).length)).sum

theorem leftOver_eq : leftOver = 8 := by decide +kernel

theorem ownFields_length {fs : List PField} (h : ∀ f ∈ fs, f.val = none) :
    (ownFields fs).length = ((fs.map PField.erase).filter (fun f => f.dflt.isSome)).length := by
  induction fs with
  | nil => rfl
  | cons f fs ih =>
    have hv := h f (by simp)
    have := ih (fun x hx => h x (by simp [hx]))
    have e : f.erase.dflt = f.dflt.map (·.data) := rfl
    unfold ownFields PField.own
    rw [List.map_cons, List.filter_cons, hv, e, List.length_append, this]
    cases f.dflt <;> simp [ownBuf]; omega

theorem lost_loseAll (w : Loss) (ps : List Ptr) (hp : Heap) :
    (loseAll w ps hp).1 = .ok () ∧ ∃ new, (loseAll w ps hp).2.lost = new ++ hp.lost ∧ new.length = ps.length ∧
      ∀ x ∈ new, x.2 = w := by
  induction ps generalizing hp with
  | nil => exact ⟨rfl, [], rfl, rfl, by simp⟩
  | cons p ps ih =>
    obtain ⟨h1, new, e, hl, hk⟩ := ih { hp with lost := (p, w) :: hp.lost }
    refine ⟨h1, new ++ [(p, w)], ?_, by simp [hl], ?_⟩
    · rw [List.append_assoc]
      exact e
    · intro x hx
      rcases List.mem_append.1 hx with hx | hx
      · exact hk x hx
      · simp at hx
        rw [hx]



theorem left_uninitHdrs (hs : List PHdr) (hst : ∀ h ∈ hs, Static h) (hv : ∀ h ∈ hs, ∀ f ∈ h.fields, f.val = none)
    (F : List Ptr) (hp : Heap) (hn : Enough (ownHdrs hs ++ F) hp) :
    ∃ new, (uninitHdrsM hs hp).2.lost = new ++ hp.lost ∧
      new.length = (((hs.map PHdr.erase).filter (fun h => notReleased.contains h.name)).map
        (fun h => (h.fields.filter (fun f => f.dflt.isSome)).length)).sum ∧ ∀ x ∈ new, x.2 = .defaults := by
  induction hs generalizing hp with
  | nil => exact ⟨[], rfl, rfl, by simp⟩
  | cons h hs ih =>
    have hs1 := hst h (by simp)
    have e : h.erase.fields = h.fields.map PField.erase := rfl
    have en : h.erase.name = h.base.name := rfl
    have hn' : Enough (h.own ++ (ownHdrs hs ++ F)) hp := by rw [← List.append_assoc]; exact hn
    have step : ∀ k : Mem Unit, Needs h.own k →
        (do k; uninitHdrsM hs : Mem Unit) hp = uninitHdrsM hs (k hp).2 ∧ Enough (ownHdrs hs ++ F) (k hp).2 := by
      intro k hk
      obtain ⟨r1, r2⟩ := hk _ hp hn'
      refine ⟨?_, r2⟩
      show Mem.bind k (fun _ => uninitHdrsM hs) hp = _
      unfold Mem.bind
      generalize k hp = r at r1
      obtain ⟨v, hp'⟩ := r
      simp only at r1
      rw [r1]
    have hrec := fun hp' => ih (fun x hx => hst x (by simp [hx])) (fun x hx => hv x (by simp [hx])) hp'
    unfold uninitHdrsM
    rw [List.map_cons, List.filter_cons, en]
    by_cases hc : notReleased.contains h.base.name = true
    · rw [if_pos hc, if_pos hc]
      obtain ⟨s1, s2⟩ := step _ (needs_loseAll .defaults h.own)
      obtain ⟨_, n1, e1, l1, k1⟩ := lost_loseAll .defaults h.own hp
      obtain ⟨n2, e2, l2, k2⟩ := hrec _ s2
      refine ⟨n2 ++ n1, ?_, ?_, ?_⟩
      · rw [s1, e2, e1, List.append_assoc]
      · rw [List.length_append, l1, l2, List.map_cons, List.sum_cons, hs1.own, ownFields_length (hv h (by simp)), e]
        omega
      · intro x hx
        rcases List.mem_append.1 hx with hx | hx
        · exact k2 x hx
        · exact k1 x hx
    · rw [if_neg hc, if_neg hc]
      have hf : Needs h.own (fieldsFreeM h.fields) := by rw [hs1.own]; exact needs_fieldsFree _
      obtain ⟨s1, s2⟩ := step _ hf
      obtain ⟨n2, e2, l2, k2⟩ := hrec _ s2
      exact ⟨n2, by rw [s1, e2, q_fieldsFree], l2, k2⟩

theorem left_uninit (t : PTmpls) (h1 : ∀ h ∈ t.tmpls, Static h) (hok : TmplsOk t)
    (hp : Heap) (hn : Enough t.own hp) :
    ∃ new, (uninitM t hp).2.lost = new ++ hp.lost ∧ new.length = 8 ∧ ∀ x ∈ new, x.2 = .defaults := by
  have hv : ∀ h ∈ t.tmpls, ∀ f ∈ h.fields, f.val = none := by
    intro h hh f hf
    have hm : h.erase ∈ hdrTmpls := by
      rw [← hok.tmpls]
      exact List.mem_map.2 ⟨h, hh, rfl⟩
    have := static_val (List.mem_cons_of_mem _ (List.mem_cons_of_mem _ hm)) f.erase (List.mem_map.2 ⟨f, hf, rfl⟩)
    have e : f.erase.val = f.val.map (·.data) := rfl
    rw [e] at this
    simpa using this
  have hn' : Enough (ownHdrs t.tmpls ++ (t.pseudo4.own ++ t.pseudo6.own)) hp :=
    hn.congr (fun p => by simp only [PTmpls.own, List.count_append]; omega)
  obtain ⟨r1, r2⟩ := needs_uninitHdrs _ h1 _ hp hn'
  obtain ⟨new, e, l, k⟩ := left_uninitHdrs t.tmpls h1 hv _ hp hn'
  refine ⟨new, ?_, ?_, k⟩
  · rw [← e]
    show (Mem.bind (uninitHdrsM t.tmpls) _ hp).2.lost = _
    unfold Mem.bind
    generalize uninitHdrsM t.tmpls hp = r at r1
    obtain ⟨v, hp'⟩ := r
    simp only at r1
    rw [r1]
    exact (q_fieldsFree _).bind (fun _ => q_fieldsFree _) hp'
  · rw [l, hok.tmpls]
    exact leftOver_eq

/-- What is left at the end of a process that has returned. -/
theorem process_left {K : Loss → Prop} (w : World) (argv : List CStr)
    (hs : K .refused ∨ ShortHex (getopt w.posix argv).2) {r : RunRes} (hr : (processM w argv {}).1 = .ok r) :
    (r.ret.isSome → ∃ new old, (processM w argv {}).2.lost = new ++ old ∧ new.length = 8 ∧
      (∀ x ∈ new, x.2 = .defaults) ∧ ∀ x ∈ old, KR K r x.2) ∧
      (processM w argv {}).2.live.length = (processM w argv {}).2.lost.length := by
  refine ⟨fun hsome => ?_, ?_⟩
  · obtain ⟨i1, i2, _, i4⟩ := tri_init (F := []) {} rfl (fun p => by simp)
    have hbind : processM w argv {} = Mem.bind initM (fun t => fun hp =>
      match mainM t w argv hp with
      | (.ok r, hp') =>
        if r.ret.isSome then (do uninitM t; pure r : Mem RunRes) hp' else (do loseAll .running t.own; pure r : Mem RunRes) hp'
      | (.exit c, hp') => (do uninitM t; lift (.exit c) : Mem RunRes) hp'
      | (o, hp') => (o, hp')) {} := rfl
    rw [hbind] at hr ⊢
    unfold Mem.bind at hr ⊢
    have i5 := q_init {}
    generalize hm : initM {} = q at i1 i2 i4 i5 hr
    obtain ⟨v, hp⟩ := q
    cases v with
    | ub u => cases i1
    | abort => cases i1
    | exit c => cases i1
    | ok t =>
      simp only [Out.map, Out.ok.injEq] at i1
      obtain ⟨ht, s1, s2, s3⟩ := init_ok i1
      have hh := i4 t rfl
      obtain ⟨m1, m2, m3, m4⟩ := tri_main ht (F := t.own) (fun p hp => hp) w argv hp i2 (hh.congr (by simp))
      have ml := l_main ht w argv hs hp
      simp only at hr ⊢
      generalize hq : mainM t w argv hp = q at m1 m2 m3 m4 ml hr
      obtain ⟨v, hp'⟩ := q
      cases v with
      | ub u => cases hr
      | abort => cases hr
      | exit c =>
        simp only at hr
        change (Mem.bind (uninitM t) (fun _ => lift (.exit c)) hp').1 = _ at hr
        unfold Mem.bind at hr
        have hn := needs_uninit t s1 s2 s3 [] hp' ⟨m2, by simpa using m3⟩
        generalize uninitM t hp' = q at hr hn
        obtain ⟨v, hp2⟩ := q
        have : v = .ok () := hn.1
        rw [this] at hr
        cases hr
      | ok r' =>
        obtain ⟨_, old, e, k⟩ := ml r' rfl
        have hn := needs_uninit t s1 s2 s3 [] hp' ⟨m2, by simpa using m3⟩
        obtain ⟨new, e2, l2, k2⟩ := left_uninit t s1 ht hp' ⟨m2, by simpa using m3⟩
        have run : ∀ k : Mem Unit, (k hp').1 = .ok () → (do k; pure r' : Mem RunRes) hp' = (.ok r', (k hp').2) := by
          intro k hk
          show Mem.bind k (fun _ => Pure.pure r') hp' = _
          unfold Mem.bind
          generalize k hp' = q at hk
          obtain ⟨v, hp2⟩ := q
          simp only at hk
          rw [hk]
          rfl
        have hrr : r' = r := by
          simp only at hr
          split at hr
          · rw [run _ hn.1] at hr
            simpa using hr
          · rw [run _ (lost_loseAll .running t.own hp').1] at hr
            simpa using hr
        subst hrr
        simp only [hsome, if_true]
        rw [run _ hn.1]
        refine ⟨new, old, ?_, l2, k2, k⟩
        simp only at e i5 ⊢
        rw [e2, e, i5, List.append_nil]
  · have := (process_tri w argv).2.2 r hr
    have hp : (processM w argv {}).2.live.Perm ((processM w argv {}).2.lost.map (·.1)) :=
      List.perm_iff_count.2 (fun p => by simpa using this p)
    simpa using hp.length_eq

end Ef
