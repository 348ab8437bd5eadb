import Verif.Props.Commands
import Verif.Props.Transmit
import Verif.Props.Payload
import Verif.Props.Fill
import Verif.Spec.Tool
import Verif.Lemmas.Kinds

/-!
# The tool as a whole (C65, C66, C67, C73, C74)
-/

namespace Ef.Props

open Spec

/-! ## C65: VLAN tags removed by the kernel are restored -/

/-- Every answer of the operating system delivers frames of the given originals. -/
def deliverAll (orig : Nat → Nat → Option Buf) (hist : List Step) : List Step :=
  hist.zipIdx.map (fun p => { p.1 with recv := fun i => (orig p.2 i).map (fun o => ⟨o, none⟩) })

/-- C65 as claimed: whatever the frames and their tags, a run where the kernel cuts out VLAN tags is the same as a run
where the frames arrive untouched. -/
def C65_statement : Prop :=
  ∀ (env : Env) (cmds : List Cmd) (orig : Nat → Nat → Option Buf),
    (∀ (k : Nat) s, env.hist[k]? = some s → ∀ i : Nat,
      match s.recv i, orig k i with
      | none, none => True
      | some m, some o => 12 ≤ o.length ∧ Delivers o m
      | _, _ => False) →
    execCmds env cmds = execCmds { env with hist := deliverAll orig env.hist } cmds

theorem be16Bytes_getD {a b : Byte} : be16Bytes (BitVec.ofNat 16 (256 * a.toNat + b.toNat)) = [a, b] := by
  have ha := a.isLt
  have hb := b.isLt
  unfold be16Bytes
  rw [BitVec.toNat_ofNat, Nat.mod_eq_of_lt (by omega), show (256 * a.toNat + b.toNat) / 256 = a.toNat by omega,
    show (256 * a.toNat + b.toNat) % 256 = b.toNat by omega]
  simp

theorem strip_aux (o : Buf) : (strip o).aux = some
    { vlanValid := true
      tpid := BitVec.ofNat 16 (256 * (o.getD 12 0#8).toNat + (o.getD 13 0#8).toNat)
      tci := BitVec.ofNat 16 (256 * (o.getD 14 0#8).toNat + (o.getD 15 0#8).toNat) } := rfl

theorem split16 {o : Buf} (h : 16 ≤ o.length) :
    o.take 12 ++ [o.getD 12 0#8, o.getD 13 0#8] ++ [o.getD 14 0#8, o.getD 15 0#8] ++ o.drop 16 = o := by
  have e : o = o.take 12 ++ o.drop 12 := (List.take_append_drop 12 o).symm
  have h1 : o.drop 12 = [o.getD 12 0#8, o.getD 13 0#8, o.getD 14 0#8, o.getD 15 0#8] ++ o.drop 16 := by
    rw [List.drop_eq_getElem_cons (show 12 < o.length by omega), List.drop_eq_getElem_cons (show 13 < o.length by omega),
      List.drop_eq_getElem_cons (show 14 < o.length by omega), List.drop_eq_getElem_cons (show 15 < o.length by omega)]
    simp only [List.getD_eq_getElem?_getD]
    rw [List.getElem?_eq_getElem (show 12 < o.length by omega), List.getElem?_eq_getElem (show 13 < o.length by omega),
      List.getElem?_eq_getElem (show 14 < o.length by omega), List.getElem?_eq_getElem (show 15 < o.length by omega)]
    rfl
  conv => rhs; rw [e, h1]
  simp

theorem pairAt_eq {o : Buf} {i : Nat} (h : i + 2 ≤ o.length) : pairAt o i = [o.getD i 0#8, o.getD (i + 1) 0#8] := by
  unfold pairAt
  rw [List.drop_eq_getElem_cons (show i < o.length by omega), List.drop_eq_getElem_cons (show i + 1 < o.length by omega)]
  simp only [List.getD_eq_getElem?_getD]
  rw [List.getElem?_eq_getElem (show i < o.length by omega), List.getElem?_eq_getElem (show i + 1 < o.length by omega)]
  rfl

/-- The tag is put back. -/
theorem restore_delivered {cfg : Config} {o : Buf} {m : RxMsg} (hd : Delivers o m) (hl : o.length < 32768)
    (ht : m = strip o → cfg.hasTpid = true ∨ pairAt o 12 = [0x81#8, 0x00#8]) :
    restoreVlan cfg (m.data.take rxBufSize) m.aux = .ok o ∧ (m.data.take rxBufSize = [] ↔ o = []) := by
  cases hd with
  | plain aux ha =>
    have e : List.take rxBufSize o = o := List.take_of_length_le (by unfold rxBufSize; omega)
    simp only [e, and_true]
    unfold restoreVlan
    cases aux with
    | none => rfl
    | some x => simp [ha x rfl]
  | stripped h16 =>
    have hd : (strip o).data = o.take 12 ++ o.drop 16 := rfl
    have hdl : (strip o).data.length = o.length - 4 := by
      rw [hd, List.length_append, List.length_take, List.length_drop]; omega
    have e : List.take rxBufSize (strip o).data = (strip o).data := List.take_of_length_le (by unfold rxBufSize; omega)
    rw [e]
    constructor
    · unfold restoreVlan
      rw [strip_aux]
      simp only
      rw [if_pos ⟨by unfold rxBufSize; omega, trivial⟩, if_neg (by omega), be16Bytes_getD, be16Bytes_getD]
      have e1 : (if cfg.hasTpid = true then [o.getD 12 0#8, o.getD 13 0#8] else [129#8, 0#8]) =
          [o.getD 12 0#8, o.getD 13 0#8] := by
        split
        · rfl
        · rename_i hn
          rcases ht rfl with h | h
          · exact absurd h hn
          · rw [pairAt_eq (by omega)] at h
            exact h.symm
      rw [e1, hd]
      congr 1
      have e2 : List.take 12 (o.take 12 ++ o.drop 16) = o.take 12 := by
        rw [List.take_append_of_le_length (by rw [List.length_take]; omega), List.take_take]; simp
      have e3 : List.drop 12 (o.take 12 ++ o.drop 16) = o.drop 16 := by
        have : (o.take 12).length = 12 := by rw [List.length_take]; omega
        rw [List.drop_append_of_le_length (by omega), List.drop_eq_nil_of_le (by omega), List.nil_append]
      rw [e2, e3]
      exact split16 h16
    · constructor
      · intro h; rw [h] at hdl; simp only [List.length_nil] at hdl; omega
      · rintro rfl; simp at h16

/-- Two steps that differ in the received messages only, which lead to the same frames. -/
structure SameRx (cfg : Config) (s s' : Step) : Prop where
  res : s.res = s'.res
  now : s.now = s'.now
  readable : s.readable = s'.readable
  writable : s.writable = s'.writable
  send : s.send = s'.send
  recv : ∀ (i : Nat) (r : Resource), (match s.recv i with
    | none => (.ok (r, []) : Out (Resource × List Event))
    | some m => rxFrame cfg r m) = (match s'.recv i with
    | none => .ok (r, [])
    | some m => rxFrame cfg r m)

theorem rxAll_same {cfg s s'} (h : SameRx cfg s s') (i : Nat) (rs : List Resource) : rxAll cfg s i rs = rxAll cfg s' i rs := by
  induction rs generalizing i with
  | nil => rfl
  | cons r rs ih =>
    unfold rxAll
    have : rxResource cfg s i r = rxResource cfg s' i r := by
      unfold rxResource
      rw [h.readable]
      split
      · exact h.recv i r
      · rfl
    rw [this, ih]

theorem process_same {cfg fuel s s'} (h : SameRx cfg s s') (rs : List Resource) : process cfg fuel s rs = process cfg fuel s' rs := by
  unfold process
  have : writeSet s rs = writeSet s' rs := by
    funext i
    unfold writeSet
    rw [h.writable]
  rw [rxAll_same h, this, h.send]

theorem mainLoop_same {cfg fuel tend} {hist hist' : List Step} (hl : hist.length = hist'.length)
    (h : ∀ (k : Nat) s s', hist[k]? = some s → hist'[k]? = some s' → SameRx cfg s s') (left : TimeVal) (rs : List Resource) :
    mainLoop cfg fuel tend hist left rs = mainLoop cfg fuel tend hist' left rs := by
  induction hist generalizing hist' left rs with
  | nil =>
    have : hist' = [] := List.eq_nil_of_length_eq_zero (by simpa using hl.symm)
    rw [this]
  | cons s hist ih =>
    cases hist' with
    | nil => simp at hl
    | cons s' hist' =>
      have h0 := h 0 s s' rfl rfl
      rw [mainLoop, mainLoop]
      split
      · rfl
      · simp only
        rw [h0.now, h0.res, process_same h0]
        split
        · rfl
        · split
          · rfl
          · congr 1
            funext p
            obtain ⟨fin, rs', e⟩ := p
            simp only
            split
            · rw [ih (by simpa using hl) (fun k a b ha hb => h (k + 1) a b (by simpa using ha) (by simpa using hb))]
            · rfl

theorem execCmds_same {env env' : Env} (h1 : env.cfg = env'.cfg) (h2 : env.canOpen = env'.canOpen) (h3 : env.begin = env'.begin)
    (h4 : env.timeoutMs = env'.timeoutMs) (h5 : env.fuel = env'.fuel) (hl : env.hist.length = env'.hist.length)
    (h : ∀ (k : Nat) s s', env.hist[k]? = some s → env'.hist[k]? = some s' → SameRx env.cfg s s') (cmds : List Cmd) :
    execCmds env cmds = execCmds env' cmds := by
  unfold execCmds execResolved
  simp only [← h1, ← h2, ← h3, ← h4, ← h5]
  simp only [mainLoop_same hl h]

theorem rxFrame_delivered {cfg : Config} {o : Buf} {m : RxMsg} (hd : Delivers o m) (hl : o.length < 32768)
    (ht : m = strip o → cfg.hasTpid = true ∨ pairAt o 12 = [0x81#8, 0x00#8]) (r : Resource) :
    rxFrame cfg r m = rxFrame cfg r ⟨o, none⟩ := by
  obtain ⟨h1, h2⟩ := restore_delivered hd hl ht
  have e : List.take rxBufSize o = o := List.take_of_length_le (by unfold rxBufSize; omega)
  have hz : (m.data.take rxBufSize).length = 0 ↔ o.length = 0 := by
    rw [List.length_eq_zero_iff, List.length_eq_zero_iff]; exact h2
  unfold rxFrame
  simp only [e]
  by_cases h0 : o.length = 0
  · rw [if_pos (hz.2 h0), if_pos h0]
  · rw [if_neg (fun h => h0 (hz.1 h)), if_neg h0, h1]
    rfl

/-- **C65** (partial): for frames shorter than 32 KiB, a run where the kernel cuts out VLAN tags is the same as a run
where the frames arrive untouched. If the kernel headers have no tag protocol id in the auxiliary data, only for tags
with the protocol id 0x8100. -/
theorem C65_same_run_partial (env : Env) (cmds : List Cmd) (orig : Nat → Nat → Option Buf)
    (h : ∀ (k : Nat) s, env.hist[k]? = some s → ∀ i : Nat,
      match s.recv i, orig k i with
      | none, none => True
      | some m, some o => o.length < 32768 ∧ Delivers o m ∧
          (m = strip o → env.cfg.hasTpid = true ∨ pairAt o 12 = [0x81#8, 0x00#8])
      | _, _ => False) :
    execCmds env cmds = execCmds { env with hist := deliverAll orig env.hist } cmds := by
  refine execCmds_same (env := env) (env' := { env with hist := deliverAll orig env.hist }) rfl rfl rfl rfl rfl
    (by simp [deliverAll]) ?_ cmds
  intro k s s' hs hs'
  simp only [deliverAll, List.getElem?_map, List.getElem?_zipIdx, hs, Option.map_some, Nat.zero_add,
    Option.some.injEq] at hs'
  subst hs'
  refine ⟨rfl, rfl, rfl, rfl, rfl, fun i r => ?_⟩
  have hk := h k s hs i
  simp only
  cases hm : s.recv i with
  | none =>
    cases ho : orig k i with
    | none => simp
    | some o => simp [hm, ho] at hk
  | some m =>
    cases ho : orig k i with
    | none => simp [hm, ho] at hk
    | some o =>
      simp only [hm, ho] at hk
      simp only [Option.map_some]
      exact rxFrame_delivered hk.2.1 hk.1 hk.2.2 r

/-- A tagged frame, a step that delivers it without the tag, and then a timeout. -/
def tagged : Buf := zeros 12 ++ [0x88#8, 0xa8#8, 0x00#8, 0x05#8] ++ [7#8]

/-- One frame is delivered without its tag. -/
def strippedEnv (tpid : Bool) (o : Buf) : Env :=
  Env.mk ⟨true, tpid⟩ (fun _ => true) ⟨0, 0⟩ 100
    [Step.mk 1 ⟨0, 0⟩ (fun _ => true) (fun _ => true) (fun _ => some (strip o)) (fun _ => 0),
     Step.mk 0 ⟨0, 0⟩ (fun _ => false) (fun _ => false) (fun _ => none) (fun _ => 0)] 10

/-- Non-vacuity: the tagged frame is expected and recognised. -/
example : (result (strippedEnv true tagged) [expect tagged none]).ret = some 0 ∧
    (strip tagged).data.length = 13 ∧ Delivers tagged (strip tagged) :=
  ⟨by decide +kernel, by decide +kernel, .stripped (by decide +kernel)⟩

/-- C65 is false: without the tag protocol id in the auxiliary data a service tag becomes a customer tag. -/
theorem C65_false : ¬ C65_statement := by
  intro h
  have h1 := h (strippedEnv false tagged) [expect tagged none] (fun k _ => if k = 0 then some tagged else none) (by
    intro k s hs i
    match k with
    | 0 =>
      simp only [strippedEnv, List.getElem?_cons_zero, Option.some.injEq] at hs
      subst hs
      exact ⟨by decide +kernel, .stripped (by decide +kernel)⟩
    | 1 =>
      simp only [strippedEnv, List.getElem?_cons_succ, List.getElem?_cons_zero, Option.some.injEq] at hs
      subst hs
      simp
    | k + 2 => simp [strippedEnv] at hs)
  have h2 := congrArg (fun o => o.get?.map (·.ret)) h1
  revert h2
  decide +kernel

/-- Also with the tag protocol id: a frame that fills the receive buffer is compared without its tag. -/
theorem C65_large (cfg : Config) (o : Buf) (h : 32768 ≤ o.length) :
    restoreVlan cfg ((strip o).data.take rxBufSize) (strip o).aux = .ok ((o.take 12 ++ o.drop 16).take 32768) := by
  have hdl : (strip o).data.length = o.length - 4 := by
    rw [show (strip o).data = o.take 12 ++ o.drop 16 from rfl, List.length_append, List.length_take, List.length_drop]; omega
  unfold restoreVlan
  rw [strip_aux]
  simp only
  rw [if_neg]
  · rfl
  · rw [List.length_take]
    unfold rxBufSize
    omega

/-! ## C66: the exit status tells success from failure -/

/-- C66 as claimed: the exit status is 0 exactly if the run was possible and there is no message about an error. -/
def C66_statement : Prop :=
  ∀ (w : World) (ms : Int) (caps argv : List CStr) (r : RunRes) (n : Int), argcCmds w ms caps argv = .ok r → r.ret = some n →
    (exitStatus n = 0 ↔ n ≠ -1 ∧ ∀ e ∈ r.events, isProblem e = false)

/-- The return value is −1 (the command line was not understood or a socket could not be opened), or the number of
error messages. -/
theorem ret_counts {w : World} {ms : Int} {caps argv : List CStr} {r : RunRes} {n : Int} (h : argcCmds w ms caps argv = .ok r)
    (hn : r.ret = some n) : n = -1 ∨ n = ((r.events.countP isProblem : Nat) : Int) := by
  unfold argcCmds at h
  rw [Out.bind_eq_ok] at h
  obtain ⟨o, ho, h⟩ := h
  cases o with
  | none =>
    simp only [Out.ok.injEq] at h
    subst h
    simp only [Option.some.injEq] at hn
    exact Or.inl hn.symm
  | some cmds =>
    simp only at h
    rw [Out.bind_eq_ok] at h
    obtain ⟨x, hx, h⟩ := h
    simp only [Out.ok.injEq] at h
    subst h
    simp only at hn ⊢
    have hr := parseCmds_ready ho
    by_cases hu : ∀ c ∈ cmds, unresolved cmds c = false
    · by_cases hopen : ∀ a ∈ ifaces cmds, w.env.canOpen a = true
      · right
        have hc := C57_error_count { w.env with timeoutMs := ms } cmds x hr hu hopen hx
        have hfin : x.status = .finished := by
          apply Classical.byContradiction
          intro hne
          rw [hc.1 hne] at hn
          simp at hn
        obtain ⟨h1, _⟩ := hc.2 hfin
        rw [h1] at hn
        simp only [Option.some.injEq] at hn
        rw [← hn]
        congr 1
        have hno := no_noSuchName hr hu hx
        apply List.countP_congr
        intro e he
        cases e <;> simp [isError, isProblem]
        exact hno _ he _ rfl
      · left
        obtain ⟨a, hf⟩ := Classical.not_forall.mp hopen
        obtain ⟨ha, hf⟩ := Classical.not_imp.mp hf
        have h1 := (C55_sockets { w.env with timeoutMs := ms } cmds x hr hu hx).2.2 ⟨a, ha, by simpa using hf⟩
        rw [h1.1] at hn
        simpa using hn.symm
    · right
      obtain ⟨c, hf⟩ := Classical.not_forall.mp hu
      obtain ⟨hc, hf⟩ := Classical.not_imp.mp hf
      obtain ⟨x', h1, h2, h3, h4, h5, h6, h7⟩ := C54_unknown_names { w.env with timeoutMs := ms } cmds ⟨c, hc, by simpa using hf⟩
      rw [hx] at h1
      simp only [Out.ok.injEq] at h1
      subst h1
      rw [h3] at hn
      simp only [Option.some.injEq] at hn
      rw [← hn]
      congr 1
      rw [List.countP_eq_length_filter, ← unresolved_events, ← h7, ← List.countP_eq_length_filter]
      apply List.countP_congr
      intro e he
      rcases h6 e he with ⟨_, _, _, rfl⟩ | ⟨_, rfl⟩ <;> simp [isProblem]

/-- **C66** (partial): with less than 256 error messages the exit status is 0 exactly if the run was possible and there is
no message about an error. In any case it is the number of error messages modulo 256, or 255 if the run was not
possible. -/
theorem C66_exit_status_partial (w : World) (ms : Int) (caps argv : List CStr) (r : RunRes) (n : Int)
    (h : argcCmds w ms caps argv = .ok r) (hn : r.ret = some n) :
    (n = -1 ∧ exitStatus n = 255 ∨ n ≠ -1 ∧ exitStatus n = r.events.countP isProblem % 256) ∧
    (r.events.countP isProblem < 256 → (exitStatus n = 0 ↔ n ≠ -1 ∧ ∀ e ∈ r.events, isProblem e = false)) := by
  have key : n = -1 ∧ exitStatus n = 255 ∨ n ≠ -1 ∧ exitStatus n = r.events.countP isProblem % 256 := by
    rcases ret_counts h hn with rfl | rfl
    · exact Or.inl ⟨rfl, rfl⟩
    · refine Or.inr ⟨by omega, ?_⟩
      unfold exitStatus
      omega
  refine ⟨key, fun hlt => ?_⟩
  rcases key with ⟨rfl, h2⟩ | ⟨h1, h2⟩
  · rw [h2]; simp
  · rw [h2, Nat.mod_eq_of_lt hlt, List.countP_eq_zero]
    constructor
    · intro h; exact ⟨h1, fun e he => by simpa using h e he⟩
    · intro h e he; simp [h.2 e he]

/-- Everything received within a world. -/
def world (env : Env) : World := ⟨env, false, ⟨0, 0⟩, ⟨0, 0⟩⟩

/-- The result of the commands, if they end normally. -/
def toolResult (w : World) (argv : List CStr) : RunRes := (argcCmds w 100 [] argv).get?.getD { ret := none }

theorem toolResult_ok {w : World} {argv : List CStr} (h : (argcCmds w 100 [] argv).get?.isSome = true) :
    argcCmds w 100 [] argv = .ok (toolResult w argv) := by
  unfold toolResult
  cases he : argcCmds w 100 [] argv with
  | ok r => rfl
  | _ => rw [he] at h; simp [Out.get?] at h

/-- C66 is false: 256 unexpected frames give exit status 0. -/
theorem C66_false : ¬ C66_statement := by
  intro hs
  have h1 := toolResult_ok (w := world (listening (List.replicate 256 [1#8]))) (argv := [c!"rx", c!"e"]) (by decide +kernel)
  have h2 := hs _ _ _ _ _ 256 h1 (by decide +kernel)
  have h3 := h2.1 (by decide)
  revert h3
  decide +kernel

/-- Non-vacuity: one unexpected frame gives exit status 1, a run without traffic 0, a socket that cannot be opened 255. -/
example : (toolResult (world (listening [[1#8]])) [c!"rx", c!"e"]).ret = some 1 ∧
    (toolResult (world (listening [])) [c!"rx", c!"e"]).ret = some 0 ∧
    (toolResult (world { listening [] with canOpen := fun _ => false }) [c!"rx", c!"e"]).ret = some (-1) ∧
    exitStatus 1 = 1 ∧ exitStatus 0 = 0 ∧ exitStatus (-1) = 255 := by decide +kernel

/-! ## C67: printed frames can be fed back -/

theorem writeLoop_length {val : Buf} {dst src n pos : Nat} {b b' : Buf} (h : writeLoop val dst src n pos b = .ok b') :
    b'.length = b.length := by
  induction n generalizing pos b with
  | zero => simp only [writeLoop, Out.ok.injEq] at h; rw [h]
  | succ n ih =>
    unfold writeLoop at h
    simp only [Out.bind_eq_ok] at h
    obtain ⟨v, _, b1, h1, h2⟩ := h
    rw [ih h2]
    unfold bitSet at h1
    split at h1
    · simp only [Out.ok.injEq] at h1; rw [← h1]; simp
    · simp at h1

theorem copyFields_length {mask : Bool} {offset : Nat} {fs : List Field} {b b' : Buf}
    (h : copyFields mask offset fs b = .ok b') : b'.length = b.length := by
  induction fs generalizing b with
  | nil => simp only [copyFields, Out.ok.injEq] at h; rw [h]
  | cons f fs ih =>
    unfold copyFields at h
    split at h
    · simp only [Out.ok.injEq] at h; rw [h]
    · split at h
      · rw [Out.bind_eq_ok] at h
        obtain ⟨b1, h1, h2⟩ := h
        rw [ih h2]
        unfold writeField at h1
        split at h1
        · exact writeLoop_length h1
        · simp at h1
      · exact ih h

theorem copyHdrs_length {mask : Bool} {hs : List Hdr} {o : Nat} {b b' : Buf} (h : copyHdrs mask hs o b = .ok b') :
    b'.length = b.length := by
  induction hs generalizing o b with
  | nil => simp only [copyHdrs, Out.ok.injEq] at h; rw [h]
  | cons x hs ih =>
    unfold copyHdrs at h
    rw [Out.bind_eq_ok] at h
    obtain ⟨b1, h1, h2⟩ := h
    rw [ih h2]
    exact copyFields_length h1

theorem frameToBuf_length {f f' : Frame} {b : Buf} (h : frameToBuf f = .ok (f', b)) : 60 ≤ b.length := by
  unfold frameToBuf at h
  simp only [Out.bind_eq_ok] at h
  obtain ⟨st, _, b1, h2, h3⟩ := h
  simp only [Out.ok.injEq, Prod.mk.injEq] at h3
  rw [← h3.2, copyHdrs_length h2]
  simp only [balloc, List.length_replicate, frameSize]
  split <;> omega

theorem printHexStr_length (b : Buf) : (printHexStr b).length = 2 * b.length := by
  induction b with
  | nil => rfl
  | cons x b ih => simp only [printHexStr, List.length_cons, ih]; omega

/-- The words `data hex T` where `T` is the printed form of `b` describe a frame with the bytes `b`. -/
theorem data_words {b : Buf} (h60 : 60 ≤ b.length) (hlt : b.length < 2 ^ 31) :
    ∃ f, FrameWords [c!"data", c!"hex", printHexStr b] f b none := by
  have hne : b ≠ [] := by rintro rfl; simp at h60
  have hs : ∀ p ∈ [([c!"hex", printHexStr b], b)], Segment p.1 p.2 := by
    intro p hp
    rw [List.mem_singleton] at hp
    subst hp
    exact .hex (printHexStr_text b) hne
  have hd := data_header 0 false hs (by simp) (rest := []) (by simp)
  have ht : HDR_PAYLOAD ∈ hdrTmpls := by decide +kernel
  have hf : findTmpl c!"data" = some HDR_PAYLOAD := findTmpl_all _ ht
  have hw : ShortWords [c!"data", c!"hex", printHexStr b] := by
    intro w hw
    simp only [List.mem_cons, List.not_mem_nil, or_false] at hw
    rcases hw with rfl | rfl | rfl
    · decide
    · decide
    · have := printHexStr_length b
      omega
  have hp : ∃ h : Hdr, h.name = c!"data" ∧
      argcFrame [c!"data", c!"hex", printHexStr b] = .ok (some (3, { stack := [h], padding := 0, hasMask := false })) := by
    refine ⟨{ dataShape b.length b.length with
      fields := [{ name := c!"hex", width := b.length * 8, val := some b }] }, rfl, ?_⟩
    · unfold argcFrame
      rw [if_neg (by simp [frameStackMax]), List.length_cons, afl_step, if_neg (by decide), hf]
      simp only
      have e : pushHdr frameStackMax {} HDR_PAYLOAD = .ok { stack := [hdrCopy HDR_PAYLOAD] } := rfl
      rw [e, Out.ok_bind]
      have e2 : segsWords [([c!"hex", printHexStr b], b)] ++ [] = [c!"hex", printHexStr b] := rfl
      rw [e2] at hd
      have e3 : segsBytes [([c!"hex", printHexStr b], b)] = b := by simp [segsBytes]
      rw [hd, Out.ok_bind, e3]
      rfl
  obtain ⟨h, hn, hp⟩ := hp
  have htame : ∀ x ∈ [h], Tame x := by
    intro x hx
    rw [List.mem_singleton] at hx
    subst hx
    refine ⟨fun e => ?_, fun e => ?_⟩ <;> exact absurd (hn.symm.trans e) (by decide)
  rcases C16_own_bytes_partial _ _ _ hw hp htame with ⟨f', b', h1, h2, h3, h4⟩ | ⟨_, x, hx, hm⟩
  · have hB : Built [c!"data", c!"hex", printHexStr b] { stack := [h], padding := 0, hasMask := false } f' b' :=
      ⟨⟨hw, ⟨3, hp⟩, h1⟩, htame⟩
    obtain ⟨x', hx'⟩ := List.length_eq_one_iff.mp (show f'.stack.length = 1 from h2)
    have h5 := C71_payload_on_the_wire (pre := []) (rest := []) (f0 := {}) (segs := [([c!"hex", printHexStr b], b)]) rfl
      (by intro h hh; simp at hh) hs (by simp) (by simp) hB.toSent [] [] [] [] h x' ⟨rfl, by rw [hx']; rfl, rfl⟩ rfl
    have e3 : segsBytes [([c!"hex", printHexStr b], b)] = b := by simp [segsBytes]
    rw [e3] at h5
    have h6 := (C15_frame_bytes _ _ _ h1 h3).2
    have e4 : totalSize f'.stack = b.length := by
      rw [hx', ← h5.1]
      simp [totalSize]
    have e5 : b' = b := by
      rw [← h5.2, h5.1]
      have : b'.length = b.length := by rw [h6, e4]; omega
      rw [← this]
      simp [slice, totalSize]
    refine ⟨f', by simp, { stack := [h], padding := 0, hasMask := false }, hp, by rw [h1, e5], Or.inl ⟨?_, rfl⟩⟩
    unfold frameToBuf at h1
    simp only [Out.bind_eq_ok] at h1
    obtain ⟨st, _, b1, _, h7⟩ := h1
    simp only [Out.ok.injEq, Prod.mk.injEq] at h7
    rw [← h7.1]
  · rw [List.mem_singleton] at hx
    subst hx
    exact absurd (hn.symm.trans hm) (by decide)

/-- A line with the command `hex FRAME` only. -/
theorem hex_line (w : World) (ms : Int) {ws : List CStr} {f : Frame} {b : Buf} (hw : FrameWords ws f b none) :
    argcCmds w ms [] (c!"hex" :: ws) = .ok { ret := some 0, events := [.hex b none] } := by
  have hl : ws.length ≤ 100 := by
    obtain ⟨_, f0, h1, _⟩ := hw
    unfold argcFrame at h1
    split at h1
    · simp at h1
    · rename_i h; unfold frameStackMax at h; omega
  have hp := C52_commands_partial w.env.cfg.hasPcap [(c!"hex" :: ws, { type := .hex, frame := some f, buf := some b, mask := none })]
    (by
      intro p hp
      rw [List.mem_singleton] at hp
      subst hp
      exact .frame (hd := [c!"hex"]) .hex hw) trivial (by simp only [allWords, List.flatMap_cons, List.flatMap_nil, List.append_nil, List.length_cons]; omega)
  have e : allWords [(c!"hex" :: ws, ({ type := .hex, frame := some f, buf := some b, mask := none } : Cmd))] = c!"hex" :: ws := by
    simp [allWords]
  rw [e] at hp
  unfold argcCmds
  rw [hp, Out.ok_bind]
  simp only [List.map_cons, List.map_nil]
  have hx : execCmds { w.env with timeoutMs := ms } [{ type := .hex, frame := some f, buf := some b, mask := none }] =
      .ok ⟨some 0, .finished, [], [.hex b none]⟩ := by
    have h1 : pairNames [{ type := .hex, frame := some f, buf := some b, mask := none }]
        [{ type := .hex, frame := some f, buf := some b, mask := none }] =
        ([{ type := .hex, frame := some f, buf := some b, mask := none }], []) := rfl
    unfold execCmds
    rw [h1]
    simp only [ne_eq, not_true_eq_false, if_false]
    have h2 : execResolved { w.env with timeoutMs := ms } [{ type := .hex, frame := some f, buf := some b, mask := none }] =
        .ok ⟨some 0, .finished, [], [.hex b none]⟩ := by
      unfold execResolved
      have h3 : ∀ cfg : Config, pcapAll cfg [{ type := .hex, frame := some f, buf := some b, mask := none }] = .ok [] := by
        intro cfg; unfold pcapAll; split <;> rfl
      rw [h3, Out.ok_bind]
      have h4 : hexEvents [{ type := .hex, frame := some f, buf := some b, mask := none }] = .ok [.hex b none] := rfl
      have h5 : mapCmds [{ type := .hex, frame := some f, buf := some b, mask := none }] [] = .ok [] := rfl
      have h6 : ∀ co, openAll co [] = .ok ([], true) := fun _ => rfl
      rw [h4, Out.ok_bind, h5, Out.ok_bind, h6, Out.ok_bind]
      simp only [not_true_eq_false, if_false]
      have h7 : ∀ fuel tend hist left, mainLoop w.env.cfg fuel tend hist left [] = .ok (.finished, [], []) := by
        intro fuel tend hist left
        cases hist <;> simp [mainLoop, wantsIo]
      rw [h7, Out.ok_bind]
      rfl
    rw [h2]
    rfl
  rw [hx, Out.ok_bind]
  rfl

/-- **C67**: `hex FRAME` for a frame without ignored parts prints the bytes of the frame as the text `T` and a newline;
`hex data hex T` then prints the same. -/
theorem C67_fed_back (w : World) (ms : Int) {ws : List CStr} {f : Frame} {b : Buf} (hw : FrameWords ws f b none)
    (hlt : b.length < 2 ^ 31) :
    ∃ T r r', argcCmds w ms [] (c!"hex" :: ws) = .ok r ∧ HexText T b ∧ stdoutOf r.events = T ++ nl ∧
      argcCmds w ms [] [c!"hex", c!"data", c!"hex", T] = .ok r' ∧ stdoutOf r'.events = stdoutOf r.events ∧
      stderrOf r.events = [] ∧ stderrOf r'.events = [] ∧ r.ret = some 0 ∧ r'.ret = some 0 := by
  have h60 : 60 ≤ b.length := by
    obtain ⟨_, f0, _, h, _⟩ := hw
    exact frameToBuf_length h
  obtain ⟨f', hw'⟩ := data_words h60 hlt
  exact ⟨printHexStr b, _, _, hex_line w ms hw, printHexStr_text b, by simp [stdoutOf, eventText], hex_line w ms hw', rfl,
    rfl, rfl, rfl, rfl⟩

/-- Non-vacuity. -/
example : ∃ f b, FrameWords [c!"eth", c!"ipv4"] f b none := frameWords_of (by decide +kernel)

end Ef.Props
