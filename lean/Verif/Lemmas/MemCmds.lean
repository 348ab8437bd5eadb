import Verif.Lemmas.MemFill

/-! # Commands with pointers -/

namespace Ef

/-! ## Frames of the command line -/

/-- Fields of the static headers have no values; headers for payload have a field. -/
theorem tmpls_free : hdrTmpls.all (fun h =>
    match h.fields with
    | [] => decide (h.parser ≠ .payload)
    | f :: _ => f.val.isNone) = true := by decide +kernel

theorem findTmpl_erase {t : PTmpls} (ht : TmplsOk t) (w : CStr) :
    findTmpl w = (t.tmpls.find? (fun h => h.base.name == w)).map PHdr.erase := by
  unfold findTmpl
  rw [← ht.tmpls, find_map_name]

theorem firstFree_tmpl {t : PTmpls} (ht : TmplsOk t) {w : CStr} {tm h : PHdr}
    (hf : t.tmpls.find? (fun h => h.base.name == w) = some tm) (he : h.erase = tm.erase) :
    h.base.parser = .payload → FirstFree h := by
  intro hp
  have hm : h.erase ∈ hdrTmpls := by
    rw [he, ← ht.tmpls]
    exact List.mem_map_of_mem (List.mem_of_find?_eq_some hf)
  have := List.all_eq_true.1 tmpls_free _ hm
  cases hfs : h.fields with
  | nil =>
    have e : h.erase.fields = [] := by simp [PHdr.erase, hfs]
    rw [e] at this
    have hq : h.erase.parser ≠ .payload := by simpa using this
    exact absurd hp hq
  | cons f fs =>
    have e : h.erase.fields = f.erase :: fs.map PField.erase := by simp [PHdr.erase, hfs]
    rw [e] at this
    refine ⟨f, fs, hfs, ?_⟩
    cases hv : f.val with
    | none => rfl
    | some v => simp [PField.erase, hv] at this

/-- A parsed frame as a value. -/
def eraseAF (x : PFrame × Option Nat) : Option (Nat × Frame) := x.2.map (fun n => (n, x.1.erase))

theorem tri_argcFrameLoop {F : List Ptr} {t : PTmpls} (ht : TmplsOk t) (hT : ∀ p ∈ t.own, p ∈ F) (cap fuel : Nat)
    (f : PFrame) (i : Nat) (argv : List CStr) :
    Tri f.own F (argcFrameLoopM t cap fuel f i argv) eraseAF (argcFrameLoop cap fuel f.erase i argv)
      (fun x => x.1.own) := by
  induction fuel generalizing f i argv with
  | zero => exact Tri.pure rfl (by simp)
  | succ fuel ih =>
    unfold argcFrameLoopM argcFrameLoop
    cases argv with
    | nil => exact Tri.pure rfl (by simp)
    | cons w rest =>
      simp only
      by_cases hw : w = c!"help"
      · rw [if_pos hw, if_pos hw]
        exact Tri.pure rfl (by simp)
      · rw [if_neg hw, if_neg hw, findTmpl_erase ht]
        cases hf : t.tmpls.find? (fun h => h.base.name == w) with
        | none => exact Tri.pure rfl (by simp)
        | some tm =>
          simp only [Option.map, pushHdr]
          have hlen : f.erase.stack.length = f.stack.length := by simp [PFrame.erase]
          rw [hlen]
          by_cases hc : f.stack.length < cap
          · rw [if_pos hc, if_pos hc]
            have hin : ∀ p ∈ tm.own, p ∈ f.own ++ F := fun p hp => by
              have := mem_ownHdrs (List.mem_of_find?_eq_some hf) p hp
              simp [hT p (by simp [PTmpls.own, this])]
            refine Tri.stepV [] f.own (tri_hdrClone tm hin) (by cnt) (fun h hh => ?_)
            refine Tri.useS (.inl (by simp [PFrame.own])) ?_
            have hpad : f.erase.padding = f.base.padding := rfl
            have hmask : f.erase.hasMask = f.base.hasMask := rfl
            show Tri _ _ _ _ (runHdrParser (hdrCopy tm.erase) f.erase.padding f.erase.hasMask rest >>= _) _
            rw [hdrCopy_same, ← hh, hpad, hmask]
            refine Tri.bind h.own f.own (tri_runHdrParser h f.base.padding f.base.hasMask rest
              (firstFree_tmpl ht hf hh)) (by cnt) (fun r _ => ?_)
            obtain ⟨h', r⟩ := r
            cases r with
            | none =>
              refine Tri.pure rfl ?_
              intro p
              simp only [PFrame.own, ownHdrs_append, ownHdrs, List.append_nil, List.count_append, List.count_cons]
              omega
            | some r =>
              obtain ⟨n, pad, m⟩ := r
              simp only [eraseHP, Option.map]
              have key := ih { f with stack := f.stack ++ [h'], base := { f.base with padding := pad, hasMask := m } }
                (i + 1 + n) (rest.drop n)
              rw [show (⟨f.self, { f.base with padding := pad, hasMask := m }, f.stack ++ [h']⟩ : PFrame).erase =
                { f.erase with stack := f.erase.stack ++ [h'.erase], padding := pad, hasMask := m } from by
                  simp [PFrame.erase]] at key
              refine key.congr ?_ (by simp)
              intro p
              simp only [PFrame.own, ownHdrs_append, ownHdrs, List.append_nil, List.count_append, List.count_cons]
              omega
          · rw [if_neg hc, if_neg hc]
            exact Tri.fail _ _ (fun a ha => by cases ha) rfl

theorem tri_argcFrame {F : List Ptr} {t : PTmpls} (ht : TmplsOk t) (hT : ∀ p ∈ t.own, p ∈ F) (p : Ptr)
    (argv : List CStr) :
    Tri [p] F (argcFrameM t ⟨p, {}, []⟩ argv) eraseAF (argcFrame argv) (fun x => x.1.own) := by
  unfold argcFrameM argcFrame
  by_cases hl : argv.length > frameStackMax
  · rw [if_pos hl, if_pos hl]
    exact Tri.pure rfl (by simp [PFrame.own, ownHdrs])
  · rw [if_neg hl, if_neg hl]
    refine Tri.useS (.inl (by simp)) ?_
    exact (tri_argcFrameLoop ht hT frameStackMax argv.length ⟨p, {}, []⟩ 0 argv).congr
      (by simp [PFrame.own, ownHdrs]) (by simp)

/-! ## Commands -/

theorem tri_cmdDestruct {F : List Ptr} (c : PCmd) :
    Tri c.own F (cmdDestructM c) (fun _ => ()) (.ok ()) (fun _ => []) := by
  unfold cmdDestructM
  refine Tri.dropS (ownBuf c.name) (ownBuf c.arg0 ++ ownFrame c.frame ++ ownBuf c.buf ++ ownBuf c.mask)
    (tri_bfree _) (by intro p; simp only [PCmd.own, List.count_append]; omega) ?_
  refine Tri.dropS (ownBuf c.arg0) (ownFrame c.frame ++ ownBuf c.buf ++ ownBuf c.mask)
    (tri_bfree _) (by intro p; simp only [List.count_append]; omega) ?_
  have hfr : Tri (ownFrame c.frame) ((ownBuf c.buf ++ ownBuf c.mask) ++ F)
      (match c.frame with
        | none => Pure.pure ()
        | some f => frameFreeM f) (fun _ => ()) (.ok ()) (fun _ => []) := by
    cases c.frame with
    | none => exact Tri.pure rfl (by simp [ownFrame])
    | some f => exact tri_frameFree f
  refine Tri.dropS (ownFrame c.frame) (ownBuf c.buf ++ ownBuf c.mask) hfr
    (by intro p; simp only [List.count_append]; omega) ?_
  refine Tri.dropS (ownBuf c.buf) (ownBuf c.mask) (tri_bfree _) (by intro p; simp only [List.count_append]) ?_
  exact tri_bfree _

theorem tri_cmdsDestruct {F : List Ptr} (cs : List PCmd) :
    Tri (ownCmds cs) F (cmdsDestructM cs) (fun _ => ()) (.ok ()) (fun _ => []) := by
  induction cs with
  | nil => exact Tri.pure rfl (by simp [ownCmds])
  | cons c cs ih =>
    exact Tri.dropS c.own (ownCmds cs) (tri_cmdDestruct c) (by intro p; simp [ownCmds, List.count_append]) ih

/-- Result of `argc_cmd` as a value. -/
def PCmdRes.erase : PCmdRes → CmdRes
  | .err => .err
  | .stop => .stop
  | .cmd c used => .cmd c.erase used

/-- Blocks of the result of `argc_cmd`. -/
def PCmdRes.own : PCmdRes → List Ptr
  | .cmd c _ => c.own
  | _ => []

/-- A command before its frame is read. -/
structure NoFrame (c : PCmd) : Prop where
  frame : c.frame = none
  buf : c.buf = none
  mask : c.mask = none

theorem NoFrame.own {c : PCmd} (h : NoFrame c) : c.own = ownBuf c.name ++ ownBuf c.arg0 := by
  simp [PCmd.own, h.frame, h.buf, h.mask, ownBuf, ownFrame]

theorem tri_argcCmdFrame {F : List Ptr} {t : PTmpls} (ht : TmplsOk t) (hT : ∀ p ∈ t.own, p ∈ F) (c : PCmd)
    (hc : NoFrame c) (i : Nat) (argv : List CStr) :
    Tri c.own F (argcCmdFrameM t c i argv) PCmdRes.erase (argcCmdFrame c.erase i argv) PCmdRes.own := by
  unfold argcCmdFrameM argcCmdFrame
  refine Tri.allocS (fun p => ?_)
  refine Tri.bind [p] c.own (tri_argcFrame ht (fun q hq => by simp [hT q hq]) p argv) (by cnt) (fun r _ => ?_)
  obtain ⟨f, r⟩ := r
  have hown : ∀ (f : PFrame) (p : Ptr), ({ c with frame := some f } : PCmd).own.count p = f.own.count p + c.own.count p := by
    intro f p
    rw [hc.own]
    simp only [PCmd.own, hc.buf, hc.mask, ownBuf_none, ownFrame_some, List.append_nil, List.count_append]
    omega
  cases r with
  | none =>
    exact Tri.dropS ({ c with frame := some f } : PCmd).own [] (tri_cmdDestruct _)
      (by intro p; rw [hown]; simp) (Tri.pure rfl (by simp [PCmdRes.own]))
  | some n =>
    simp only [eraseAF, Option.map]
    by_cases hn : n = 0
    · rw [if_pos hn, if_pos hn]
      have hty : c.erase.type = c.base.type := rfl
      rw [hty]
      by_cases hr : c.base.type = .rx
      · rw [if_pos hr, if_pos hr]
        exact Tri.dropS f.own c.own (tri_frameFree f) (by intro p; simp) (Tri.pure rfl (by simp [PCmdRes.own]))
      · rw [if_neg hr, if_neg hr]
        exact Tri.dropS ({ c with frame := some f } : PCmd).own [] (tri_cmdDestruct _)
          (by intro p; rw [hown]; simp) (Tri.pure rfl (by simp [PCmdRes.own]))
    · rw [if_neg hn, if_neg hn]
      refine Tri.bind f.own c.own (tri_frameToBuf ht f (fun q hq => by simp [hT q hq])) (by intro p; simp)
        (fun r _ => ?_)
      obtain ⟨f', b⟩ := r
      rw [show eraseFB (f', b) = (f'.erase, b.data) from rfl]
      dsimp only
      by_cases hk : f'.base.hasMask = true
      · rw [if_pos hk, if_pos (show f'.erase.hasMask = true from hk)]
        refine Tri.bind [] (f'.own ++ [b.ptr] ++ c.own) (tri_frameMaskToBuf f' (fun p hp => by simp [hp]))
          (by intro p; simp [ownFB]) (fun m _ => ?_)
        refine Tri.pure rfl ?_
        intro p
        rw [hc.own]
        simp only [PCmdRes.own, PCmd.own, ownBuf_some, ownFrame_some, List.count_append, List.count_cons,
          List.count_nil]
        omega
      · rw [if_neg hk, if_neg (show ¬ f'.erase.hasMask = true from hk)]
        refine Tri.pure rfl ?_
        intro p
        rw [hc.own]
        simp only [PCmdRes.own, PCmd.own, ownBuf_some, ownFrame_some, List.count_append, List.count_cons,
          List.count_nil, hc.mask, ownBuf_none, ownFB]
        omega

theorem tri_argcCmdRest {F : List Ptr} {t : PTmpls} (ht : TmplsOk t) (hT : ∀ p ∈ t.own, p ∈ F) (c : PCmd)
    (hc : NoFrame c) (hn : c.base.type ≠ .name → c.name = none) (i : Nat) (argv : List CStr) :
    Tri c.own F (argcCmdRestM t c i argv) PCmdRes.erase (argcCmdRest c.erase i argv) PCmdRes.own := by
  unfold argcCmdRestM argcCmdRest
  match argv with
  | [] => exact tri_argcCmdFrame ht hT c hc i _
  | [_] => exact tri_argcCmdFrame ht hT c hc i _
  | w :: n :: r =>
    simp only
    have hty : c.erase.type = c.base.type := rfl
    rw [hty]
    by_cases hw : w = c!"name" ∧ c.base.type ≠ .name
    · rw [if_pos hw, if_pos hw]
      refine Tri.stepV [] c.own (tri_balloc _) (by cnt) (fun b hb => ?_)
      refine Tri.pure ?_ ?_
      · simp only [PCmdRes.erase, PCmd.erase, Option.map, hb]
      · intro p
        simp only [PCmdRes.own, PCmd.own, hn hw.2, ownBuf_some, ownBuf_none, List.count_append, List.count_nil]
        omega
    · rw [if_neg hw, if_neg hw]
      exact tri_argcCmdFrame ht hT c hc i _

theorem tri_argcCmd {F : List Ptr} {t : PTmpls} (ht : TmplsOk t) (hT : ∀ p ∈ t.own, p ∈ F) (hasPcap : Bool)
    (argv : List CStr) :
    Tri [] F (argcCmdM t hasPcap argv) PCmdRes.erase (argcCmd hasPcap argv) PCmdRes.own := by
  have rest : ∀ (c : PCmd) (c' : Cmd) (L : List Ptr) (i : Nat) (argv : List CStr), NoFrame c →
      (c.base.type ≠ .name → c.name = none) → c.erase = c' → (∀ p, L.count p = c.own.count p) →
      Tri L F (argcCmdRestM t c i argv) PCmdRes.erase (argcCmdRest c' i argv) PCmdRes.own := by
    intro c c' L i argv h1 h2 h3 h4
    rw [← h3]
    exact (tri_argcCmdRest ht hT c h1 h2 i argv).congr h4 (fun _ _ => rfl)
  unfold argcCmdM argcCmd
  cases argv with
  | nil => exact Tri.pure rfl (by simp [PCmdRes.own])
  | cons w r =>
    simp only
    cases cmdWord hasPcap w with
    | help => exact Tri.pure rfl (by simp [PCmdRes.own])
    | other => exact Tri.pure rfl (by simp [PCmdRes.own])
    | cmd ty =>
      cases r with
      | nil => exact Tri.pure rfl (by simp [PCmdRes.own])
      | cons a r' =>
        simp only
        cases ty with
        | name =>
          refine Tri.stepV [] [] (tri_balloc a) (by cnt) (fun b hb => ?_)
          exact rest _ _ _ _ _ ⟨rfl, rfl, rfl⟩ (fun h => absurd rfl h)
            (by simp only [PCmd.erase, PCmd.start, Option.map, hb]) (by simp [PCmd.own, PCmd.start, ownBuf, ownFrame])
        | hex =>
          exact rest _ _ _ _ _ ⟨rfl, rfl, rfl⟩ (fun _ => rfl) rfl (by simp [PCmd.own, PCmd.start, ownBuf, ownFrame])
        | pcap =>
          refine Tri.stepV [] [] (tri_balloc a) (by cnt) (fun b hb => ?_)
          exact rest _ _ _ _ _ ⟨rfl, rfl, rfl⟩ (fun _ => rfl)
            (by simp only [PCmd.erase, PCmd.start, Option.map, hb]) (by simp [PCmd.own, PCmd.start, ownBuf, ownFrame])
        | rx =>
          refine Tri.stepV [] [] (tri_balloc a) (by cnt) (fun b hb => ?_)
          exact rest _ _ _ _ _ ⟨rfl, rfl, rfl⟩ (fun _ => rfl)
            (by simp only [PCmd.erase, PCmd.start, Option.map, hb]) (by simp [PCmd.own, PCmd.start, ownBuf, ownFrame])
        | tx =>
          refine Tri.stepV [] [] (tri_balloc a) (by cnt) (fun b hb => ?_)
          cases r' with
          | nil => exact Tri.fail _ _ (fun a ha => by cases ha) rfl
          | cons x r'' =>
            simp only
            by_cases hx : x = c!"rep" ∨ x = c!"repeat"
            · rw [if_pos hx, if_pos hx]
              cases r'' with
              | nil => exact Tri.fail _ _ (fun a ha => by cases ha) rfl
              | cons y r3 =>
                exact rest _ _ _ _ _ ⟨rfl, rfl, rfl⟩ (fun _ => rfl)
                  (by simp only [PCmd.erase, PCmd.start, Option.map, hb])
                  (by simp [PCmd.own, PCmd.start, ownBuf, ownFrame])
            · rw [if_neg hx, if_neg hx]
              exact rest _ _ _ _ _ ⟨rfl, rfl, rfl⟩ (fun _ => rfl)
                (by simp only [PCmd.erase, PCmd.start, Option.map, hb])
                (by simp [PCmd.own, PCmd.start, ownBuf, ownFrame])

/-- Commands and remaining words as values. -/
def eraseCL (x : Option (List PCmd × List CStr)) : Option (List Cmd × List CStr) :=
  x.map (fun r => (r.1.map PCmd.erase, r.2))

/-- Their blocks. -/
def ownCL : Option (List PCmd × List CStr) → List Ptr
  | none => []
  | some r => ownCmds r.1

theorem tri_argcCmdsLoop {F : List Ptr} {t : PTmpls} (ht : TmplsOk t) (hT : ∀ p ∈ t.own, p ∈ F) (hasPcap : Bool)
    (slots : Nat) (argv : List CStr) :
    Tri [] F (argcCmdsLoopM t hasPcap slots argv) eraseCL (argcCmdsLoop hasPcap slots argv) ownCL := by
  induction slots generalizing argv F with
  | zero => exact Tri.pure rfl (by simp [ownCL, ownCmds])
  | succ slots ih =>
    unfold argcCmdsLoopM argcCmdsLoop
    by_cases ha : argv = []
    · rw [if_pos ha, if_pos ha]
      exact Tri.pure rfl (by simp [ownCL, ownCmds])
    · rw [if_neg ha, if_neg ha]
      refine Tri.bind [] [] (tri_argcCmd ht (fun q hq => by simp [hT q hq]) hasPcap argv) (by cnt) (fun r _ => ?_)
      cases r with
      | err => exact Tri.pure rfl (by simp [ownCL, PCmdRes.own])
      | stop => exact Tri.pure rfl (by simp [ownCL, ownCmds, PCmdRes.own])
      | cmd c used =>
        simp only [PCmdRes.erase]
        refine Tri.bind [] c.own (ih (fun q hq => by simp [hT q hq]) _) (by simp [PCmdRes.own]) (fun r _ => ?_)
        cases r with
        | none =>
          exact Tri.dropS c.own [] (Tri.loseAll _ _) (by simp [ownCL]) (Tri.pure rfl (by simp [ownCL]))
        | some r =>
          obtain ⟨cs, rest⟩ := r
          refine Tri.pure rfl ?_
          intro p
          simp only [ownCL, ownCmds, List.count_append]
          omega

/-- Parsed commands as values. -/
def erasePC (x : Option (List PCmd)) : Option (List Cmd) := x.map (List.map PCmd.erase)

/-- Their blocks. -/
def ownPC : Option (List PCmd) → List Ptr
  | none => []
  | some r => ownCmds r

theorem tri_parseCmds {F : List Ptr} {t : PTmpls} (ht : TmplsOk t) (hT : ∀ p ∈ t.own, p ∈ F) (hasPcap : Bool)
    (argv : List CStr) :
    Tri [] F (parseCmdsM t hasPcap argv) erasePC (parseCmds hasPcap argv) ownPC := by
  unfold parseCmdsM parseCmds
  refine Tri.bind [] [] (tri_argcCmdsLoop ht (fun q hq => by simp [hT q hq]) hasPcap 100 argv) (by cnt) (fun r _ => ?_)
  cases r with
  | none => exact Tri.pure rfl (by simp [ownCL, ownPC])
  | some r =>
    obtain ⟨cs, rest⟩ := r
    simp only [eraseCL, Option.map]
    by_cases hr : rest = []
    · rw [if_pos hr, if_pos hr]
      exact Tri.pure rfl (by simp [ownCL, ownPC])
    · rw [if_neg hr, if_neg hr]
      exact Tri.dropS (ownCmds cs) [] (Tri.loseAll _ _) (by simp [ownCL]) (Tri.pure rfl (by simp [ownPC]))

/-! ## Parsed commands have a frame or nothing -/

/-- A command without a serialised frame has no frame and no mask. -/
def BufOk (c : Cmd) : Prop := c.buf = none → c.frame = none ∧ c.mask = none

theorem argcCmdFrame_bufOk {c : Cmd} (hc : c.frame = none ∧ c.mask = none) {i : Nat} {argv : List CStr} {c' : Cmd}
    {u : Nat} (h : argcCmdFrame c i argv = .ok (.cmd c' u)) : BufOk c' := by
  unfold argcCmdFrame at h
  cases ha : argcFrame argv with
  | ub u => rw [ha] at h; cases h
  | abort => rw [ha] at h; cases h
  | exit u => rw [ha] at h; cases h
  | ok r =>
    rw [ha] at h
    replace h : (match r with
      | none => Out.ok CmdRes.err
      | some (n, f) => _) = _ := h
    cases r with
    | none => cases h
    | some r =>
      obtain ⟨n, f⟩ := r
      simp only at h
      split at h
      · split at h
        · cases h
          exact fun _ => hc
        · cases h
      · cases hb : frameToBuf f with
        | ub u => rw [hb] at h; cases h
        | abort => rw [hb] at h; cases h
        | exit u => rw [hb] at h; cases h
        | ok r =>
          obtain ⟨f', b⟩ := r
          rw [hb] at h
          replace h : (if f'.hasMask = true then _ else _) = _ := h
          split at h
          · cases hm : frameMaskToBuf f' with
            | ub u => rw [hm] at h; cases h
            | abort => rw [hm] at h; cases h
            | exit u => rw [hm] at h; cases h
            | ok m =>
              rw [hm] at h
              cases h
              intro hb
              cases hb
          · cases h
            intro hb
            cases hb

theorem argcCmdRest_bufOk {c : Cmd} (hc : c.frame = none ∧ c.mask = none) {i : Nat} {argv : List CStr} {c' : Cmd}
    {u : Nat} (h : argcCmdRest c i argv = .ok (.cmd c' u)) : BufOk c' := by
  unfold argcCmdRest at h
  split at h
  · split at h
    · cases h
      exact fun _ => hc
    · exact argcCmdFrame_bufOk hc h
  · exact argcCmdFrame_bufOk hc h

theorem argcCmd_bufOk {hasPcap : Bool} {argv : List CStr} {c' : Cmd}
    {u : Nat} (h : argcCmd hasPcap argv = .ok (.cmd c' u)) : BufOk c' := by
  unfold argcCmd at h
  cases argv with
  | nil => cases h
  | cons w r =>
    simp only at h
    cases hw : cmdWord hasPcap w with
    | help => rw [hw] at h; cases h
    | other => rw [hw] at h; cases h
    | cmd ty =>
      rw [hw] at h
      cases r with
      | nil => cases h
      | cons a r' =>
        simp only at h
        cases ty with
        | name => exact argcCmdRest_bufOk ⟨rfl, rfl⟩ h
        | hex => exact argcCmdRest_bufOk ⟨rfl, rfl⟩ h
        | pcap => exact argcCmdRest_bufOk ⟨rfl, rfl⟩ h
        | rx => exact argcCmdRest_bufOk ⟨rfl, rfl⟩ h
        | tx =>
          simp only at h
          cases r' with
          | nil => cases h
          | cons x r'' =>
            simp only at h
            split at h
            · cases r'' with
              | nil => cases h
              | cons y r3 => exact argcCmdRest_bufOk ⟨rfl, rfl⟩ h
            · exact argcCmdRest_bufOk ⟨rfl, rfl⟩ h

theorem argcCmdsLoop_bufOk {hasPcap : Bool} {slots : Nat} {argv : List CStr} {cs : List Cmd} {rest : List CStr}
    (h : argcCmdsLoop hasPcap slots argv = .ok (some (cs, rest))) : ∀ c ∈ cs, BufOk c := by
  induction slots generalizing argv cs rest with
  | zero => cases h; intro c hc; cases hc
  | succ slots ih =>
    unfold argcCmdsLoop at h
    split at h
    · cases h; intro c hc; cases hc
    · cases ha : argcCmd hasPcap argv with
      | ub u => rw [ha] at h; cases h
      | abort => rw [ha] at h; cases h
      | exit u => rw [ha] at h; cases h
      | ok r =>
        rw [ha] at h
        cases r with
        | err => cases h
        | stop => cases h; intro c hc; cases hc
        | cmd c used =>
          replace h : (argcCmdsLoop hasPcap slots (argv.drop used) >>= _) = _ := h
          cases hl : argcCmdsLoop hasPcap slots (argv.drop used) with
          | ub u => rw [hl] at h; cases h
          | abort => rw [hl] at h; cases h
          | exit u => rw [hl] at h; cases h
          | ok r =>
            rw [hl] at h
            cases r with
            | none => cases h
            | some r =>
              obtain ⟨cs', rest'⟩ := r
              cases h
              intro x hx
              cases hx with
              | head => exact argcCmd_bufOk ha
              | tail _ hx => exact ih hl x hx

theorem parseCmds_bufOk {hasPcap : Bool} {argv : List CStr} {cs : List Cmd}
    (h : parseCmds hasPcap argv = .ok (some cs)) : ∀ c ∈ cs, BufOk c := by
  unfold parseCmds at h
  cases hl : argcCmdsLoop hasPcap 100 argv with
  | ub u => rw [hl] at h; cases h
  | abort => rw [hl] at h; cases h
  | exit u => rw [hl] at h; cases h
  | ok r =>
    rw [hl] at h
    cases r with
    | none => cases h
    | some r =>
      obtain ⟨cs', rest'⟩ := r
      replace h : (if rest' = [] then Out.ok (some cs') else Out.ok none) = _ := h
      split at h
      · cases h
        exact argcCmdsLoop_bufOk hl
      · cases h

/-! ## Execution -/

theorem lookupName_erase (n : CStr) (cs : List PCmd) :
    lookupName n (cs.map PCmd.erase) = (lookupNameP n cs).map PCmd.erase := by
  induction cs with
  | nil => rfl
  | cons c cs ih =>
    simp only [List.map_cons, lookupName, lookupNameP]
    have h1 : c.erase.type = c.base.type := rfl
    have h2 : c.erase.buf.isSome = c.buf.isSome := by simp [PCmd.erase]
    have h3 : c.erase.name = c.name.map (·.data) := rfl
    rw [h1, h2, h3, ih]
    split <;> rfl

theorem mem_lookupNameP {n : CStr} {cs : List PCmd} {d : PCmd} (h : lookupNameP n cs = some d) : d ∈ cs := by
  induction cs with
  | nil => cases h
  | cons c cs ih =>
    unfold lookupNameP at h
    split at h
    · cases h
      simp
    · simp [ih h]

theorem mem_ownCmds {c : PCmd} {cs : List PCmd} (h : c ∈ cs) : ∀ p ∈ c.own, p ∈ ownCmds cs := by
  induction cs with
  | nil => cases h
  | cons x cs ih =>
    intro p hp
    simp only [ownCmds, List.mem_append]
    cases h with
    | head => exact .inl hp
    | tail _ h => exact .inr (ih h p hp)

theorem needsName_buf {c : PCmd} {n : CStr} (h : needsName c.erase = some n) : c.buf = none := by
  unfold needsName at h
  split at h
  · cases h
  · split at h
    · cases h
    · rename_i hb
      cases hc : c.buf with
      | none => rfl
      | some b => simp [PCmd.erase, hc] at hb

/-- Commands after the pairing and the messages, as values. -/
def erasePN (x : List PCmd × List Event) : List Cmd × List Event := (x.1.map PCmd.erase, x.2)

theorem fresh_of_ok {c : PCmd} (h : BufOk c.erase) (hb : c.buf = none) : NoFrame c := by
  have he : c.erase.buf = none := by simp [PCmd.erase, hb]
  obtain ⟨h1, h2⟩ := h he
  refine ⟨?_, hb, ?_⟩
  · cases hf : c.frame with
    | none => rfl
    | some f => simp [PCmd.erase, hf] at h1
  · cases hm : c.mask with
    | none => rfl
    | some m => simp [PCmd.erase, hm] at h2

theorem tri_pairNames {F : List Ptr} (all cs : List PCmd) (hok : ∀ c ∈ cs, BufOk c.erase)
    (hB : ∀ p ∈ ownCmds all, p ∈ ownCmds cs ∨ p ∈ F) :
    Tri (ownCmds cs) F (pairNamesM all cs) erasePN (.ok (pairNames (all.map PCmd.erase) (cs.map PCmd.erase)))
      (fun x => ownCmds x.1) := by
  induction cs generalizing F with
  | nil => exact Tri.pure rfl (by simp)
  | cons c cs ih =>
    unfold pairNamesM
    simp only [List.map_cons, pairNames]
    have hB' : ∀ p ∈ ownCmds all, p ∈ c.own ∨ p ∈ ownCmds cs ∨ p ∈ F := by
      intro p hp
      have := hB p hp
      simp only [ownCmds, List.mem_append] at this
      rcases this with (h | h) | h
      · exact .inl h
      · exact .inr (.inl h)
      · exact .inr (.inr h)
    have keep := ih (F := c.own ++ F) (fun x hx => hok x (by simp [hx])) (fun p hp => by
      rcases hB' p hp with h | h | h
      · exact .inr (by simp [h])
      · exact .inl h
      · exact .inr (by simp [h]))
    generalize hpn : pairNames (all.map PCmd.erase) (cs.map PCmd.erase) = pn at ih keep
    obtain ⟨vs, ves⟩ := pn
    simp only
    cases hn : needsName c.erase with
    | none =>
      refine Tri.stepV (ownCmds cs) c.own keep (by intro p; simp only [ownCmds, List.count_append]; omega)
        (fun r hr => ?_)
      obtain ⟨cs', es⟩ := r
      simp only [erasePN, Prod.mk.injEq] at hr
      refine Tri.pure (by simp [erasePN, hr.1, hr.2]) ?_
      intro p
      simp only [ownCmds, List.count_append]
      omega
    | some n =>
      simp only
      rw [lookupName_erase]
      cases hl : lookupNameP n all with
      | none =>
        refine Tri.stepV (ownCmds cs) c.own keep (by intro p; simp only [ownCmds, List.count_append]; omega)
          (fun r hr => ?_)
        obtain ⟨cs', es⟩ := r
        simp only [erasePN, Prod.mk.injEq] at hr
        refine Tri.pure (by simp [erasePN, hr.1, hr.2]) ?_
        intro p
        simp only [ownCmds, List.count_append]
        omega
      | some d =>
        have fr := fresh_of_ok (hok c (by simp)) (needsName_buf hn)
        have hd : ∀ p ∈ d.own, p ∈ c.own ∨ p ∈ ownCmds cs ∨ p ∈ F := fun p hp =>
          hB' p (mem_ownCmds (mem_lookupNameP hl) p hp)
        have hd' : ∀ p ∈ d.own, p ∈ ownCmds (c :: cs) ++ F := fun p hp => by
          simp only [ownCmds, List.mem_append]
          rcases hd p hp with h | h | h
          · exact .inl (.inl h)
          · exact .inl (.inr h)
          · exact .inr h
        rw [show Option.map PCmd.erase (some d) = some d.erase from rfl]
        dsimp only
        refine Tri.stepV [] (ownCmds (c :: cs)) (tri_frameCloneOpt d.frame (fun p hp => hd' p (by
          simp [PCmd.own, hp]))) (by simp) (fun f hf => ?_)
        refine Tri.stepV [] (ownFrame f ++ ownCmds (c :: cs)) (tri_bclone d.buf (fun p hp => by
          have := hd' p (by simp [PCmd.own, hp])
          simp only [List.mem_append] at this ⊢
          rcases this with h | h
          · exact .inl (.inr h)
          · exact .inr h)) (by simp) (fun b hb => ?_)
        refine Tri.stepV [] (ownBuf b ++ (ownFrame f ++ ownCmds (c :: cs))) (tri_bclone d.mask (fun p hp => by
          have := hd' p (by simp [PCmd.own, hp])
          simp only [List.mem_append] at this ⊢
          rcases this with h | h
          · exact .inl (.inr (.inr h))
          · exact .inr h)) (by simp) (fun m hm => ?_)
        have key := ih (F := ({ c with frame := f, buf := b, mask := m } : PCmd).own ++ F)
          (fun x hx => hok x (by simp [hx])) (fun p hp => by
            rcases hB' p hp with h | h | h
            · rw [fr.own] at h
              refine .inr ?_
              simp only [PCmd.own, List.mem_append] at h ⊢
              exact .inl (.inl (.inl (.inl h)))
            · exact .inl h
            · exact .inr (by simp [h]))
        refine Tri.stepV (ownCmds cs) ({ c with frame := f, buf := b, mask := m } : PCmd).own key ?_ (fun r hr => ?_)
        · intro p
          simp only [ownCmds, PCmd.own, fr.frame, fr.buf, fr.mask, ownBuf_none, ownFrame_none, List.count_append,
            List.count_nil]
          omega
        · obtain ⟨cs', es⟩ := r
          simp only [erasePN, Prod.mk.injEq] at hr
          refine Tri.pure ?_ ?_
          · have e1 : d.erase.frame.map frameCopy = f.map PFrame.erase := by
              have : (frameCopy : Frame → Frame) = id := by funext x; exact frameCopy_same x
              rw [this, hf]
              simp [PCmd.erase]
            have e2 : bclone d.erase.buf = b.map (·.data) := by
              rw [hb]
              show bclone (d.buf.map (·.data)) = _
              cases d.buf <;> rfl
            have e3 : bclone d.erase.mask = m.map (·.data) := by
              rw [hm]
              show bclone (d.mask.map (·.data)) = _
              cases d.mask <;> rfl
            rw [e1, e2, e3]
            simp only [erasePN, List.map_cons, hr.1, hr.2]
            rfl
          · intro p
            simp only [ownCmds, List.count_append]
            omega

theorem tri_execCmds {F : List Ptr} (env : Env) (cmds : List PCmd) (hok : ∀ c ∈ cmds, BufOk c.erase) :
    Tri (ownCmds cmds) F (execCmdsM env cmds) Prod.fst (execCmds env (cmds.map PCmd.erase))
      (fun x => ownCmds x.2) := by
  unfold execCmdsM execCmds
  refine Tri.useAllS (fun p hp => .inl hp) ?_
  refine Tri.stepV (ownCmds cmds) [] (tri_pairNames cmds cmds hok (fun p hp => .inl hp)) (by simp) (fun r hr => ?_)
  rw [← hr]
  obtain ⟨cmds', en⟩ := r
  rw [show erasePN (cmds', en) = (cmds'.map PCmd.erase, en) from rfl]
  dsimp only
  by_cases he : en ≠ []
  · rw [if_pos he, if_pos he]
    exact Tri.pure rfl (by simp)
  · rw [if_neg he, if_neg he]
    refine Tri.useAllS (fun p hp => .inl (by simpa using hp)) ?_
    refine Tri.liftS (fun r _ => ?_)
    refine Tri.useAllS (fun p hp => .inl (by simpa using hp)) ?_
    exact Tri.pure rfl (by simp)

/-! ## Captures -/

theorem tri_optText {F : List Ptr} (b : PBuf) (opt : CStr) (v : Option CStr) :
    Tri [b.ptr] F (optTextM b opt v) (·.data) (.ok (b.data ++ optText opt v)) (fun x => [x.ptr]) := by
  unfold optTextM optText
  cases v with
  | none => exact Tri.pure (by simp) (by simp)
  | some v =>
    refine Tri.useS (.inl (by simp)) ?_
    refine Tri.stepV [] [b.ptr] (tri_balloc _) (by cnt) (fun b' hb => ?_)
    exact Tri.freeS [b'.ptr] (by cnt) (Tri.pure hb (by simp))

theorem captureCmd_eq (s : CStr) : captureCmd s =
    ((((c!"tcpdump -i " ++ ((captureElems 5 s)[0]?).getD []) ++ optText c!" -s " (elemGiven (captureElems 5 s) 1)) ++
      optText c!" -j " (elemGiven (captureElems 5 s) 2)) ++ c!" -w " ++ captureFile s) ++
      optText c!" -c " (elemGiven (captureElems 5 s) 4) := rfl

theorem tri_captureAdd {F : List Ptr} (s : CStr) :
    Tri [] F (captureAddM s) (·.cmd.data) (.ok (captureCmd s)) (fun c => [c.self, c.cmd.ptr]) := by
  rw [captureCmd_eq]
  unfold captureAddM
  refine Tri.stepV [] [] (tri_balloc _) (by cnt) (fun b1 h1 => ?_)
  refine Tri.stepV [b1.ptr] [] (tri_optText b1 _ _) (by cnt) (fun b2 h2 => ?_)
  refine Tri.stepV [b2.ptr] [] (tri_optText b2 _ _) (by cnt) (fun b3 h3 => ?_)
  refine Tri.stepV [] [b3.ptr] (tri_balloc _) (by cnt) (fun f hf => ?_)
  refine Tri.useS (.inl (by simp)) (Tri.useS (.inl (by simp)) ?_)
  refine Tri.stepV [] [b3.ptr, f.ptr] (tri_balloc _) (by cnt) (fun b4 h4 => ?_)
  refine Tri.freeS [f.ptr, b4.ptr] (by cnt) ?_
  refine Tri.freeS [b4.ptr] (by cnt) ?_
  refine Tri.stepV [b4.ptr] [] (tri_optText b4 _ _) (by cnt) (fun b5 h5 => ?_)
  refine Tri.allocS (fun p => ?_)
  refine Tri.pure ?_ (by simp)
  simp only [h5, h4, h3, h2, h1, hf]

theorem tri_capturesFree {F : List Ptr} (cs : List PCapture) :
    Tri (ownCaps cs) F (capturesFreeM cs) (fun _ => ()) (.ok ()) (fun _ => []) := by
  induction cs with
  | nil => exact Tri.pure rfl (by simp [ownCaps])
  | cons c cs ih =>
    refine Tri.freeS (c.self :: ownCaps cs) (by intro p; simp only [ownCaps, List.count_cons]; omega) ?_
    exact Tri.freeS (ownCaps cs) (by simp) ih

/-! ## Whole runs -/

theorem tri_argcCmds {F : List Ptr} {t : PTmpls} (ht : TmplsOk t) (hT : ∀ p ∈ t.own, p ∈ F) (w : World) (ms : Int)
    (args : List CStr) (caps : List PCapture) (hcap : caps.map (·.cmd.data) = args.map captureCmd) (argv : List CStr) :
    Tri (ownCaps caps) F (argcCmdsM t w ms caps argv) id (argcCmds w ms args argv) (fun _ => []) := by
  unfold argcCmdsM argcCmds
  refine Tri.bind [] (ownCaps caps) (tri_parseCmds ht (fun q hq => by simp [hT q hq]) w.env.cfg.hasPcap argv) (by cnt)
    (fun r hr => ?_)
  cases r with
  | none =>
    exact Tri.dropS (ownCaps caps) [] (Tri.loseAll _ _) (by simp [ownPC]) (Tri.pure rfl (by simp))
  | some cmds =>
    have hok : ∀ c ∈ cmds, BufOk c.erase := fun c hc =>
      parseCmds_bufOk hr c.erase (List.mem_map_of_mem hc)
    simp only [erasePC, Option.map]
    refine Tri.useAllS (fun p hp => .inl (by simp [hp])) ?_
    refine Tri.bind (ownCmds cmds) (ownCaps caps) (tri_execCmds { w.env with timeoutMs := ms } cmds hok)
      (by simp [ownPC]) (fun r _ => ?_)
    obtain ⟨r, cmds'⟩ := r
    simp only
    have hne : (caps ≠ []) = (args ≠ []) := by
      have : caps.length = args.length := by simpa using congrArg List.length hcap
      cases caps <;> cases args <;> simp_all
    by_cases hs : r.ret.isSome = true
    · rw [if_pos hs]
      refine Tri.useAllS (fun p hp => .inl (by simp [hp])) ?_
      refine Tri.dropS (ownCaps caps) (ownCmds cmds') (tri_capturesFree _) (by intro p; simp [Nat.add_comm]) ?_
      exact Tri.dropS (ownCmds cmds') [] (tri_cmdsDestruct _) (by simp) (Tri.pure (by simp only [id, hne, hcap]) (by simp))
    · rw [if_neg hs]
      exact Tri.dropS (ownCaps caps ++ ownCmds cmds') [] (Tri.loseAll _ _) (by intro p; simp [Nat.add_comm])
        (Tri.pure (by simp only [id, hne, hcap]) (by simp))

theorem tri_mainLoopOpts {F : List Ptr} {t : PTmpls} (ht : TmplsOk t) (hT : ∀ p ∈ t.own, p ∈ F) (w : World)
    (argv : List CStr) (os : List Opt) (ms : Int) (args : List CStr) (caps : List PCapture)
    (hcap : caps.map (·.cmd.data) = args.map captureCmd) :
    Tri (ownCaps caps) F (mainLoopOptsM t w argv os ms args caps) id (mainLoopOpts w argv os ms args)
      (fun _ => []) := by
  induction os generalizing ms args caps with
  | nil =>
    unfold mainLoopOptsM mainLoopOpts
    refine Tri.bind (ownCaps caps) [] (tri_argcCmds ht (fun q hq => by simp [hT q hq]) w ms args caps hcap argv)
      (by simp) (fun r _ => ?_)
    exact Tri.pure rfl (by simp)
  | cons o os ih =>
    have hlast : ∀ r : RunRes, Tri (ownCaps caps) F (loseAll .option (ownCaps caps) >>= fun _ => Pure.pure r) id (.ok r)
        (fun _ => []) := fun r =>
      Tri.dropS (ownCaps caps) [] (Tri.loseAll _ _) (by simp) (Tri.pure rfl (by simp))
    cases o with
    | version => exact hlast _
    | help => exact hlast _
    | bad => exact hlast _
    | timeout a => exact ih _ _ _ hcap
    | capture a =>
      unfold mainLoopOptsM mainLoopOpts
      refine Tri.stepV [] (ownCaps caps) (tri_captureAdd a) (by simp) (fun c hc => ?_)
      refine (ih ms (args ++ [a]) (caps ++ [c]) (by simp [hcap, hc])).congr ?_ (by simp)
      intro p
      simp only [ownCaps_append, ownCaps, List.count_append, List.count_cons, List.count_nil]
      omega

theorem tri_main {F : List Ptr} {t : PTmpls} (ht : TmplsOk t) (hT : ∀ p ∈ t.own, p ∈ F) (w : World)
    (argv : List CStr) : Tri [] F (mainM t w argv) id (main_ w argv) (fun _ => []) := by
  unfold mainM main_
  cases getopt w.posix argv with
  | mk os words => exact tri_mainLoopOpts ht hT w words os 100 [] [] rfl

/-! ## Start-up and end -/

theorem tri_initFields {F : List Ptr} (fs : List Field) (hv : ∀ f ∈ fs, f.val = none) :
    Tri [] F (initFieldsM fs) (List.map PField.erase) (.ok fs) ownFields := by
  induction fs generalizing F with
  | nil => exact Tri.pure rfl (by simp [ownFields])
  | cons f fs ih =>
    unfold initFieldsM
    refine Tri.stepV [] [] (tri_newBuf f.dflt) (by simp) (fun d hd => ?_)
    refine Tri.stepV [] (ownBuf d) (ih (fun x hx => hv x (by simp [hx]))) (by simp) (fun fs' hfs => ?_)
    refine Tri.pure ?_ ?_
    · have key : ∀ g : Field, g.val = none → ({ g with dflt := g.dflt, val := none } : Field) = g := by
        intro g hg
        cases g
        cases hg
        rfl
      have e : (⟨f, d, none⟩ : PField).erase = f := by
        simp only [PField.erase, hd, Option.map_none]
        exact key f (hv f (by simp))
      rw [List.map_cons, hfs, e]
    · intro p
      simp only [ownFields, PField.own, ownBuf_none, List.append_nil, List.count_append]
      omega

/-- Static headers are not blocks themselves. -/
def Static (h : PHdr) : Prop := h.self = none ∧ h.arr = none

theorem Static.own {h : PHdr} (hs : Static h) : h.own = ownFields h.fields := by
  simp [PHdr.own, hs.1, hs.2]

/-- A static header as a value. -/
def eraseSH (h : PHdr) : Hdr × Option Ptr × Option Ptr := (h.erase, h.self, h.arr)

theorem tri_initHdr {F : List Ptr} (h : Hdr) (hv : ∀ f ∈ h.fields, f.val = none) :
    Tri [] F (initHdrM h) eraseSH (.ok (h, none, none)) (fun x => x.own) := by
  unfold initHdrM
  refine Tri.stepV [] [] (tri_initFields h.fields hv) (by simp) (fun fs hfs => ?_)
  exact Tri.pure (by simp [PHdr.erase, eraseSH, hfs]) (by intro p; simp [PHdr.own])

theorem tri_initHdrs {F : List Ptr} (hs : List Hdr) (hv : ∀ h ∈ hs, ∀ f ∈ h.fields, f.val = none) :
    Tri [] F (initHdrsM hs) (List.map eraseSH) (.ok (hs.map (fun h => (h, none, none)))) ownHdrs := by
  induction hs generalizing F with
  | nil => exact Tri.pure rfl (by simp [ownHdrs])
  | cons h hs ih =>
    unfold initHdrsM
    refine Tri.stepV [] [] (tri_initHdr h (hv h (by simp))) (by simp) (fun h' hh => ?_)
    refine Tri.stepV [] h'.own (ih (fun x hx => hv x (by simp [hx]))) (by simp) (fun hs' hhs => ?_)
    exact Tri.pure (by simp [hh, hhs]) (by intro p; simp only [ownHdrs, List.count_append]; omega)

theorem static_vals : (HDR_IPV4_PSEUDO :: HDR_IPV6_PSEUDO :: hdrTmpls).all
    (fun h => h.fields.all (fun f => f.val.isNone)) = true := by decide +kernel

theorem static_val {h : Hdr} (hh : h ∈ HDR_IPV4_PSEUDO :: HDR_IPV6_PSEUDO :: hdrTmpls) : ∀ f ∈ h.fields, f.val = none := by
  intro f hf
  have := List.all_eq_true.1 (List.all_eq_true.1 static_vals h hh) f hf
  simpa using this

/-- The static headers as values. -/
def eraseT (t : PTmpls) : List (Hdr × Option Ptr × Option Ptr) × (Hdr × Option Ptr × Option Ptr) ×
    (Hdr × Option Ptr × Option Ptr) :=
  (t.tmpls.map eraseSH, eraseSH t.pseudo4, eraseSH t.pseudo6)

/-- The static headers after start-up. -/
def initVals : List (Hdr × Option Ptr × Option Ptr) × (Hdr × Option Ptr × Option Ptr) ×
    (Hdr × Option Ptr × Option Ptr) :=
  (hdrTmpls.map (fun h => (h, none, none)), (HDR_IPV4_PSEUDO, none, none), (HDR_IPV6_PSEUDO, none, none))

theorem tri_init {F : List Ptr} : Tri [] F initM eraseT (.ok initVals) PTmpls.own := by
  unfold initM initVals
  refine Tri.stepV [] [] (tri_initHdrs hdrTmpls (fun h hh => static_val (by simp [hh]))) (by simp) (fun ts hts => ?_)
  refine Tri.stepV [] (ownHdrs ts) (tri_initHdr _ (static_val (by simp))) (by simp) (fun p4 h4 => ?_)
  refine Tri.stepV [] (p4.own ++ ownHdrs ts) (tri_initHdr _ (static_val (by simp))) (by simp) (fun p6 h6 => ?_)
  refine Tri.pure (by simp [eraseT, hts, h4, h6]) ?_
  intro p
  simp only [PTmpls.own, List.count_append]
  omega

theorem init_ok {t : PTmpls} (h : eraseT t = initVals) :
    TmplsOk t ∧ (∀ h ∈ t.tmpls, Static h) ∧ Static t.pseudo4 ∧ Static t.pseudo6 := by
  simp only [eraseT, initVals, Prod.mk.injEq] at h
  obtain ⟨h1, h2, h3⟩ := h
  have e1 : t.tmpls.map PHdr.erase = hdrTmpls := by
    have := congrArg (List.map Prod.fst) h1
    simpa [eraseSH, Function.comp_def] using this
  have e2 : ∀ h ∈ t.tmpls, Static h := by
    intro h hh
    have : eraseSH h ∈ hdrTmpls.map (fun h => (h, (none : Option Ptr), (none : Option Ptr))) := by
      rw [← h1]
      exact List.mem_map_of_mem hh
    obtain ⟨x, _, hx⟩ := List.mem_map.1 this
    simp only [eraseSH, Prod.mk.injEq] at hx
    exact ⟨hx.2.1.symm, hx.2.2.symm⟩
  simp only [eraseSH, Prod.mk.injEq] at h2 h3
  exact ⟨⟨e1, h2.1, h3.1⟩, e2, h2.2, h3.2⟩

theorem tri_uninitHdrs {F : List Ptr} (hs : List PHdr) (hst : ∀ h ∈ hs, Static h) :
    Tri (ownHdrs hs) F (uninitHdrsM hs) (fun _ => ()) (.ok ()) (fun _ => []) := by
  induction hs with
  | nil => exact Tri.pure rfl (by simp [ownHdrs])
  | cons h hs ih =>
    unfold uninitHdrsM
    have h1 : Tri h.own (ownHdrs hs ++ F)
        (if notReleased.contains h.base.name then loseAll .defaults h.own else fieldsFreeM h.fields)
        (fun _ => ()) (.ok ()) (fun _ => []) := by
      split
      · exact Tri.loseAll _ _
      · rw [(hst h (by simp)).own]
        exact tri_fieldsFree _
    exact Tri.dropS h.own (ownHdrs hs) h1 (by intro p; simp [ownHdrs, List.count_append])
      (ih (fun x hx => hst x (by simp [hx])))

theorem tri_uninit {F : List Ptr} (t : PTmpls) (h1 : ∀ h ∈ t.tmpls, Static h) (h2 : Static t.pseudo4)
    (h3 : Static t.pseudo6) : Tri t.own F (uninitM t) (fun _ => ()) (.ok ()) (fun _ => []) := by
  unfold uninitM
  refine Tri.dropS (ownHdrs t.tmpls) (t.pseudo4.own ++ t.pseudo6.own) (tri_uninitHdrs _ h1)
    (by intro p; simp only [PTmpls.own, List.count_append]; omega) ?_
  rw [h2.own, h3.own]
  refine Tri.dropS (ownFields t.pseudo4.fields) (ownFields t.pseudo6.fields) (tri_fieldsFree _)
    (by intro p; simp [List.count_append]) ?_
  exact tri_fieldsFree _

/-! ## The end of the process after `exit` -/

/-- The blocks `L` are live. -/
def Enough (L : List Ptr) (hp : Heap) : Prop := hp.bad = false ∧ ∀ p, L.count p ≤ hp.live.count p

/-- `m` only needs the blocks `L`. -/
def Needs (L : List Ptr) (m : Mem Unit) : Prop :=
  ∀ F hp, Enough (L ++ F) hp → (m hp).1 = .ok () ∧ Enough F (m hp).2

theorem Enough.congr {L L' : List Ptr} {hp : Heap} (h : Enough L hp) (c : ∀ p, L'.count p ≤ L.count p) :
    Enough L' hp := ⟨h.1, fun p => Nat.le_trans (c p) (h.2 p)⟩

theorem Needs.pure : Needs [] (Pure.pure ()) := fun _ _ h => ⟨rfl, h⟩

theorem Needs.seq {L1 L2 : List Ptr} {m k : Mem Unit} (h1 : Needs L1 m) (h2 : Needs L2 k) :
    Needs (L1 ++ L2) (m >>= fun _ => k) := by
  intro F hp h
  obtain ⟨r1, e1⟩ := h1 (L2 ++ F) hp (by rw [← List.append_assoc]; exact h)
  have hb : (m >>= fun _ => k) hp = k (m hp).2 := by
    show Mem.bind m (fun _ => k) hp = _
    unfold Mem.bind
    generalize hm : m hp = r at r1
    obtain ⟨v, hp'⟩ := r
    simp only at r1
    rw [r1]
  rw [hb]
  exact h2 F _ e1

theorem Needs.free (p : Ptr) : Needs [p] (free p) := by
  intro F hp h
  have hm : p ∈ hp.live := List.count_pos_iff.1 (by
    have := h.2 p
    simp at this
    omega)
  have he : Ef.free p hp = (.ok (), { hp with live := hp.live.erase p }) := by simp [Ef.free, hm]
  rw [he]
  refine ⟨rfl, h.1, fun q => ?_⟩
  have := h.2 q
  show F.count q ≤ (hp.live.erase p).count q
  rw [List.count_erase]
  simp only [List.cons_append, List.nil_append, List.count_cons] at this
  by_cases hq : p = q
  · subst hq
    simp at this ⊢
    omega
  · have h1 : (p == q) = false := by simpa using hq
    simp [h1] at this
    simpa [hq] using this

theorem needs_bfree (b : Option PBuf) : Needs (ownBuf b) (bfreeM b) := by
  cases b with
  | none => exact Needs.pure
  | some b => exact Needs.free b.ptr

theorem needs_fieldsFree (fs : List PField) : Needs (ownFields fs) (fieldsFreeM fs) := by
  induction fs with
  | nil => exact Needs.pure
  | cons f fs ih =>
    have := (needs_bfree f.dflt).seq ((needs_bfree f.val).seq ih)
    simp only [ownFields, PField.own, List.append_assoc]
    exact this

theorem needs_loseAll (w : Loss) (ps : List Ptr) : Needs ps (loseAll w ps) := by
  induction ps with
  | nil => exact Needs.pure
  | cons p ps ih =>
    have h1 : Needs [p] (lose w p) := fun F hp h => ⟨rfl, h.1, fun q => by
      have := h.2 q
      rw [List.count_append] at this
      show F.count q ≤ hp.live.count q
      omega⟩
    exact h1.seq ih

theorem needs_uninitHdrs (hs : List PHdr) (hst : ∀ h ∈ hs, Static h) : Needs (ownHdrs hs) (uninitHdrsM hs) := by
  induction hs with
  | nil => exact Needs.pure
  | cons h hs ih =>
    have h1 : Needs h.own
        (if notReleased.contains h.base.name then loseAll .defaults h.own else fieldsFreeM h.fields) := by
      split
      · exact needs_loseAll _ _
      · rw [(hst h (by simp)).own]
        exact needs_fieldsFree _
    exact h1.seq (ih (fun x hx => hst x (by simp [hx])))

theorem needs_uninit (t : PTmpls) (h1 : ∀ h ∈ t.tmpls, Static h) (h2 : Static t.pseudo4)
    (h3 : Static t.pseudo6) : Needs t.own (uninitM t) := by
  have := (needs_uninitHdrs _ h1).seq ((needs_fieldsFree t.pseudo4.fields).seq (needs_fieldsFree t.pseudo6.fields))
  simp only [PTmpls.own, h2.own, h3.own, List.append_assoc]
  exact this

/-- The whole process: no block is used or released that is not live, the outcome is that of the model without
pointers, and what is still live when the run has ended are the blocks whose last pointer was dropped. -/
theorem process_tri (w : World) (argv : List CStr) :
    (processM w argv {}).1 = main_ w argv ∧ (processM w argv {}).2.bad = false ∧
      ∀ r, (processM w argv {}).1 = .ok r → Has [] (processM w argv {}).2 := by
  obtain ⟨i1, i2, _, i4⟩ := tri_init (F := []) {} rfl (fun p => by simp)
  have hbind : processM w argv {} = Mem.bind initM (fun t => fun hp =>
    match mainM t w argv hp with
    | (.ok r, hp') =>
      if r.ret.isSome then (do uninitM t; pure r : Mem RunRes) hp' else (do loseAll .running t.own; pure r : Mem RunRes) hp'
    | (.exit c, hp') => (do uninitM t; lift (.exit c) : Mem RunRes) hp'
    | (o, hp') => (o, hp')) {} := rfl
  rw [hbind]
  unfold Mem.bind
  generalize hm : initM {} = r at i1 i2 i4
  obtain ⟨v, hp⟩ := r
  cases v with
  | ub u => cases i1
  | abort => cases i1
  | exit c => cases i1
  | ok t =>
    simp only [Out.map, Out.ok.injEq] at i1
    obtain ⟨ht, s1, s2, s3⟩ := init_ok i1
    have hh := i4 t rfl
    obtain ⟨m1, m2, m3, m4⟩ := tri_main ht (F := t.own) (fun p hp => hp) w argv hp i2 (hh.congr (by simp))
    simp only
    generalize hq : mainM t w argv hp = q at m1 m2 m3 m4
    obtain ⟨v, hp'⟩ := q
    have mid : v = main_ w argv := by rw [← m1]; cases v <;> rfl
    cases v with
    | ub u => exact ⟨mid, m2, fun r hr => by cases hr⟩
    | abort => exact ⟨mid, m2, fun r hr => by cases hr⟩
    | exit c =>
      have hn := needs_uninit t s1 s2 s3 [] hp' ⟨m2, by simpa using m3⟩
      have hb : (do uninitM t; lift (.exit c) : Mem RunRes) hp' = (.exit c, (uninitM t hp').2) := by
        show Mem.bind (uninitM t) (fun _ => lift (.exit c)) hp' = _
        unfold Mem.bind
        generalize hu : uninitM t hp' = r at hn
        obtain ⟨v, hp2⟩ := r
        have : v = .ok () := hn.1
        rw [this]
        rfl
      simp only [hb]
      exact ⟨mid, hn.2.1, fun r hr => by cases hr⟩
    | ok r =>
      have hm' := m4 r rfl
      simp only
      have fin : ∀ k : Mem Unit, Tri t.own [] k (fun _ => ()) (.ok ()) (fun _ => []) →
          ((do k; pure r : Mem RunRes) hp').1 = main_ w argv ∧ ((do k; pure r : Mem RunRes) hp').2.bad = false ∧
            ∀ r', ((do k; pure r : Mem RunRes) hp').1 = .ok r' → Has [] ((do k; pure r : Mem RunRes) hp').2 := by
        intro k hk
        have tk : Tri t.own [] (do k; pure r : Mem RunRes) id (.ok r) (fun _ => []) :=
          Tri.dropS t.own [] (by simpa using hk) (by simp) (Tri.pure rfl (by simp))
        obtain ⟨k1, k2, _, k4⟩ := tk hp' m2 (hm'.congr (by simp))
        refine ⟨?_, k2, fun r' hr' => (k4 r' hr').congr (by simp)⟩
        rw [← mid, ← k1]
        cases ((do k; pure r : Mem RunRes) hp').1 <;> rfl
      split
      · exact fin _ (tri_uninit t s1 s2 s3)
      · exact fin _ (Tri.loseAll _ _)

end Ef
