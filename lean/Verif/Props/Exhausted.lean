import Verif.Model.Exhausted
import Verif.Spec.Exhausted
import Verif.Props.Run
import Verif.Props.Fill

/-!
# Running out of memory (C122)
-/

namespace Ef.Props

open Ef Ef.Spec

theorem granted_drop (as : List Bool) (k n : Nat) : granted (as.drop k) n = granted as (k + n) := by
  simp [granted]

theorem grant_eq (as : List Bool) : grant as = (granted as 0, as.drop 1) := by
  cases as with
  | nil => rfl
  | cons a as => cases a <;> rfl

theorem bcloneA_eq (o : Option Buf) (as : List Bool) :
    bcloneA o as = (if granted as 0 then o else none, as.drop o.toList.length) := by
  cases o with
  | none => simp [bcloneA]
  | some b => simp [bcloneA, grant_eq]

theorem fieldsCopyA_eq (fs : List Field) (as : List Bool) :
    (fieldsCopyA fs as).1.length = fs.length ∧
    (∀ k f, fs[k]? = some f → (fieldsCopyA fs as).1[k]? = some (kept as (bufCount (fs.take k)) f)) ∧
    (fieldsCopyA fs as).2 = as.drop (bufCount fs) := by
  induction fs generalizing as with
  | nil => exact ⟨rfl, fun k f h => by simp at h, by simp [fieldsCopyA, bufCount]⟩
  | cons g fs ih =>
    obtain ⟨h1, h2, h3⟩ := ih ((as.drop g.val.toList.length).drop g.dflt.toList.length)
    have hc : ∀ l, bufCount (g :: l) = g.val.toList.length + g.dflt.toList.length + bufCount l := by
      intro l
      simp only [bufCount, bufs, List.flatMap_cons, List.length_append]
    simp only [fieldsCopyA, bcloneA_eq]
    refine ⟨by rw [List.length_cons, h1, List.length_cons], ?_, ?_⟩
    · intro k f hk
      cases k with
      | zero =>
        simp only [List.getElem?_cons_zero, Option.some.injEq] at hk ⊢
        subst hk
        simp only [kept, bufCount, granted_drop, List.take_zero, List.flatMap_nil, List.length_nil, Nat.zero_add, Nat.add_zero]
      | succ k =>
        simp only [List.getElem?_cons_succ] at hk ⊢
        rw [h2 k f hk, List.take_succ_cons, hc]
        simp only [kept, granted_drop, Nat.add_assoc]
    · rw [h3, hc, List.drop_drop, List.drop_drop, Nat.add_assoc]

/-! ## C122: running out of memory is noticed -/

/-- C122 as one would like it: if the copies of named frames run out of memory, the tool does not report success, unless the run
is the same as with enough memory. -/
def C122_statement : Prop :=
  ∀ (env : Env) (as : List Bool) (cmds : List Cmd) (r : ExecRes), execCmdsA env as cmds = .ok r → r.ret = some 0 →
    execCmds env cmds = .ok r

/-- C122 for headers: the copy of a header is refused if the memory for the header, or for its fields, is not granted. In all other
cases there is a copy, whatever happens to the values of its fields: each field loses exactly those of its two buffers for which the
memory is not granted. -/
theorem C122_header (t : Hdr) (as : List Bool) :
    ((hdrCloneA t as).1 = none ↔ granted as 0 = false ∨ (t.fields ≠ [] ∧ granted as 1 = false)) ∧
    ∀ h, (hdrCloneA t as).1 = some h →
      h = { t with fields := h.fields } ∧ h.fields.length = t.fields.length ∧
      ∀ k f, t.fields[k]? = some f → h.fields[k]? = some (kept as (2 + bufCount (t.fields.take k)) f) := by
  unfold hdrCloneA
  rw [grant_eq]
  simp only
  by_cases h0 : granted as 0 = false
  · simp [h0]
  · rw [if_neg h0]
    by_cases hf : t.fields = []
    · simp [hf, h0, fieldsCopyA]
    · rw [if_neg hf, grant_eq, granted_drop]
      simp only
      by_cases h1 : granted as 1 = false
      · simp [h1, hf]
      · rw [if_neg (by simpa using h1)]
        obtain ⟨e1, e2, -⟩ := fieldsCopyA_eq t.fields ((as.drop 1).drop 1)
        refine ⟨by simp [h0, h1], fun h hh => ?_⟩
        simp only [Option.some.injEq] at hh
        subst hh
        refine ⟨rfl, e1, fun k f hk => ?_⟩
        rw [e2 k f hk]
        simp [kept, granted_drop, ← Nat.add_assoc]

/-- If every request is granted, the copy is the header. -/
theorem hdrCloneA_enough (t : Hdr) (as : List Bool) (ha : ∀ a ∈ as, a = true) : (hdrCloneA t as).1 = some t := by
  have hg : ∀ n, granted as n = true := by
    intro n
    unfold granted
    cases h : as[n]? with
    | none => rfl
    | some a => rw [ha a (List.mem_of_getElem? h)]; rfl
  obtain ⟨h1, h2⟩ := C122_header t as
  cases he : (hdrCloneA t as).1 with
  | none => rw [he] at h1; simp [hg] at h1
  | some h =>
    obtain ⟨e1, e2, e3⟩ := h2 h he
    have : h.fields = t.fields := by
      apply List.ext_getElem?
      intro k
      cases hk : t.fields[k]? with
      | none => exact List.getElem?_eq_none (by rw [e2]; exact List.getElem?_eq_none_iff.mp hk)
      | some f => rw [e3 k f hk]; simp [kept, hg]
    rw [e1, this]

/-! ### Named frames -/

theorem frameCloneA_loss (f : Frame) (as : List Bool) : FrameLoss (some f) (frameCloneA f as).1 := by
  unfold frameCloneA FrameLoss
  rw [grant_eq]
  simp only
  by_cases h0 : granted as 0 = false
  · simp [h0]
  · right; simp [h0]

theorem bcloneA_loss (o : Option Buf) (as : List Bool) : (bcloneA o as).1 = none ∨ (bcloneA o as).1 = o := by
  rw [bcloneA_eq]
  cases granted as 0 <;> simp

theorem copyCmdA_loss (d c : Cmd) (as : List Bool) :
    Loss { c with frame := d.frame, buf := d.buf, mask := d.mask } (copyCmdA d c as).1 := by
  unfold copyCmdA
  cases hf : d.frame with
  | none => exact ⟨rfl, .inl rfl, bcloneA_loss _ _, bcloneA_loss _ _⟩
  | some f => exact ⟨rfl, frameCloneA_loss f as, bcloneA_loss _ _, bcloneA_loss _ _⟩

theorem loss_refl (c : Cmd) : Loss c c := ⟨rfl, .inr rfl, .inr rfl, .inr rfl⟩

theorem pairNamesA_loss (all cmds : List Cmd) (as : List Bool) :
    (pairNamesA all cmds as).2 = (pairNames all cmds).2 ∧ (pairNamesA all cmds as).1.length = cmds.length ∧
    ∀ (k : Nat) (c c' : Cmd), cmds[k]? = some c → (pairNamesA all cmds as).1[k]? = some c' →
      Loss (resolve all c) c' ∧ (refersTo c = none → c' = c) := by
  induction cmds generalizing as with
  | nil => exact ⟨rfl, rfl, fun k c c' h => by simp at h⟩
  | cons c cs ih =>
    have hstep : ∀ (c1 : Cmd) (as1 : List Bool), (Loss (resolve all c) c1 ∧ (refersTo c = none → c1 = c)) →
        ∀ (k : Nat) (x x' : Cmd), (c :: cs)[k]? = some x → (c1 :: (pairNamesA all cs as1).1)[k]? = some x' →
        Loss (resolve all x) x' ∧ (refersTo x = none → x' = x) := by
      intro c1 as1 h1 k x x' hx hx'
      cases k with
      | zero =>
        simp only [List.getElem?_cons_zero, Option.some.injEq] at hx hx'
        subst hx hx'
        exact h1
      | succ k =>
        simp only [List.getElem?_cons_succ] at hx hx'
        exact (ih as1).2.2 k x x' hx hx'
    rw [pairNamesA, pairNames]
    cases hn : needsName c with
    | none =>
      have hr : refersTo c = none := by rw [← needsName_eq]; exact hn
      have hres : resolve all c = c := by simp [resolve, hr]
      exact ⟨(ih as).1, by simp [(ih as).2.1], hstep c as ⟨by rw [hres]; exact loss_refl c, fun _ => rfl⟩⟩
    | some n =>
      have hr : refersTo c = some n := by rw [← needsName_eq]; exact hn
      simp only
      cases hl : lookupName n all with
      | none =>
        have hres : resolve all c = c := by rw [lookupName_eq] at hl; simp [resolve, hr, hl]
        exact ⟨by simp [(ih as).1], by simp [(ih as).2.1],
          hstep c as ⟨by rw [hres]; exact loss_refl c, fun _ => rfl⟩⟩
      | some d =>
        have hres : resolve all c = { c with frame := d.frame, buf := d.buf, mask := d.mask } := by
          rw [lookupName_eq] at hl; simp [resolve, hr, hl]
        exact ⟨(ih _).1, by simp [(ih _).2.1],
          hstep _ _ ⟨by rw [hres]; exact copyCmdA_loss d c as, fun h => by rw [hr] at h; exact absurd h (by simp)⟩⟩

/-- C122 for named frames, as far as it holds: whatever is not granted, unknown names are reported as with enough memory; otherwise
the run is that of commands which may have lost the frame, its bytes or the mask taken from the definition. Commands with
a frame of their own are not affected. -/
theorem C122_named_partial (env : Env) (as : List Bool) (cmds : List Cmd) :
    ((∃ c ∈ cmds, unresolved cmds c = true) → execCmdsA env as cmds = execCmds env cmds) ∧
    ((∀ c ∈ cmds, unresolved cmds c = false) →
      ∃ cmds' : List Cmd, cmds'.length = cmds.length ∧
        (∀ (k : Nat) (c c' : Cmd), cmds[k]? = some c → cmds'[k]? = some c' → Loss (resolve cmds c) c' ∧ (refersTo c = none → c' = c)) ∧
        execCmdsA env as cmds = do
          let r ← execResolved env cmds'
          .ok { r with events := inventory cmds ++ r.events }) := by
  obtain ⟨h1, h2, h3⟩ := pairNamesA_loss cmds cmds as
  have hlen := unresolved_events cmds cmds
  constructor
  · rintro ⟨c, hc, hu⟩
    have hpos : 0 < (cmds.filter (unresolved cmds)).length := List.length_pos_of_mem (List.mem_filter.mpr ⟨hc, hu⟩)
    have hne : (pairNames cmds cmds).2 ≠ [] := by
      rw [pairNames_eq]
      intro he
      simp only at he
      rw [he] at hlen
      simp only [List.length_nil] at hlen
      omega
    unfold execCmdsA execCmds
    simp only
    rw [h1, if_pos hne, if_pos hne]
  · intro hu
    have he : (pairNames cmds cmds).2 = [] := by
      rw [pairNames_eq]
      have : cmds.filter (unresolved cmds) = [] := by
        rw [List.filter_eq_nil_iff]
        intro c hc
        rw [hu c hc]
        simp
      rw [this]; rfl
    refine ⟨(pairNamesA cmds cmds as).1, h2, h3, ?_⟩
    unfold execCmdsA
    simp only
    rw [h1, he, if_neg (by simp)]

theorem hdrsCloneA_enough (hs : List Hdr) : (hdrsCloneA hs []).1 = hs.map some ∧ (hdrsCloneA hs []).2 = [] := by
  induction hs with
  | nil => exact ⟨rfl, rfl⟩
  | cons h hs ih =>
    have e1 : (hdrCloneA h []).1 = some h := hdrCloneA_enough h [] (by simp)
    have e2 : (hdrCloneA h []).2 = [] := by
      have := (fieldsCopyA_eq h.fields []).2.2
      simp only [List.drop_nil] at this
      unfold hdrCloneA
      by_cases hf : h.fields = [] <;> simp [grant, hf, fieldsCopyA] <;> simp [this]
    simp only [hdrsCloneA]
    rw [e2, e1, ih.1, ih.2]
    exact ⟨rfl, rfl⟩

/-- With enough memory the run is the usual one. -/
theorem C122_enough (env : Env) (cmds : List Cmd) : execCmdsA env [] cmds = execCmds env cmds := by
  have hc : ∀ d c : Cmd, copyCmdA d c [] = ({ c with frame := d.frame.map frameCopy, buf := bclone d.buf, mask := bclone d.mask }, []) := by
    intro d c
    have hb : ∀ o : Option Buf, bcloneA o [] = (bclone o, []) := by intro o; cases o <;> rfl
    unfold copyCmdA
    cases hf : d.frame with
    | none => simp [hb]
    | some f =>
      have : frameCloneA f [] = (some (frameCopy f), []) := by
        unfold frameCloneA
        simp only [grant]
        rw [(hdrsCloneA_enough f.stack).1, (hdrsCloneA_enough f.stack).2, frameCopy_eq]
        simp [List.filterMap_map]
      simp [this, hb]
  have hp : ∀ all cs, pairNamesA all cs [] = pairNames all cs := by
    intro all cs
    induction cs with
    | nil => rfl
    | cons c cs ih =>
      rw [pairNamesA, pairNames]
      cases needsName c with
      | none => simp [ih]
      | some n =>
        simp only
        cases lookupName n all with
        | none => simp [ih]
        | some d => simp [hc, ih]
  unfold execCmdsA execCmds
  rw [hp]

/-- A named frame. -/
def defineF (b : Buf) : Cmd := { type := .name, name := some c!"f", frame := some plainFrame, buf := some b }

/-- The expectation of a named frame. -/
def expectNamed : Cmd := { type := .rx, arg0 := some c!"e", name := some c!"f" }

theorem getD_ok {o : Out ExecRes} {d : ExecRes} (h : o.get?.isSome = true) : o = .ok (o.get?.getD d) := by
  cases o with
  | ok r => rfl
  | _ => simp [Out.get?] at h

/-- **C122 does not hold**: if the memory for the bytes of the frame is not granted, the tool forgets that it waits for the frame
and reports success, though nothing has arrived. -/
theorem C122_false : ¬ C122_statement := by
  intro hs
  have h := hs (listening []) [true, false] [defineF [1#8], expectNamed]
    ((execCmdsA (listening []) [true, false] [defineF [1#8], expectNamed]).get?.getD ⟨none, .waiting, [], []⟩)
    (getD_ok (by decide +kernel))
    (by decide +kernel)
  have h2 := congrArg (fun o => o.get?.map (·.ret)) h
  revert h2
  decide +kernel

/-- The same with a frame that arrives: without the memory for the object of the frame the tool reads through NULL. -/
theorem C122_crash : (execCmds (listening [[1#8]]) [defineF [1#8], expectNamed]).get?.map (·.ret) = some (some 0) ∧
    execCmdsA (listening [[1#8]]) [false] [defineF [1#8], expectNamed] = .ub .nullDeref := by
  constructor
  · decide +kernel
  · have hk : ∀ o : Out ExecRes, (match o with | .ub .nullDeref => true | _ => false) = true → o = .ub .nullDeref := by
      intro o h
      split at h
      · rfl
      · simp at h
    exact hk _ (by decide +kernel)

/-- Non-vacuity of `C122_header`: a copy of the IPv4 header without the memory for the version (request 2). The frame built from it
has 0 where the version is, and no error is reported. -/
example : ((hdrCloneA HDR_IPV4 [true, true, false]).1.bind (fun h => (findField h c!"ver").map (·.dflt))) = some none ∧
    ((hdrCloneA HDR_IPV4 []).1.bind (fun h => (findField h c!"ver").map (·.dflt))) = some (some [4#8]) ∧
    (((hdrCloneA HDR_IPV4 [true, true, false]).1.bind
      (fun h => (frameToBuf { stack := [h] }).get?)).map (fun x => x.2.head?)) = some (some 0x05#8) ∧
    (((hdrCloneA HDR_IPV4 []).1.bind (fun h => (frameToBuf { stack := [h] }).get?)).map (fun x => x.2.head?)) = some (some 0x45#8) := by
  decide +kernel

end Ef.Props
