import Verif.Model.Strdup
import Verif.Spec.Strdup
import Verif.Props.Exhausted
import Verif.Props.Tool

/-!
# Running out of memory for names (C132)
-/

namespace Ef.Props

open Ef Ef.Spec

/-! ## Parsing -/

theorem strdupA_eq (s : CStr) (as : List Bool) : strdupA s as = (if granted as 0 then some s else none, as.drop 1) := by
  simp [strdupA, grant_eq]

/-- Two outcomes that differ only in their values. -/
inductive Alike {α β : Type} (R : α → β → Prop) : Out α → Out β → Prop where
  | ok {a b} : R a b → Alike R (.ok a) (.ok b)
  | ub {u} : Alike R (.ub u) (.ub u)
  | abort : Alike R .abort .abort
  | exit {k} : Alike R (.exit k) (.exit k)

theorem Alike.bind {α β γ δ : Type} {R : α → β → Prop} {S : γ → δ → Prop} {x : Out α} {y : Out β} {f : α → Out γ} {g : β → Out δ}
    (h : Alike R x y) (hf : ∀ a b, R a b → Alike S (f a) (g b)) : Alike S (x >>= f) (y >>= g) := by
  cases h with
  | ok h => exact hf _ _ h
  | ub => exact .ub
  | abort => exact .abort
  | exit => exact .exit

/-- The result of `argc_cmd` without some names. -/
inductive LostNames (as : List Bool) : CmdRes → CmdRes × List Bool → Prop where
  | err (l) : LostNames as .err (.err, l)
  | stop (l) : LostNames as .stop (.stop, l)
  | cmd (c u) : LostNames as (.cmd c u) (.cmd (keptNames as 0 c) u, as.drop (nameCount c))

theorem frame_lost (as : List Bool) (c : Cmd) (i : Nat) (argv : List CStr) :
    Alike (LostNames as) (argcCmdFrame c i argv)
      (do let r ← argcCmdFrame (keptNames as 0 c) i argv; .ok (r, as.drop (nameCount c))) := by
  unfold argcCmdFrame
  cases argcFrame argv with
  | ub u => exact .ub
  | abort => exact .abort
  | exit k => exact .exit
  | ok o =>
    cases o with
    | none => exact .ok (.err _)
    | some p =>
      obtain ⟨n, f⟩ := p
      simp only [Out.ok_bind]
      by_cases hn : n = 0
      · rw [if_pos hn, if_pos hn]
        by_cases ht : c.type = .rx
        · rw [if_pos ht, if_pos (show (keptNames as 0 c).type = .rx from ht)]
          exact .ok (.cmd c i)
        · rw [if_neg ht, if_neg (show ¬ (keptNames as 0 c).type = .rx from ht)]
          exact .ok (.stop _)
      · rw [if_neg hn, if_neg hn]
        cases frameToBuf f with
        | ub u => exact .ub
        | abort => exact .abort
        | exit k => exact .exit
        | ok p =>
          obtain ⟨f', b⟩ := p
          simp only [Out.ok_bind]
          by_cases hm : f'.hasMask = true
          · rw [if_pos hm, if_pos hm]
            cases frameMaskToBuf f' with
            | ub u => exact .ub
            | abort => exact .abort
            | exit k => exact .exit
            | ok m => exact .ok (.cmd { c with frame := some f', buf := some b, mask := some m } (i + n))
          · rw [if_neg hm, if_neg hm]
            exact .ok (.cmd { c with frame := some f', buf := some b } (i + n))

/-- The rest of a command, after the names copied so far. -/
theorem rest_lost (as : List Bool) (c : Cmd) (i : Nat) (argv : List CStr) (hc : c.type ≠ .name → c.name = none) :
    Alike (LostNames as) (argcCmdRest c i argv) (argcCmdRestA (keptNames as 0 c) i argv (as.drop (nameCount c))) := by
  unfold argcCmdRest argcCmdRestA
  rcases argv with - | ⟨w, - | ⟨n, l⟩⟩
  · exact frame_lost as c i _
  · exact frame_lost as c i _
  · simp only
    by_cases h : w = c!"name" ∧ c.type ≠ .name
    · rw [if_pos h, if_pos (show w = c!"name" ∧ (keptNames as 0 c).type ≠ .name from h)]
      have hn := hc h.2
      have e : strdupA n (as.drop (nameCount c)) =
          ((keptNames as 0 { c with name := some n }).name, as.drop (nameCount { c with name := some n })) := by
        rw [strdupA_eq, granted_drop]
        simp [keptNames, nameCount, hn]
      rw [e]
      exact .ok (.cmd { c with name := some n } (i + 2))
    · rw [if_neg h, if_neg (show ¬ (w = c!"name" ∧ (keptNames as 0 c).type ≠ .name) from h)]
      exact frame_lost as c i _

theorem kept_arg0 (as : List Bool) (t : CmdType) (o : Option CStr) (x : Nat) :
    keptNames as 0 { type := t, arg0 := o, rep := x } = { type := t, arg0 := if granted as 0 then o else none, rep := x } := by
  have h : ∀ b : Bool, (if b = true then (none : Option CStr) else none) = none := fun b => by cases b <;> rfl
  simp only [keptNames, h]

theorem kept_name (as : List Bool) (t : CmdType) (o : Option CStr) :
    keptNames as 0 { type := t, name := o } = { type := t, name := if granted as 0 then o else none } := by
  have h : ∀ b : Bool, (if b = true then (none : Option CStr) else none) = none := fun b => by cases b <;> rfl
  simp only [keptNames, h]
  rfl

theorem cmd_lost (hp : Bool) (argv : List CStr) (as : List Bool) :
    Alike (LostNames as) (argcCmd hp argv) (argcCmdA hp argv as) := by
  unfold argcCmd argcCmdA
  cases argv with
  | nil => exact .ok (.stop _)
  | cons w rest =>
    simp only
    cases cmdWord hp w with
    | help => exact .ok (.err _)
    | other => exact .ok (.stop _)
    | cmd t =>
      cases rest with
      | nil => exact .ok (.stop _)
      | cons a rest' =>
        cases t with
        | hex =>
          have h := rest_lost as { type := .hex } 1 (a :: rest') (fun _ => rfl)
          rw [show keptNames as 0 { type := .hex } = { type := .hex } by rw [kept_arg0]; simp] at h
          exact h
        | name =>
          have h := rest_lost as { type := .name, name := some a } 2 rest' (fun h => absurd rfl h)
          rw [kept_name] at h
          simp only [strdupA_eq]
          exact h
        | pcap =>
          have h := rest_lost as { type := .pcap, arg0 := some a } 2 rest' (fun _ => rfl)
          rw [kept_arg0] at h
          simp only [strdupA_eq]
          exact h
        | rx =>
          have h := rest_lost as { type := .rx, arg0 := some a } 2 rest' (fun _ => rfl)
          rw [kept_arg0] at h
          simp only [strdupA_eq]
          exact h
        | tx =>
          simp only [strdupA_eq]
          cases rest' with
          | nil => exact .ub
          | cons r rest'' =>
            simp only
            by_cases hr : r = c!"rep" ∨ r = c!"repeat"
            · rw [if_pos hr, if_pos hr]
              cases rest'' with
              | nil => exact .ub
              | cons n rest3 =>
                have h := rest_lost as { type := .tx, arg0 := some a, rep := (atoi n % 2 ^ 32).toNat } 4 rest3 (fun _ => rfl)
                rw [kept_arg0] at h
                exact h
            · rw [if_neg hr, if_neg hr]
              have h := rest_lost as { type := .tx, arg0 := some a, rep := 1 } 2 (r :: rest'') (fun _ => rfl)
              rw [kept_arg0] at h
              exact h

theorem keptNames_drop (as : List Bool) (k n : Nat) (c : Cmd) : keptNames (as.drop k) n c = keptNames as (k + n) c := by
  simp only [keptNames, granted_drop, Nat.add_assoc]

theorem keepNames_cons {as : List Bool} {c : Cmd} {cs cs' : List Cmd} (h : KeepNames (as.drop (nameCount c)) cs cs') :
    KeepNames as (c :: cs) (keptNames as 0 c :: cs') := by
  refine ⟨by simp [h.1], fun k x hx => ?_⟩
  cases k with
  | zero =>
    simp only [List.getElem?_cons_zero, Option.some.injEq] at hx
    subst hx
    simp [nameCounts]
  | succ k =>
    simp only [List.getElem?_cons_succ] at hx ⊢
    rw [h.2 k x hx, keptNames_drop]
    simp [nameCounts]

/-- Results of the loop of `argc_cmds`. -/
def LoopAlike (as : List Bool) : Option (List Cmd × List CStr) → Option (List Cmd × List CStr) → Prop
  | none, none => True
  | some (cs, l), some (cs', l') => l' = l ∧ KeepNames as cs cs'
  | _, _ => False

theorem keepNames_nil (as : List Bool) : KeepNames as [] [] := ⟨rfl, fun k c h => by simp at h⟩

theorem loop_lost (hp : Bool) (slots : Nat) (argv : List CStr) (as : List Bool) :
    Alike (LoopAlike as) (argcCmdsLoop hp slots argv) (argcCmdsLoopA hp slots argv as) := by
  induction slots generalizing argv as with
  | zero => exact .ok ⟨rfl, keepNames_nil as⟩
  | succ n ih =>
    unfold argcCmdsLoop argcCmdsLoopA
    by_cases h0 : argv = []
    · rw [if_pos h0, if_pos h0]
      exact .ok ⟨rfl, keepNames_nil as⟩
    · rw [if_neg h0, if_neg h0]
      refine (cmd_lost hp argv as).bind ?_
      intro r x hr
      cases hr with
      | err l => exact .ok trivial
      | stop l => exact .ok ⟨rfl, keepNames_nil as⟩
      | cmd c u =>
        refine (ih (argv.drop u) (as.drop (nameCount c))).bind ?_
        intro o o' ho
        match o, o', ho with
        | none, none, _ => exact .ok trivial
        | some (cs, l), some (cs', l'), ⟨hl, hk⟩ => exact .ok ⟨hl, keepNames_cons hk⟩

/-- The commands, or the refusal, with and without enough memory. -/
def LineAlike (as : List Bool) : Option (List Cmd) → Option (List Cmd) → Prop
  | none, none => True
  | some cs, some cs' => KeepNames as cs cs'
  | _, _ => False

theorem parse_lost (hp : Bool) (argv : List CStr) (as : List Bool) :
    Alike (LineAlike as) (parseCmds hp argv) (parseCmdsA hp argv as) := by
  unfold parseCmds parseCmdsA
  refine (loop_lost hp 100 argv as).bind ?_
  intro o o' ho
  match o, o', ho with
  | none, none, _ => exact .ok trivial
  | some (cs, l), some (cs', l'), ⟨hl, hk⟩ =>
    subst hl
    by_cases h : l' = []
    · simp only [h, if_true]; exact .ok hk
    · simp only [h, if_false]; exact .ok trivial

/-! ## C132: a name that could not be copied is noticed -/

/-- C132 as one would like it: if the tool runs out of memory for names, it does not report success, unless the run is the same
as with enough memory. -/
def C132_statement : Prop :=
  ∀ (w : World) (ms : Int) (caps argv : List CStr) (as : List Bool) (r : RunRes), argcCmdsA w ms caps argv as = .ok r → r.ret = some 0 →
    argcCmds w ms caps argv = .ok r

/-- C132 for the words, as far as it holds: the same lines are refused as with enough memory. Of the commands of all other lines only
names are lost: exactly those for which memory is not granted, in the order of the line. -/
theorem C132_line_partial (hp : Bool) (argv : List CStr) (as : List Bool) :
    (parseCmdsA hp argv as = .ok none ↔ parseCmds hp argv = .ok none) ∧
    (∀ cs, parseCmds hp argv = .ok (some cs) → ∃ cs', parseCmdsA hp argv as = .ok (some cs') ∧ KeepNames as cs cs') ∧
    (∀ cs', parseCmdsA hp argv as = .ok (some cs') → ∃ cs, parseCmds hp argv = .ok (some cs) ∧ KeepNames as cs cs') := by
  have h := parse_lost hp argv as
  revert h
  generalize parseCmds hp argv = x
  generalize parseCmdsA hp argv as = y
  intro h
  cases h with
  | ub => simp
  | abort => simp
  | exit => simp
  | @ok o o' ho =>
    match o, o', ho with
    | none, none, _ => simp
    | some cs, some cs', hk => simpa using (show KeepNames as cs cs' from hk)

theorem keepNames_all {as : List Bool} (ha : ∀ n, granted as n = true) {cs cs' : List Cmd} (h : KeepNames as cs cs') : cs' = cs := by
  apply List.ext_getElem?
  intro k
  cases hk : cs[k]? with
  | none => exact List.getElem?_eq_none (by rw [h.1]; exact List.getElem?_eq_none_iff.mp hk)
  | some c => rw [h.2 k c hk]; simp [keptNames, ha]

/-- With enough memory the run is the usual one. -/
theorem C132_enough (w : World) (ms : Int) (caps argv : List CStr) (as : List Bool) (ha : ∀ a ∈ as, a = true) :
    argcCmdsA w ms caps argv as = argcCmds w ms caps argv := by
  have hg : ∀ n, granted as n = true := by
    intro n
    unfold granted
    cases h : as[n]? with
    | none => rfl
    | some a => rw [ha a (List.mem_of_getElem? h)]; rfl
  have hp : parseCmdsA w.env.cfg.hasPcap argv as = parseCmds w.env.cfg.hasPcap argv := by
    have h := parse_lost w.env.cfg.hasPcap argv as
    revert h
    generalize parseCmds w.env.cfg.hasPcap argv = x
    generalize parseCmdsA w.env.cfg.hasPcap argv as = y
    intro h
    cases h with
    | ub => rfl
    | abort => rfl
    | exit => rfl
    | @ok o o' ho =>
      match o, o', ho with
      | none, none, _ => rfl
      | some cs, some cs', hk => rw [keepNames_all hg hk]
  unfold argcCmdsA argcCmds
  rw [hp]
  rfl

/-! ### Interfaces -/

theorem addToExisting_none (c : Cmd) (a : CStr) (r : Resource) (rs : List Resource) (h : ∀ n, resArg0 r ≠ .ok n) :
    ∀ o, addToExisting c a (r :: rs) ≠ .ok o := by
  intro o ho
  unfold addToExisting at ho
  obtain ⟨n, hn, -⟩ := Out.bind_eq_ok.mp ho
  exact h n hn

/-- After a command without an interface no resources can be set up and opened. -/
theorem mapCmds_lost (cmds : List Cmd) (rs rs' : List Resource) (hm : mapCmds cmds rs = .ok rs')
    (h : (∃ r rest, rs = r :: rest ∧ ∀ n, resArg0 r ≠ .ok n) ∨ ∃ c ∈ cmds, (c.type = .rx ∨ c.type = .tx) ∧ c.arg0 = none) :
    ∃ r rest, rs' = r :: rest ∧ ∀ n, resArg0 r ≠ .ok n := by
  induction cmds generalizing rs with
  | nil =>
    simp only [mapCmds, Out.ok.injEq] at hm
    subst hm
    rcases h with h | ⟨c, hc, -⟩
    · exact h
    · simp at hc
  | cons c cs ih =>
    unfold mapCmds at hm
    obtain ⟨rs1, h1, h2⟩ := Out.bind_eq_ok.mp hm
    apply ih rs1 h2
    unfold addCmd at h1
    rcases h with ⟨r, rest, rfl, hr⟩ | ⟨x, hx, hio, hn⟩
    · left
      split at h1
      · split at h1
        · simp at h1
        · obtain ⟨o, ho, -⟩ := Out.bind_eq_ok.mp h1
          exact absurd ho (addToExisting_none _ _ _ _ hr o)
      · simp only [Out.ok.injEq] at h1
        exact ⟨r, rest, h1.symm, hr⟩
    · rcases List.mem_cons.mp hx with rfl | hx
      · left
        rw [if_pos hio, hn] at h1
        simp only at h1
        split at h1
        · rename_i he
          subst he
          simp only [List.nil_append, Out.ok.injEq] at h1
          exact ⟨_, [], h1.symm, fun n => by simp [resArg0, hn]⟩
        · simp at h1
      · right; exact ⟨x, hx, hio, hn⟩

theorem resolved_lost (env : Env) (cmds : List Cmd) (h : ∃ c ∈ cmds, (c.type = .rx ∨ c.type = .tx) ∧ c.arg0 = none) (r : ExecRes) :
    execResolved env cmds ≠ .ok r := by
  intro hr
  unfold execResolved at hr
  obtain ⟨ep, -, hr⟩ := Out.bind_eq_ok.mp hr
  obtain ⟨eh, -, hr⟩ := Out.bind_eq_ok.mp hr
  obtain ⟨rs, hrs, hr⟩ := Out.bind_eq_ok.mp hr
  obtain ⟨eo, ho, -⟩ := Out.bind_eq_ok.mp hr
  obtain ⟨x, rest, rfl, hx⟩ := mapCmds_lost cmds [] rs hrs (.inr h)
  unfold openAll at ho
  obtain ⟨n, hn, -⟩ := Out.bind_eq_ok.mp ho
  exact hx n hn

theorem pcap_lost (cmds : List Cmd) (h : ∃ c ∈ cmds, c.type = .pcap ∧ c.arg0 = none) (es : List Event) : pcapEvents cmds ≠ .ok es := by
  induction cmds generalizing es with
  | nil => obtain ⟨c, hc, -⟩ := h; simp at hc
  | cons c cs ih =>
    obtain ⟨x, hx, ht, hn⟩ := h
    intro he
    unfold pcapEvents at he
    rcases List.mem_cons.mp hx with rfl | hx
    · simp [ht, hn] at he
    · have hi := ih ⟨x, hx, ht, hn⟩
      split at he
      · split at he
        · obtain ⟨es', h1, -⟩ := Out.bind_eq_ok.mp he
          exact hi es' h1
        · simp at he
      · exact hi es he

theorem resolve_same (all : List Cmd) (c : Cmd) : (resolve all c).type = c.type ∧ (resolve all c).arg0 = c.arg0 := by
  unfold resolve
  split
  · split <;> exact ⟨rfl, rfl⟩
  · exact ⟨rfl, rfl⟩

/-- A command without its interface or file: the only runs that end are those which report unknown names. -/
theorem exec_lost (env : Env) (cmds : List Cmd) (r : ExecRes) (hr : execCmds env cmds = .ok r)
    (h : ∃ c ∈ cmds, (c.type = .rx ∨ c.type = .tx ∨ (env.cfg.hasPcap = true ∧ c.type = .pcap)) ∧ c.arg0 = none) :
    r.ret = some ((cmds.countP (unresolved cmds) : Nat) : Int) ∧ 0 < cmds.countP (unresolved cmds) := by
  by_cases hu : ∃ c ∈ cmds, unresolved cmds c = true
  · obtain ⟨r', h1, -, h2, -⟩ := C54_unknown_names env cmds hu
    rw [hr] at h1
    cases h1
    exact ⟨h2, List.countP_pos_iff.mpr hu⟩
  · exfalso
    have hp : (pairNames cmds cmds).2 = [] := by
      rw [pairNames_eq]
      have : cmds.filter (unresolved cmds) = [] := by
        rw [List.filter_eq_nil_iff]
        intro c hc hcu
        exact hu ⟨c, hc, hcu⟩
      rw [this]; rfl
    have hc1 : (pairNames cmds cmds).1 = cmds.map (resolve cmds) := by rw [pairNames_eq]
    unfold execCmds at hr
    simp only [hp] at hr
    rw [if_neg (by simp)] at hr
    obtain ⟨r1, h1, -⟩ := Out.bind_eq_ok.mp hr
    rw [hc1] at h1
    obtain ⟨c, hc, ht, hn⟩ := h
    have hs := resolve_same cmds c
    have hmem : resolve cmds c ∈ cmds.map (resolve cmds) := List.mem_map_of_mem hc
    rcases ht with ht | ht | ⟨hpc, ht⟩
    · exact resolved_lost env _ ⟨_, hmem, .inl (hs.1.trans ht), hs.2.trans hn⟩ r1 h1
    · exact resolved_lost env _ ⟨_, hmem, .inr (hs.1.trans ht), hs.2.trans hn⟩ r1 h1
    · unfold execResolved at h1
      obtain ⟨ep, he, -⟩ := Out.bind_eq_ok.mp h1
      unfold pcapAll at he
      rw [if_pos hpc] at he
      exact pcap_lost _ ⟨_, hmem, hs.1.trans ht, hs.2.trans hn⟩ ep he

/-- C132 for runs, as far as it holds: a run without some names that reports success has kept all interfaces and files. Each name of a
frame that is referred to and was kept has a definition whose name was kept as well. -/
theorem C132_success_partial (w : World) (ms : Int) (caps argv : List CStr) (as : List Bool) (cs : List Cmd) (r : RunRes)
    (hp : parseCmds w.env.cfg.hasPcap argv = .ok (some cs)) (hr : argcCmdsA w ms caps argv as = .ok r) (h0 : r.ret = some 0) :
    (∀ (k : Nat) (c : Cmd), cs[k]? = some c → (c.type = .rx ∨ c.type = .tx ∨ (w.env.cfg.hasPcap = true ∧ c.type = .pcap)) →
      granted as (nameCounts (cs.take k)) = true) ∧
    (∀ (k : Nat) (c : Cmd) (n : CStr), cs[k]? = some c → refersTo c = some n →
      granted as (nameCounts (cs.take k) + c.arg0.toList.length) = true →
      ∃ (j : Nat) (d : Cmd), cs[j]? = some d ∧ defines n d = true ∧
        granted as (nameCounts (cs.take j) + d.arg0.toList.length) = true) := by
  obtain ⟨cs', hp', hk⟩ := (C132_line_partial w.env.cfg.hasPcap argv as).2.1 cs hp
  unfold argcCmdsA at hr
  rw [hp'] at hr
  simp only [Out.ok_bind] at hr
  obtain ⟨x, hx, hr⟩ := Out.bind_eq_ok.mp hr
  simp only [Out.ok.injEq] at hr
  have hx0 : x.ret = some 0 := by rw [← hr] at h0; exact h0
  have hmem : ∀ (k : Nat) (c : Cmd), cs[k]? = some c → keptNames as (nameCounts (cs.take k)) c ∈ cs' := fun k c h =>
    List.mem_of_getElem? (hk.2 k c h)
  constructor
  · intro k c hc ht
    cases hg : granted as (nameCounts (cs.take k)) with
    | true => rfl
    | false =>
      exfalso
      obtain ⟨e1, e2⟩ := exec_lost _ cs' x hx ⟨_, hmem k c hc, ht, by simp [keptNames, hg]⟩
      rw [hx0, Option.some.injEq] at e1
      omega
  · intro k c n hc hn hg
    have hu : ∀ y ∈ cs', unresolved cs' y = false := by
      intro y hy
      cases h : unresolved cs' y with
      | false => rfl
      | true =>
        obtain ⟨r', h1, -, -, h2, -⟩ := C54_unknown_names { w.env with timeoutMs := ms } cs' ⟨y, hy, h⟩
        rw [hx] at h1
        cases h1
        exact absurd hx0 h2
    have hu1 := hu _ (hmem k c hc)
    have href : refersTo (keptNames as (nameCounts (cs.take k)) c) = some n := by
      unfold refersTo at hn ⊢
      simpa [keptNames, hg] using hn
    unfold unresolved at hu1
    rw [href] at hu1
    simp only [Bool.not_eq_false', List.any_eq_true] at hu1
    obtain ⟨y, hy, hd⟩ := hu1
    obtain ⟨j, hj, rfl⟩ := List.mem_iff_getElem.mp hy
    have hj' : j < cs.length := by rw [← hk.1]; exact hj
    have e := hk.2 j cs[j] (List.getElem?_eq_getElem hj')
    rw [List.getElem?_eq_getElem hj, Option.some.injEq] at e
    rw [e] at hd
    simp only [defines, keptNames, Bool.and_eq_true, beq_iff_eq] at hd
    obtain ⟨⟨d1, d2⟩, d3⟩ := hd
    refine ⟨j, cs[j], List.getElem?_eq_getElem hj', ?_, ?_⟩
    · split at d3
      · simp [defines, d1, d2, d3]
      · simp at d3
    · split at d3
      · assumption
      · simp at d3

/-- The result of a run with these answers, if it ends normally. -/
def shortResult (w : World) (argv : List CStr) (as : List Bool) : RunRes := (argcCmdsA w 100 [] argv as).get?.getD { ret := none }

theorem shortResult_ok {w : World} {argv : List CStr} {as : List Bool} (h : (argcCmdsA w 100 [] argv as).get?.isSome = true) :
    argcCmdsA w 100 [] argv as = .ok (shortResult w argv as) := by
  unfold shortResult
  cases he : argcCmdsA w 100 [] argv as with
  | ok r => rfl
  | _ => rw [he] at h; simp [Out.get?] at h

/-- A test that waits for a named frame. -/
def waitNamed : List CStr := [c!"name", c!"f", c!"eth", c!"rx", c!"e", c!"name", c!"f"]

/-- **C132 does not hold**: if the memory for the name of an expected frame is not granted, the tool expects nothing and
reports success, though the frame has not arrived. -/
theorem C132_false : ¬ C132_statement := by
  intro hs
  have h := hs (world (listening [])) 100 [] waitNamed [true, true, false] (shortResult (world (listening [])) waitNamed [true, true, false])
    (shortResult_ok (by decide +kernel)) (by decide +kernel)
  have h2 := congrArg (fun o => o.get?.map (·.ret)) h
  revert h2
  decide +kernel

/-- Without the name of the interface the tool reads through NULL. Without the name of the definition it reports that the frame
is not known. -/
theorem C132_examples : (argcCmdsA (world (listening [])) 100 [] waitNamed [true, false] = .ub .nullDeref) ∧
    (shortResult (world (listening [])) waitNamed [false]).ret = some 1 ∧
    (shortResult (world (listening [])) waitNamed [false]).events = [.noSuchName c!"f"] ∧
    (shortResult (world (listening [])) waitNamed []).ret = some 1 := by
  refine ⟨?_, by decide +kernel, by decide +kernel, by decide +kernel⟩
  have hk : ∀ o : Out RunRes, (match o with | .ub .nullDeref => true | _ => false) = true → o = .ub .nullDeref := by
    intro o h
    split at h
    · rfl
    · simp at h
  exact hk _ (by decide +kernel)

/-- Non-vacuity of `C132_success_partial`: a frame that is not referred to is known without its name. -/
example : (argcCmdsA (world (listening [])) 100 [] [c!"name", c!"f", c!"eth", c!"rx", c!"e"] [false]).get?.map (·.ret) = some (some 0) ∧
    ((parseCmds true [c!"name", c!"f", c!"eth", c!"rx", c!"e"]).get?.getD none).map (·.map nameCount) = some [1, 1] := by
  decide +kernel

end Ef.Props
