import Verif.Spec.CaptureMemory
import Verif.Props.Capture
import Verif.Props.Exhausted

/-!
# The option of a capture when memory runs out (C135)
-/

namespace Ef.Props

open Ef Ef.Spec

/-- The full claim: without memory the option of a capture is refused, and a refused option deletes no file. False. -/
def C135_statement : Prop :=
  ∀ (s : CStr) (as : List Bool), ∃ r, captureAddA s as = .ok r ∧ (r.cmd = none → r.deleted = [])

/-- The command for an option with the given elements, as it is built. -/
theorem command_parts (es : List CStr) : joinWith ch!" " (tcpdumpWords es) =
    c!"tcpdump -i " ++ es.headD [] ++ optText c!" -s " (elemOf es 1) ++ optText c!" -j " (elemOf es 2) ++ c!" -w " ++ fileOf es ++
      optText c!" -c " (elemOf es 4) := by
  unfold tcpdumpWords
  generalize es.headD [] = a
  generalize fileOf es = f
  generalize elemOf es 1 = x
  generalize elemOf es 2 = y
  generalize elemOf es 4 = z
  cases x <;> cases y <;> cases z <;> simp [optText, joinWith]

theorem addName_take (es : List CStr) : addName (es.take 5) = fileOf es := by
  unfold addName fileOf
  rw [elemGiven_take es 3 (by decide), head_take]
  cases elemOf es 3 <;> rfl

theorem addOptA_some (t opt : CStr) (v : Option CStr) (as : List Bool) : addOptA (some t) opt v as =
    .ok (if v.isNone || granted as 0 then some (some (t ++ optText opt v)) else none, as.drop v.toList.length) := by
  cases v with
  | none => simp [addOptA, optText]
  | some v =>
    cases h : granted as 0 <;> simp [addOptA, bprintfA, grant_eq, optText, h]

theorem addOptA_none (opt : CStr) (v : Option CStr) (as : List Bool) :
    addOptA none opt v as = if v.isNone then .ok (some none, as) else .ub .nullDeref := by
  cases v <;> rfl

theorem refusedFirst_append (as : List Bool) (a b : List Wanted) : ∀ n,
    refusedFirst as n (a ++ b) = (refusedFirst as n a).or (refusedFirst as (n + a.length) b) := by
  induction a with
  | nil => intro n; simp [refusedFirst]
  | cons w a ih =>
    intro n
    rw [List.cons_append, refusedFirst, refusedFirst]
    split
    · rw [ih, List.length_cons, show n + 1 + a.length = n + (a.length + 1) by omega]
    · rfl

theorem refusedFirst_opt (as : List Bool) (w : Wanted) (v : Option CStr) (n : Nat) :
    refusedFirst as n (v.toList.map (fun _ => w)) = if v.isNone || granted as n then none else some w := by
  cases v with
  | none => rfl
  | some v => simp [refusedFirst]

theorem addEndA_eq (es : List CStr) (f t : CStr) (as : List Bool) : addEndA es f t as =
    .ok ⟨[f], if (elemGiven es 4).isNone || granted as 0 then
      if granted as (elemGiven es 4).toList.length then some (t ++ optText c!" -c " (elemGiven es 4)) else none else none⟩ := by
  unfold addEndA
  generalize elemGiven es 4 = z
  rw [addOptA_some, Out.ok_bind]
  cases h : z.isNone || granted as 0 with
  | false => simp
  | true =>
    simp only [if_true, grant_eq, granted_drop, Nat.add_zero]
    cases granted as z.toList.length <;> rfl

theorem addFileA_some (es : List CStr) (t : CStr) (as : List Bool) : addFileA es (some t) as =
    if granted as 0 then
      if granted as 1 then addEndA es (addName es) (t ++ c!" -w " ++ addName es) (as.drop 2) else .ok ⟨[addName es], none⟩
    else .ub .nullDeref := by
  unfold addFileA
  simp only [bprintfA, grant_eq]
  cases granted as 0 with
  | false => rfl
  | true =>
    simp only [if_true, granted_drop, List.drop_drop]
    cases granted as (1 + 0) <;> rfl

theorem addFileA_none (es : List CStr) (as : List Bool) : addFileA es none as = .ub .nullDeref := by
  unfold addFileA
  split <;> rfl

/-- **C135** (partial): what happens depends on the first request that is refused. If there is none the capture is added as usual. If it is
the one for the length or for the time stamps the option is refused and no file touched. If it is one after the name of the file the option is
refused, but the file is gone. Otherwise NULL is used. -/
theorem C135_outcome_partial (es : List CStr) (hne : es ≠ []) (hc : ∀ e ∈ es, ch!"," ∉ e) (as : List Bool) :
    captureAddA (joinWith ch!"," es) as =
      match refusedFirst as 0 (requestsFor es) with
      | none => .ok (addedFor es)
      | some .length => .ok refusedEarly
      | some .stamps => .ok refusedEarly
      | some .interface => .ub .nullDeref
      | some .file => .ub .nullDeref
      | some .written => .ok (refusedLate es)
      | some .number => .ok (refusedLate es)
      | some .entry => .ok (refusedLate es) := by
  unfold captureAddA addedFor refusedLate refusedEarly requestsFor
  simp only [captureElems_join es hne hc, elemGiven_take es 1 (by decide), elemGiven_take es 2 (by decide), head_take, command_parts,
    bprintfA, grant_eq, refusedFirst_append, refusedFirst_opt, List.length_append, List.length_map, List.length_cons, List.length_nil,
    Nat.zero_add]
  cases h0 : granted as 0 with
  | false =>
    simp only [Bool.false_eq_true, if_false, addOptA_none, refusedFirst, h0, Option.or]
    cases (elemOf es 1).isNone with
    | false => rfl
    | true =>
      simp only [if_true, Out.ok_bind, addOptA_none]
      cases (elemOf es 2).isNone with
      | false => rfl
      | true => exact addFileA_none _ _
  | true =>
    simp only [if_true, addOptA_some, Out.ok_bind, granted_drop, refusedFirst, h0, Nat.add_zero, Option.or]
    cases h1 : (elemOf es 1).isNone || granted as 1 with
    | false => rfl
    | true =>
      simp only [if_true, addOptA_some, Out.ok_bind, granted_drop, List.drop_drop, Nat.add_zero]
      cases h2 : (elemOf es 2).isNone || granted as (1 + (elemOf es 1).toList.length) with
      | false => rfl
      | true =>
        simp only [if_true, addFileA_some, addEndA_eq, elemGiven_take es 4 (by decide), addName_take, granted_drop, List.drop_drop,
          Nat.add_zero]
        generalize 1 + (elemOf es 1).toList.length + (elemOf es 2).toList.length = n
        generalize (elemOf es 4).toList.length = m
        cases granted as n with
        | false => rfl
        | true =>
          cases granted as (n + 1) with
          | false => rfl
          | true =>
            cases (elemOf es 4).isNone || granted as (n + 2) with
            | false => rfl
            | true => cases granted as (n + 2 + m) <;> rfl

/-- **C135** (partial): a capture that is added is the one of the option, and it takes that no request is refused. -/
theorem C135_added_partial (es : List CStr) (hne : es ≠ []) (hc : ∀ e ∈ es, ch!"," ∉ e) (as : List Bool) (r : AddRes)
    (h : captureAddA (joinWith ch!"," es) as = .ok r) (ha : r.cmd ≠ none) :
    r = addedFor es ∧ ∀ n < (requestsFor es).length, granted as n = true := by
  have key : ∀ (ws : List Wanted) (n : Nat), refusedFirst as n ws = none → ∀ k < ws.length, granted as (n + k) = true := by
    intro ws
    induction ws with
    | nil => intro n _ k hk; simp at hk
    | cons w ws ih =>
      intro n hn k hk
      rw [refusedFirst] at hn
      split at hn
      · rename_i hg
        cases k with
        | zero => exact hg
        | succ k =>
          have := ih (n + 1) hn k (by simpa using hk)
          rw [show n + (k + 1) = n + 1 + k by omega]
          exact this
      · cases hn
  rw [C135_outcome_partial es hne hc as] at h
  split at h <;> cases h <;> first | exact absurd rfl ha | skip
  rename_i hn
  refine ⟨rfl, fun n hk => ?_⟩
  have := key _ 0 hn n hk
  rwa [Nat.zero_add] at this

/-- **C135** (partial): whatever the allocator answers, no file but the one of the capture is deleted. -/
theorem C135_files_partial (es : List CStr) (hne : es ≠ []) (hc : ∀ e ∈ es, ch!"," ∉ e) (as : List Bool) (r : AddRes)
    (h : captureAddA (joinWith ch!"," es) as = .ok r) : r.deleted = [] ∨ r.deleted = [fileOf es] := by
  rw [C135_outcome_partial es hne hc as] at h
  split at h <;> cases h <;> simp [addedFor, refusedLate, refusedEarly]

theorem refusedFirst_enough (as : List Bool) (ha : ∀ a ∈ as, a = true) (ws : List Wanted) : ∀ n, refusedFirst as n ws = none := by
  induction ws with
  | nil => intro n; rfl
  | cons w ws ih =>
    intro n
    rw [refusedFirst, if_pos, ih]
    unfold granted
    cases h : as[n]? with
    | none => rfl
    | some a => rw [ha a (List.mem_of_getElem? h)]; rfl

/-- **C135**: with enough memory this is the model used elsewhere. -/
theorem C135_enough (s : CStr) (as : List Bool) (ha : ∀ a ∈ as, a = true) :
    captureAddA s as = .ok ⟨[captureFile s], some (captureCmd s)⟩ := by
  obtain ⟨es, hne, hc, rfl⟩ := C68_every_text s
  rw [C135_outcome_partial es hne hc as, refusedFirst_enough as ha, (C68_capture_command es hne hc).1, (C68_capture_command es hne hc).2]
  rfl

/-- The files of an option, whatever the allocator answers, and that it is added with its own command. -/
theorem capture_added (s : CStr) (as : List Bool) (r : AddRes) (h : captureAddA s as = .ok r) :
    (∀ f ∈ r.deleted, f = captureFile s) ∧ (r.cmd ≠ none → r = ⟨[captureFile s], some (captureCmd s)⟩) := by
  obtain ⟨es, hne, hc, rfl⟩ := C68_every_text s
  rw [(C68_capture_command es hne hc).1, (C68_capture_command es hne hc).2]
  refine ⟨fun f hf => ?_, fun ha => (C135_added_partial es hne hc as r h ha).1⟩
  rcases C135_files_partial es hne hc as r h with hd | hd <;> rw [hd] at hf
  · cases hf
  · exact List.mem_singleton.mp hf

theorem opts_refused (w : World) (argv : List CStr) (os : List Opt) : ∀ (ms : Int) (caps : List CStr) (ass : List (List Bool)) (r : RunRes),
    mainLoopOptsC w argv os ms caps (caps.map captureFile) ass = .ok r →
    mainLoopOpts w argv os ms caps = .ok r ∨
      ∃ d, r = { ret := some (-1), deleted := d } ∧ ∀ f ∈ d, ∃ a, (a ∈ caps ∨ Opt.capture a ∈ os) ∧ f = captureFile a := by
  induction os with
  | nil => intro ms caps ass r h; exact Or.inl h
  | cons o os ih =>
    intro ms caps ass r h
    cases o with
    | version => exact Or.inl h
    | help => exact Or.inl h
    | bad => exact Or.inl h
    | timeout a =>
      rcases ih _ _ _ _ h with h | ⟨d, h1, h2⟩
      · exact Or.inl h
      · refine Or.inr ⟨d, h1, fun f hf => ?_⟩
        obtain ⟨b, hb, hf⟩ := h2 f hf
        exact ⟨b, hb.imp id (List.mem_cons_of_mem _), hf⟩
    | capture a =>
      obtain ⟨x, hx, h⟩ := Out.bind_eq_ok.mp h
      obtain ⟨h3, h4⟩ := capture_added a _ x hx
      cases hcmd : x.cmd with
      | none =>
        rw [hcmd] at h
        cases h
        refine Or.inr ⟨_, rfl, fun f hf => ?_⟩
        rcases List.mem_append.mp hf with hf | hf
        · obtain ⟨b, hb, rfl⟩ := List.mem_map.mp hf
          exact ⟨b, Or.inl hb, rfl⟩
        · exact ⟨a, Or.inr (List.mem_cons_self ..), h3 f hf⟩
      | some t =>
        rw [hcmd] at h
        have hd : x.deleted = [captureFile a] := by rw [h4 (by rw [hcmd]; simp)]
        simp only [hd] at h
        have e : caps.map captureFile ++ [captureFile a] = (caps ++ [a]).map captureFile := by simp
        rw [e] at h
        rcases ih _ _ _ _ h with h | ⟨d, h1, h2⟩
        · exact Or.inl h
        · refine Or.inr ⟨d, h1, fun f hf => ?_⟩
          obtain ⟨b, hb, hf⟩ := h2 f hf
          refine ⟨b, ?_, hf⟩
          rcases hb with hb | hb
          · rcases List.mem_append.mp hb with hb | hb
            · exact Or.inl hb
            · simp only [List.mem_singleton] at hb
              subst hb
              exact Or.inr (List.mem_cons_self ..)
          · exact Or.inr (List.mem_cons_of_mem _ hb)

/-- **C135** (partial): a run that ends is the one with enough memory, or it fails before anything is sent, received or recorded, and deletes
no files but those of its captures. -/
theorem C135_run_partial (w : World) (ass : List (List Bool)) (argv : List CStr) (r : RunRes) (h : mainC w ass argv = .ok r) :
    main_ w argv = .ok r ∨
      ∃ d, r = { ret := some (-1), deleted := d } ∧ ∀ f ∈ d, ∃ a, Opt.capture a ∈ (getopt w.posix argv).1 ∧ f = captureFile a := by
  rcases opts_refused w (getopt w.posix argv).2 (getopt w.posix argv).1 100 [] ass r h with h | ⟨d, h1, h2⟩
  · exact Or.inl h
  · refine Or.inr ⟨d, h1, fun f hf => ?_⟩
    obtain ⟨a, ha, hf⟩ := h2 f hf
    rcases ha with ha | ha
    · simp at ha
    · exact ⟨a, ha, hf⟩

theorem opts_enough (w : World) (argv : List CStr) (os : List Opt) : ∀ (ms : Int) (caps : List CStr) (ass : List (List Bool)),
    (∀ as ∈ ass, ∀ a ∈ as, a = true) →
    mainLoopOptsC w argv os ms caps (caps.map captureFile) ass = mainLoopOpts w argv os ms caps := by
  induction os with
  | nil => intro ms caps ass _; rfl
  | cons o os ih =>
    intro ms caps ass ha
    cases o with
    | version => rfl
    | help => rfl
    | bad => rfl
    | timeout a => exact ih _ _ _ ha
    | capture a =>
      rw [mainLoopOptsC, mainLoopOpts, C135_enough a (ass.headD []) (by cases ass with
        | nil => simp
        | cons as ass => exact ha as (List.mem_cons_self ..)), Out.ok_bind]
      have e : caps.map captureFile ++ [captureFile a] = (caps ++ [a]).map captureFile := by simp
      simp only [e]
      exact ih _ _ _ (fun as h => ha as (List.mem_of_mem_tail h))

/-- **C135**: with enough memory the run is the usual one. -/
theorem C135_run_enough (w : World) (ass : List (List Bool)) (argv : List CStr) (ha : ∀ as ∈ ass, ∀ a ∈ as, a = true) :
    mainC w ass argv = main_ w argv := opts_enough w _ _ 100 [] ass ha

/-- The second request is for the length, if there is one, else for the name of the file. -/
theorem C135_examples :
    captureAddA c!"eth0,64" [true, false] = .ok ⟨[], none⟩ ∧
    captureAddA c!"eth0" [true, false] = .ub .nullDeref ∧
    captureAddA c!"eth0" [true, true, false] = .ok ⟨[c!"eth0.pcap"], none⟩ ∧
    captureAddA c!"eth0" [true, true, true, true, false] = .ok ⟨[c!"eth0.pcap"], some c!"tcpdump -i eth0 -w eth0.pcap"⟩ :=
  ⟨rfl, rfl, rfl, rfl⟩

/-- A run that fails; the recording is gone. -/
theorem C135_run_example (w : World) :
    mainC w [[true, true, false]] [c!"-c", c!"eth0", c!"tx", c!"eth1", c!"eth"] = .ok { ret := some (-1), deleted := [c!"eth0.pcap"] } := by
  have h : (getopt w.posix [c!"-c", c!"eth0", c!"tx", c!"eth1", c!"eth"]).1 = [.capture c!"eth0"] := by cases w.posix <;> decide +kernel
  unfold mainC
  simp only [h]
  rfl

/-- **C135** is false in full: the recording of an earlier run is deleted and the option then refused. -/
theorem C135_false : ¬ C135_statement := by
  intro h
  obtain ⟨r, hr, hd⟩ := h c!"eth0" [true, true, false]
  rw [C135_examples.2.2.1] at hr
  cases hr
  exact absurd (hd rfl) (by decide)

/-- It is also false that the option is always refused: NULL may be used instead. -/
theorem C135_false_null : ¬ ∀ (s : CStr) (as : List Bool), ∃ r, captureAddA s as = .ok r := by
  intro h
  obtain ⟨r, hr⟩ := h c!"eth0" [false]
  have : captureAddA c!"eth0" [false] = .ub .nullDeref := rfl
  rw [this] at hr
  cases hr

end Ef.Props
