import Verif.Lemmas.Report
import Verif.Props.Tool

/-!
# The printed report (C77)
-/

namespace Ef.Props

open Spec

/-! ## Where the names in events come from -/

/-- The names in a command can be read in a text. -/
def TextOk (c : Cmd) : Prop := (∀ a, c.arg0 = some a → Readable a) ∧ (∀ n, c.name = some n → OneLine n)

/-- The names in the commands of resources can be read in a text. -/
def TextsOk (rs : List Resource) : Prop := ∀ r ∈ rs, ∀ c ∈ r.cmds, TextOk c

theorem textsOk_cons {r : Resource} {rs : List Resource} : TextsOk (r :: rs) ↔ (∀ c ∈ r.cmds, TextOk c) ∧ TextsOk rs := by
  unfold TextsOk; simp

theorem resArg0_readable {r : Resource} {a : CStr} (h : ∀ c ∈ r.cmds, TextOk c) (ha : resArg0 r = .ok a) : Readable a := by
  unfold resArg0 at ha
  split at ha
  · simp at ha
  · rename_i c cs hc
    split at ha
    · rename_i a' h1
      simp only [Out.ok.injEq] at ha
      subst ha
      exact (h c (by rw [hc]; simp)).1 _ h1
    · simp at ha

theorem matchCmds_text {b : Buf} {cs : List Cmd} {c : Cmd} {cs' : List Cmd} (h : ∀ c ∈ cs, TextOk c)
    (hm : matchCmds b cs = .ok (some (c, cs'))) : TextOk c ∧ ∀ c ∈ cs', TextOk c := by
  induction cs generalizing c cs' with
  | nil => simp [matchCmds] at hm
  | cons x cs ih =>
    have hx := h x (by simp)
    have hcs : ∀ c ∈ cs, TextOk c := fun c hc => h c (by simp [hc])
    unfold matchCmds at hm
    rw [Out.bind_eq_ok] at hm
    obtain ⟨t, _, hm⟩ := hm
    split at hm
    · simp only [Out.ok.injEq, Option.some.injEq, Prod.mk.injEq] at hm
      obtain ⟨rfl, rfl⟩ := hm
      refine ⟨hx, fun c hc => ?_⟩
      rcases List.mem_cons.mp hc with rfl | hc
      · exact hx
      · exact hcs c hc
    · rw [Out.bind_eq_ok] at hm
      obtain ⟨o, ho, hm⟩ := hm
      cases o with
      | none => simp at hm
      | some p =>
        obtain ⟨m, cs1⟩ := p
        simp only [Out.ok.injEq, Option.some.injEq, Prod.mk.injEq] at hm
        obtain ⟨rfl, rfl⟩ := hm
        obtain ⟨h1, h2⟩ := ih hcs ho
        refine ⟨h1, fun c hc => ?_⟩
        rcases List.mem_cons.mp hc with rfl | hc
        · exact hx
        · exact h2 c hc

theorem rxResource_text {cfg s i r r' e} (hr : ∀ c ∈ r.cmds, TextOk c) (h : rxResource cfg s i r = .ok (r', e)) :
    (∀ c ∈ r'.cmds, TextOk c) ∧ ∀ x ∈ e, ReadableEvent x := by
  unfold rxResource at h
  split at h
  · split at h
    · simp only [Out.ok.injEq, Prod.mk.injEq] at h
      obtain ⟨rfl, rfl⟩ := h
      exact ⟨hr, by simp⟩
    · unfold rxFrame at h
      simp only at h
      split at h
      · simp only [Out.ok.injEq, Prod.mk.injEq] at h
        obtain ⟨rfl, rfl⟩ := h
        exact ⟨hr, by simp⟩
      · simp only [Out.bind_eq_ok] at h
        obtain ⟨b, _, o, ho, h⟩ := h
        split at h
        · rename_i c cs
          obtain ⟨h1, h2⟩ := matchCmds_text hr ho
          split at h
          · rename_i a ha
            simp only [Out.ok.injEq, Prod.mk.injEq] at h
            obtain ⟨rfl, rfl⟩ := h
            refine ⟨h2, fun x hx => ?_⟩
            rw [List.mem_singleton] at hx
            subst hx
            exact ⟨h1.1 a ha, h1.2⟩
          · simp at h
        · simp only [Out.bind_eq_ok] at h
          obtain ⟨a, ha, h⟩ := h
          simp only [Out.ok.injEq, Prod.mk.injEq] at h
          obtain ⟨rfl, rfl⟩ := h
          refine ⟨hr, fun x hx => ?_⟩
          rw [List.mem_singleton] at hx
          subst hx
          exact resArg0_readable hr ha
  · simp only [Out.ok.injEq, Prod.mk.injEq] at h
    obtain ⟨rfl, rfl⟩ := h
    exact ⟨hr, by simp⟩

theorem rxAll_text {cfg s i rs rs' es} (hr : TextsOk rs) (h : rxAll cfg s i rs = .ok (rs', es)) :
    TextsOk rs' ∧ ∀ x ∈ es, ReadableEvent x := by
  induction rs generalizing i rs' es with
  | nil =>
    simp only [rxAll, Out.ok.injEq, Prod.mk.injEq] at h
    obtain ⟨rfl, rfl⟩ := h
    exact ⟨hr, by simp⟩
  | cons r rs ih =>
    rw [textsOk_cons] at hr
    unfold rxAll at h
    simp only [Out.bind_eq_ok] at h
    obtain ⟨⟨r', e⟩, h1, ⟨rs1, es1⟩, h2, h3⟩ := h
    simp only [Out.ok.injEq, Prod.mk.injEq] at h3
    obtain ⟨rfl, rfl⟩ := h3
    obtain ⟨a1, a2⟩ := rxResource_text hr.1 h1
    obtain ⟨b1, b2⟩ := ih hr.2 h2
    exact ⟨textsOk_cons.mpr ⟨a1, b1⟩, fun x hx => (List.mem_append.mp hx).elim (a2 x) (b2 x)⟩

theorem textOk_upd {c : Cmd} (h : TextOk c) (n : Nat) (d : Bool) : TextOk { c with rep := n, done := d } := h

theorem txOne_text {c : Cmd} {b : Buf} {a : CStr} {res : Int} (hc : TextOk c) (ha : c.arg0 = some a) :
    TextOk (txOne c b a res).1 ∧ ∀ x ∈ (txOne c b a res).2.1, ReadableEvent x := by
  unfold txOne
  simp only
  split
  · refine ⟨textOk_upd hc _ _, fun x hx => ?_⟩
    simp only [List.mem_cons, List.not_mem_nil, or_false] at hx
    rcases hx with rfl | rfl
    · trivial
    · exact ⟨hc.1 a ha, hc.2⟩
  · refine ⟨textOk_upd hc _ c.done, fun x hx => ?_⟩
    rw [List.mem_singleton] at hx
    subst hx
    trivial

theorem txRound_text {w send i k rs rs' k' es more} (hr : TextsOk rs) (h : txRound w send i k rs = .ok (rs', k', es, more)) :
    TextsOk rs' ∧ ∀ x ∈ es, ReadableEvent x := by
  induction rs generalizing i k rs' k' es more with
  | nil =>
    simp only [txRound, Out.ok.injEq, Prod.mk.injEq] at h
    obtain ⟨rfl, _, rfl, _⟩ := h
    exact ⟨hr, by simp⟩
  | cons r rs ih =>
    rw [textsOk_cons] at hr
    unfold txRound at h
    split at h
    · simp only [Out.bind_eq_ok] at h
      obtain ⟨o, h1, h⟩ := h
      rcases txFirst_ok h1 with ⟨rfl, _⟩ | ⟨j, c, b, a, rfl, hj, _, _, _, ha⟩
      · simp only [Out.bind_eq_ok] at h
        obtain ⟨⟨rs1, k1, es1, m1⟩, h2, h3⟩ := h
        simp only [Out.ok.injEq, Prod.mk.injEq] at h3
        obtain ⟨rfl, _, rfl, _⟩ := h3
        obtain ⟨b1, b2⟩ := ih hr.2 h2
        exact ⟨textsOk_cons.mpr ⟨hr.1, b1⟩, b2⟩
      · simp only [Out.bind_eq_ok] at h
        obtain ⟨⟨rs1, k1, es1, m1⟩, h2, h3⟩ := h
        simp only [Out.ok.injEq, Prod.mk.injEq] at h3
        obtain ⟨rfl, _, rfl, _⟩ := h3
        obtain ⟨b1, b2⟩ := ih hr.2 h2
        obtain ⟨c1, c2⟩ := txOne_text (b := b) (res := send k) (hr.1 c (List.mem_of_getElem? hj)) ha
        refine ⟨textsOk_cons.mpr ⟨fun x hx => ?_, b1⟩, fun x hx => (List.mem_append.mp hx).elim (c2 x) (b2 x)⟩
        rcases List.mem_or_eq_of_mem_set hx with hx | rfl
        · exact hr.1 x hx
        · exact c1
    · simp only [Out.bind_eq_ok] at h
      obtain ⟨⟨rs1, k1, es1, m1⟩, h2, h3⟩ := h
      simp only [Out.ok.injEq, Prod.mk.injEq] at h3
      obtain ⟨rfl, _, rfl, _⟩ := h3
      obtain ⟨b1, b2⟩ := ih hr.2 h2
      exact ⟨textsOk_cons.mpr ⟨hr.1, b1⟩, b2⟩

theorem txLoop_text {w send} : ∀ {fuel k rs fin rs' es}, TextsOk rs → txLoop w send fuel k rs = .ok (fin, rs', es) →
    TextsOk rs' ∧ ∀ x ∈ es, ReadableEvent x := by
  intro fuel
  induction fuel with
  | zero =>
    intro k rs fin rs' es hr h
    simp only [txLoop, Out.ok.injEq, Prod.mk.injEq] at h
    obtain ⟨_, rfl, rfl⟩ := h
    exact ⟨hr, by simp⟩
  | succ fuel ih =>
    intro k rs fin rs' es hr h
    unfold txLoop at h
    simp only [Out.bind_eq_ok] at h
    obtain ⟨⟨rs1, k1, e1, m1⟩, h1, h⟩ := h
    obtain ⟨a1, a2⟩ := txRound_text hr h1
    simp only at h
    split at h
    · simp only [Out.bind_eq_ok] at h
      obtain ⟨⟨f2, rs2, e2⟩, h2, h3⟩ := h
      simp only [Out.ok.injEq, Prod.mk.injEq] at h3
      obtain ⟨_, rfl, rfl⟩ := h3
      obtain ⟨b1, b2⟩ := ih a1 h2
      exact ⟨b1, fun x hx => (List.mem_append.mp hx).elim (a2 x) (b2 x)⟩
    · simp only [Out.ok.injEq, Prod.mk.injEq] at h
      obtain ⟨_, rfl, rfl⟩ := h
      exact ⟨a1, a2⟩

theorem mainLoop_text {cfg fuel tend} : ∀ {hist left rs st rs' es}, TextsOk rs →
    mainLoop cfg fuel tend hist left rs = .ok (st, rs', es) → TextsOk rs' ∧ ∀ x ∈ es, ReadableEvent x := by
  intro hist
  have w : ∀ left, ∀ x ∈ [Event.wait left], ReadableEvent x := by
    intro left x hx
    rw [List.mem_singleton] at hx
    subst hx
    trivial
  induction hist with
  | nil =>
    intro left rs st rs' es hr h
    unfold mainLoop at h
    split at h <;> (simp only [Out.ok.injEq, Prod.mk.injEq] at h; obtain ⟨_, rfl, rfl⟩ := h; exact ⟨hr, by first | exact w _ | simp⟩)
  | cons s hist ih =>
    intro left rs st rs' es hr h
    unfold mainLoop at h
    split at h
    · simp only [Out.ok.injEq, Prod.mk.injEq] at h; obtain ⟨_, rfl, rfl⟩ := h; exact ⟨hr, by simp⟩
    · simp only at h
      split at h
      · simp only [Out.ok.injEq, Prod.mk.injEq] at h; obtain ⟨_, rfl, rfl⟩ := h; exact ⟨hr, w _⟩
      · split at h
        · simp only [Out.ok.injEq, Prod.mk.injEq] at h; obtain ⟨_, rfl, rfl⟩ := h; exact ⟨hr, w _⟩
        · simp only [Out.bind_eq_ok] at h
          obtain ⟨⟨fin, rs1, e1⟩, h1, h⟩ := h
          unfold process at h1
          simp only [Out.bind_eq_ok] at h1
          obtain ⟨⟨rs3, e3⟩, h3, ⟨f4, rs4, e4⟩, h4, h1⟩ := h1
          simp only [Out.ok.injEq, Prod.mk.injEq] at h1
          obtain ⟨a1, a2⟩ := rxAll_text hr h3
          obtain ⟨b1, b2⟩ := txLoop_text a1 h4
          obtain ⟨_, rfl, rfl⟩ := h1
          simp only at h
          split at h
          · simp only [Out.bind_eq_ok] at h
            obtain ⟨⟨f2, rs2, e2⟩, h2, h5⟩ := h
            simp only [Out.ok.injEq, Prod.mk.injEq] at h5
            obtain ⟨_, rfl, rfl⟩ := h5
            obtain ⟨c1, c2⟩ := ih b1 h2
            refine ⟨c1, fun x hx => ?_⟩
            simp only [List.mem_cons, List.mem_append] at hx
            rcases hx with rfl | (hx | hx) | hx
            · trivial
            · exact a2 x hx
            · exact b2 x hx
            · exact c2 x hx
          · simp only [Out.ok.injEq, Prod.mk.injEq] at h
            obtain ⟨_, rfl, rfl⟩ := h
            refine ⟨b1, fun x hx => ?_⟩
            simp only [List.mem_cons, List.mem_append] at hx
            rcases hx with rfl | hx | hx
            · trivial
            · exact a2 x hx
            · exact b2 x hx

theorem addToExisting_text {c : Cmd} {a : CStr} (hc : TextOk c) {rs rs' : List Resource} (hr : TextsOk rs)
    (h : addToExisting c a rs = .ok (some rs')) : TextsOk rs' := by
  induction rs generalizing rs' with
  | nil => simp [addToExisting] at h
  | cons r rs ih =>
    rw [textsOk_cons] at hr
    unfold addToExisting at h
    rw [Out.bind_eq_ok] at h
    obtain ⟨n, _, h⟩ := h
    split at h
    · simp only [Out.ok.injEq, Option.some.injEq] at h
      subst h
      refine textsOk_cons.mpr ⟨fun x hx => ?_, hr.2⟩
      simp only [List.mem_append, List.mem_singleton] at hx
      rcases hx with hx | rfl
      · exact hr.1 x hx
      · exact hc
    · rw [Out.bind_eq_ok] at h
      obtain ⟨o, ho, h⟩ := h
      cases o with
      | none => simp at h
      | some rs1 =>
        simp only [Out.ok.injEq, Option.some.injEq] at h
        subst h
        exact textsOk_cons.mpr ⟨hr.1, ih hr.2 ho⟩

theorem mapCmds_text {cs : List Cmd} {rs rs' : List Resource} (hc : ∀ c ∈ cs, c.type = .rx ∨ c.type = .tx → TextOk c)
    (hr : TextsOk rs) (h : mapCmds cs rs = .ok rs') : TextsOk rs' := by
  induction cs generalizing rs with
  | nil => simp only [mapCmds, Out.ok.injEq] at h; subst h; exact hr
  | cons c cs ih =>
    unfold mapCmds at h
    rw [Out.bind_eq_ok] at h
    obtain ⟨rs1, h1, h2⟩ := h
    refine ih (fun x hx => hc x (by simp [hx])) ?_ h2
    unfold addCmd at h1
    split at h1
    · rename_i ht
      have hcc := hc c (by simp) ht
      have one : ∀ rs : List Resource, TextsOk rs → TextsOk (rs ++ [{ cmds := [c] }]) := by
        intro rs hr r hm
        simp only [List.mem_append, List.mem_singleton] at hm
        rcases hm with hm | rfl
        · exact hr r hm
        · intro x hx
          simp only [List.mem_singleton] at hx
          subst hx
          exact hcc
      split at h1
      · split at h1
        · simp only [Out.ok.injEq] at h1; subst h1; exact one _ hr
        · simp at h1
      · rw [Out.bind_eq_ok] at h1
        obtain ⟨o, ho, h1⟩ := h1
        cases o with
        | some rs2 => simp only [Out.ok.injEq] at h1; subst h1; exact addToExisting_text hcc hr ho
        | none =>
          simp only at h1
          split at h1
          · simp only [Out.ok.injEq] at h1; subst h1; exact one _ hr
          · simp at h1
    · simp only [Out.ok.injEq] at h1; subst h1; exact hr

theorem checkResults_text {rs : List Resource} (h : TextsOk rs) : ∀ e ∈ (checkResults rs).2, ReadableEvent e := by
  induction rs with
  | nil => simp [checkResults]
  | cons r rs ih =>
    rw [textsOk_cons] at h
    intro e he
    simp only [checkResults, List.mem_append, List.mem_flatMap] at he
    rcases he with ⟨c, hc, he⟩ | he
    · have hct := h.1 c (List.mem_filter.mp hc).1
      unfold noRxEvent at he
      split at he
      · rename_i a b ha _
        rw [List.mem_singleton] at he
        subst he
        exact ⟨hct.1 a ha, hct.2⟩
      · simp at he
    · exact ih h.2 e he

theorem hexEvents_text {cmds : List Cmd} {es} (hb : ∀ c ∈ cmds, ∀ b, c.buf = some b → b ≠ []) (h : hexEvents cmds = .ok es) :
    ∀ e ∈ es, ReadableEvent e := by
  induction cmds generalizing es with
  | nil => simp only [hexEvents, Out.ok.injEq] at h; subst h; simp
  | cons c cs ih =>
    have hcs : ∀ c ∈ cs, ∀ b, c.buf = some b → b ≠ [] := fun x hx => hb x (by simp [hx])
    unfold hexEvents at h
    split at h
    · split at h
      · exact ih hcs h
      · rename_i b hbb
        have hne := hb c (by simp) b hbb
        split at h
        · simp only [Out.bind_eq_ok] at h
          obtain ⟨es', h1, h2⟩ := h
          simp only [Out.ok.injEq] at h2
          subst h2
          intro e he
          rcases List.mem_cons.mp he with rfl | he
          · exact hne
          · exact ih hcs h1 e he
        · split at h
          · simp only [Out.bind_eq_ok] at h
            obtain ⟨es', h1, h2⟩ := h
            simp only [Out.ok.injEq] at h2
            subst h2
            intro e he
            rcases List.mem_cons.mp he with rfl | he
            · exact hne
            · exact ih hcs h1 e he
          · simp at h
    · exact ih hcs h

theorem lookupName_mem {n : CStr} {cs : List Cmd} {d : Cmd} (h : lookupName n cs = some d) : d ∈ cs := by
  induction cs with
  | nil => simp [lookupName] at h
  | cons c cs ih =>
    unfold lookupName at h
    split at h
    · simp only [Option.some.injEq] at h; subst h; simp
    · exact List.mem_cons_of_mem _ (ih h)

/-- Everything a run prints can be read if the names in the commands can be read. -/
theorem execCmds_text {env cmds r} (ht : ∀ c ∈ cmds, ReadableCmd c) (hb : ∀ c ∈ cmds, ∀ b, c.buf = some b → b ≠ [])
    (h : execCmds env cmds = .ok r) : ∀ e ∈ r.events, ReadableEvent e := by
  have hinv : ∀ l : List Cmd, (∀ c ∈ l, ReadableCmd c) → ∀ e ∈ inventory l, ReadableEvent e := by
    intro l hl
    induction l with
    | nil => simp [inventory]
    | cons c l ih =>
      have ih := ih (fun x hx => hl x (by simp [hx]))
      unfold inventory
      split
      · split
        · rename_i b n _ hn
          intro e he
          rcases List.mem_cons.mp he with rfl | he
          · exact (hl c (by simp)).2 n hn
          · exact ih e he
        · exact ih
      · exact ih
  have hpair : ∀ l : List Cmd, (∀ c ∈ l, c ∈ cmds) →
      (∀ c' ∈ (pairNames cmds l).1, ReadableCmd c' ∧ ∀ b, c'.buf = some b → b ≠ []) ∧
      ∀ e ∈ (pairNames cmds l).2, ReadableEvent e := by
    intro l hl
    induction l with
    | nil => simp [pairNames]
    | cons c l ih =>
      obtain ⟨i1, i2⟩ := ih (fun x hx => hl x (by simp [hx]))
      have hc := hl c (by simp)
      unfold pairNames
      simp only
      split
      · refine ⟨fun x hx => ?_, i2⟩
        rcases List.mem_cons.mp hx with rfl | hx
        · exact ⟨ht _ hc, hb _ hc⟩
        · exact i1 x hx
      · rename_i n hn
        split
        · rename_i d hd
          refine ⟨fun x hx => ?_, i2⟩
          rcases List.mem_cons.mp hx with rfl | hx
          · refine ⟨ht c hc, fun b hbb => ?_⟩
            have hbb : d.buf = some b := by rw [← hbb]; cases d.buf <;> rfl
            exact hb d (lookupName_mem hd) b hbb
          · exact i1 x hx
        · refine ⟨fun x hx => ?_, fun e he => ?_⟩
          · rcases List.mem_cons.mp hx with rfl | hx
            · exact ⟨ht _ hc, hb _ hc⟩
            · exact i1 x hx
          · rcases List.mem_cons.mp he with rfl | he
            · have : c.name = some n := by
                unfold needsName at hn
                split at hn
                · simp at hn
                · split at hn
                  · simp at hn
                  · exact hn
              exact ((ht _ hc).2 n this).1
            · exact i2 e he
  obtain ⟨p1, p2⟩ := hpair cmds (fun _ h => h)
  unfold execCmds at h
  simp only at h
  split at h
  · simp only [Out.ok.injEq] at h
    subst h
    intro e he
    exact (List.mem_append.mp he).elim (hinv _ ht e) (p2 e)
  · rw [Out.bind_eq_ok] at h
    obtain ⟨r0, h0, h⟩ := h
    simp only [Out.ok.injEq] at h
    subst h
    suffices ∀ e ∈ r0.events, ReadableEvent e from fun e he => (List.mem_append.mp he).elim (hinv _ ht e) (this e)
    unfold execResolved at h0
    simp only [Out.bind_eq_ok] at h0
    obtain ⟨ep, hp, eh, hh, rs, hm, ⟨eo, ok⟩, ho, h0⟩ := h0
    have kp : ∀ e ∈ ep, ReadableEvent e := by
      intro e he
      obtain ⟨_, _, rfl⟩ := pcapAll_shape hp e he
      trivial
    have kh := hexEvents_text (fun c hc => (p1 c hc).2) hh
    have ko : ∀ rs eo ok, openAll env.canOpen rs = .ok (eo, ok) → ∀ e ∈ eo, ReadableEvent e := by
      intro rs
      induction rs with
      | nil => intro eo ok h; simp only [openAll, Out.ok.injEq, Prod.mk.injEq] at h; rw [← h.1]; simp
      | cons r rs ih =>
        intro eo ok h
        unfold openAll at h
        rw [Out.bind_eq_ok] at h
        obtain ⟨a, _, h⟩ := h
        split at h
        · rw [Out.bind_eq_ok] at h
          obtain ⟨⟨es, k⟩, h1, h⟩ := h
          simp only [Out.ok.injEq, Prod.mk.injEq] at h
          rw [← h.1]
          intro e he
          rcases List.mem_cons.mp he with rfl | he
          · trivial
          · exact ih es k h1 e he
        · simp only [Out.ok.injEq, Prod.mk.injEq] at h; rw [← h.1]; simp
    have ko := ko _ _ _ ho
    have hrs : TextsOk rs := by
      refine mapCmds_text (fun c hc hct => ?_) (by simp [TextsOk]) hm
      have hcr := (p1 c hc).1
      exact ⟨fun a ha => hcr.1 a hct ha, fun n hn => (hcr.2 n hn).1⟩
    simp only at h0
    split at h0
    · simp only [Out.ok.injEq] at h0
      subst h0
      intro e he
      simp only [List.mem_append] at he
      rcases he with (he | he) | he
      · exact kp e he
      · exact kh e he
      · exact ko e he
    · rw [Out.bind_eq_ok] at h0
      obtain ⟨⟨st, rs', el⟩, hml, h0⟩ := h0
      obtain ⟨l1, l2⟩ := mainLoop_text hrs hml
      have l3 := checkResults_text l1
      have fin : ∀ e, e ∈ ep ++ eh ++ eo ++ el → ReadableEvent e := by
        intro e he
        simp only [List.mem_append] at he
        rcases he with ((he | he) | he) | he
        · exact kp e he
        · exact kh e he
        · exact ko e he
        · exact l2 e he
      cases st with
      | finished =>
        simp only [Out.ok.injEq] at h0
        subst h0
        intro e he
        exact (List.mem_append.mp he).elim (fin e) (l3 e)
      | waiting => simp only [Out.ok.injEq] at h0; subst h0; exact fin
      | sending => simp only [Out.ok.injEq] at h0; subst h0; exact fin

/-! ## C77 -/

theorem errNote_isSome (e : Event) : (errNote e).isSome = isProblem e := by cases e <;> rfl

/-- The names in the messages are readable. -/
theorem argcCmds_readable {w : World} {ms : Int} {caps argv : List CStr} {r : RunRes} (h : argcCmds w ms caps argv = .ok r)
    (hr : ∀ cmds, parseCmds w.env.cfg.hasPcap argv = .ok (some cmds) → ∀ c ∈ cmds, ReadableCmd c) :
    ∀ e ∈ r.events, ReadableEvent e := by
  unfold argcCmds at h
  rw [Out.bind_eq_ok] at h
  obtain ⟨o, ho, h⟩ := h
  cases o with
  | none => simp only [Out.ok.injEq] at h; subst h; simp
  | some cmds =>
    simp only at h
    rw [Out.bind_eq_ok] at h
    obtain ⟨x, hx, h⟩ := h
    simp only [Out.ok.injEq] at h
    subst h
    refine execCmds_text (hr cmds ho) (fun c hc b hb => ?_) hx
    have hok := (parseCmds_ok ho).2 c hc
    have hf := hok.built
    rw [hb] at hf
    obtain ⟨f, hf⟩ := Option.isSome_iff_exists.mp (by simpa using hf)
    obtain ⟨f0, h0⟩ := hok.frame f b hf hb
    have := frameToBuf_length h0
    rintro rfl
    simp at this

/-- **C77**: reading the two outputs of a run back gives exactly the messages about what happened, in order, each with
the right kind, interface, bytes (or name), and mask; and unless the return value is −1 it is the number of messages on
standard error. -/
theorem C77_report {w : World} {ms : Int} {caps argv : List CStr} {r : RunRes} (h : argcCmds w ms caps argv = .ok r)
    (hr : ∀ cmds, parseCmds w.env.cfg.hasPcap argv = .ok (some cmds) → ∀ c ∈ cmds, ReadableCmd c) :
    readReport (stdoutOf r.events) = some (r.events.filterMap outNote) ∧
    readReport (stderrOf r.events) = some (r.events.filterMap errNote) ∧
    ∀ n, r.ret = some n → n = -1 ∨ ∃ ns, readReport (stderrOf r.events) = some ns ∧ n = ns.length := by
  have key := argcCmds_readable h hr
  obtain ⟨⟨h1, _⟩, h2, _⟩ := read_all key
  refine ⟨h1, h2, fun n hn => ?_⟩
  rcases ret_counts h hn with h3 | h3
  · exact .inl h3
  · refine .inr ⟨_, h2, ?_⟩
    rw [h3]
    congr 1
    have : ∀ es : List Event, es.countP isProblem = (es.filterMap errNote).length := by
      intro es
      induction es with
      | nil => rfl
      | cons e es ih =>
        have h4 := errNote_isSome e
        rw [List.countP_cons, List.filterMap_cons, ih, ← h4]
        cases errNote e <;> simp
    exact this _

/-- A run with a named frame, hex output, an unexpected frame and a missing one. -/
def reportArgs : List CStr := [c!"name", c!"f", c!"eth", c!"et", c!"ign", c!"hex", c!"name", c!"f", c!"rx", c!"e", c!"name", c!"f"]

/-- Non-vacuity: the two outputs read back; the mask is told, and the two messages on standard error are counted. -/
example : (toolResult (world (listening [[1#8, 2#8]])) reportArgs).ret = some 2 ∧
    (readReport (stdoutOf (toolResult (world (listening [[1#8, 2#8]])) reportArgs).events)).map
      (·.map (fun n => (n.kind, n.subject, n.mask.isSome))) = some [(.named, c!"f", true), (.data, [], true)] ∧
    readReport (stderrOf (toolResult (world (listening [[1#8, 2#8]])) reportArgs).events) =
      some [⟨.unexpected, c!"e", .bytes [1#8, 2#8], none⟩, ⟨.missing, c!"e", .name c!"f", none⟩] := by decide +kernel

/-- The names of these commands are readable. -/
example : argcCmds (world (listening [[1#8, 2#8]])) 100 [] reportArgs = .ok (toolResult (world (listening [[1#8, 2#8]])) reportArgs) ∧
    ∀ cmds, parseCmds true reportArgs = .ok (some cmds) → ∀ c ∈ cmds, ReadableCmd c := by
  refine ⟨toolResult_ok (by decide +kernel), fun cmds h c hc => ?_⟩
  have h1 : ∀ c ∈ ((parseCmds true reportArgs).get?.getD none).getD [], ∀ a, (c.arg0 = some a ∨ c.name = some a) → a ∈ [c!"f", c!"e"] := by
    have h2 : ∀ c ∈ ((parseCmds true reportArgs).get?.getD none).getD [], ∀ a ∈ c.arg0.toList ++ c.name.toList, a ∈ [c!"f", c!"e"] := by
      decide +kernel
    intro c hc a ha
    refine h2 c hc a ?_
    rcases ha with ha | ha <;> simp [ha]
  rw [h] at h1
  have h3 : ∀ a ∈ [c!"f", c!"e"], Readable a := by
    unfold Readable OneLine
    decide +kernel
  exact ⟨fun a _ ha => h3 a (h1 c hc a (.inl ha)), fun n hn => h3 n (h1 c hc n (.inr hn))⟩

end Ef.Props
