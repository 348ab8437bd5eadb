import Verif.Spec.Run
import Verif.Props.Match

/-!
# Traces of one socket

The state of a socket changes by received frames and by transmissions; a run is a sequence of such operations.
-/

namespace Ef

open Spec

/-- One operation on a socket: a received frame, credited to a command or not; a transmission of a command with
the result of `send` and whether this finishes the command. -/
inductive Op where
  | rx (b : Buf) (o : Option Nat)
  | tx (j : Nat) (res : Int) (fin : Bool)
  deriving DecidableEq

/-- A tx command that is not done. -/
def pending (c : Cmd) : Prop := c.type = .tx ∧ c.done = false

instance (c : Cmd) : Decidable (pending c) := by unfold pending; infer_instance

/-- A command as it is before the run, except for `done` and `rep`. -/
def SameStatic (c c' : Cmd) : Prop :=
  c'.type = c.type ∧ c'.name = c.name ∧ c'.arg0 = c.arg0 ∧ c'.frame = c.frame ∧ c'.buf = c.buf ∧ c'.mask = c.mask

/-- One operation. -/
inductive OpStep : List Cmd → Op → List Cmd → Prop where
  | hit (cs : List Cmd) (b : Buf) (j : Nat) (c : Cmd) : cs[j]? = some c → cmdMatches b c = .ok true →
      (∀ (j' : Nat) c', j' < j → cs[j']? = some c' → cmdMatches b c' = .ok false) →
      OpStep cs (.rx b (some j)) (cs.set j { c with done := true })
  | miss (cs : List Cmd) (b : Buf) : (∀ c ∈ cs, cmdMatches b c = .ok false) → OpStep cs (.rx b none) cs
  | tx (cs : List Cmd) (j : Nat) (res : Int) (c : Cmd) (b : Buf) (a : CStr) : cs[j]? = some c → pending c →
      (∀ (j' : Nat) c', j' < j → cs[j']? = some c' → ¬ pending c') → c.buf = some b → c.arg0 = some a →
      OpStep cs (.tx j res (txOne c b a res).1.done) (cs.set j (txOne c b a res).1)

/-- A sequence of operations. -/
inductive Run (cs : List Cmd) : List Op → List Cmd → Prop where
  | nil : Run cs [] cs
  | snoc (cs1 cs2 : List Cmd) (ops : List Op) (op : Op) : Run cs ops cs1 → OpStep cs1 op cs2 →
      Run cs (ops ++ [op]) cs2

theorem Run.single {cs op cs'} (h : OpStep cs op cs') : Run cs [op] cs' := by
  have := Run.snoc (cs := cs) cs cs' [] op .nil h
  simpa using this

theorem Run.append {cs ops1 cs1 ops2 cs2} (h1 : Run cs ops1 cs1) (h2 : Run cs1 ops2 cs2) :
    Run cs (ops1 ++ ops2) cs2 := by
  induction h2 with
  | nil => simpa using h1
  | snoc cs1' cs2' ops op _ hs ih =>
    rw [← List.append_assoc]
    exact Run.snoc _ _ _ _ ih hs

/-! ## What does not change -/

theorem SameStatic.refl (c : Cmd) : SameStatic c c := ⟨rfl, rfl, rfl, rfl, rfl, rfl⟩

theorem SameStatic.trans {a b c : Cmd} (h1 : SameStatic a b) (h2 : SameStatic b c) : SameStatic a c := by
  obtain ⟨a1, a2, a3, a4, a5, a6⟩ := h1
  obtain ⟨b1, b2, b3, b4, b5, b6⟩ := h2
  exact ⟨b1.trans a1, b2.trans a2, b3.trans a3, b4.trans a4, b5.trans a5, b6.trans a6⟩

/-- `txOne` with the new value of the counter as a parameter. -/
def txOneQ (c : Cmd) (b : Buf) (a : CStr) (res : Int) (q : Nat) : Cmd × List Event × Bool :=
  if res = (b.length : Int) ∧ q = 0 then
    ({ c with rep := q, done := true }, [.send a b res, .txDone a b c.name], false)
  else ({ c with rep := q }, [.send a b res], q > 0)

theorem txOne_eq (c : Cmd) (b : Buf) (a : CStr) (res : Int) :
    txOne c b a res = txOneQ c b a res (u32Sub c.rep 1) := by
  rw [txOne, txOneQ]

theorem txOneQ_static (c : Cmd) (b a res q) : SameStatic c (txOneQ c b a res q).1 := by
  unfold txOneQ
  split <;> exact ⟨rfl, rfl, rfl, rfl, rfl, rfl⟩

theorem txOne_static (c : Cmd) (b a res) : SameStatic c (txOne c b a res).1 := by
  rw [txOne_eq]; exact txOneQ_static ..

theorem txOneQ_done (c : Cmd) (b : Buf) (a res q) (h : c.done = false) :
    (txOneQ c b a res q).1.done = true ↔ res = (b.length : Int) ∧ q = 0 := by
  unfold txOneQ
  split
  · rename_i h'; exact ⟨fun _ => h', fun _ => rfl⟩
  · rename_i h'; simp only [h, Bool.false_eq_true, false_iff]; exact h'

theorem txOne_done (c : Cmd) (b a res) (h : c.done = false) :
    (txOne c b a res).1.done = true ↔ res = (b.length : Int) ∧ u32Sub c.rep 1 = 0 := by
  rw [txOne_eq]; exact txOneQ_done _ _ _ _ _ h

theorem txOneQ_rep (c : Cmd) (b a res q) : (txOneQ c b a res q).1.rep = q := by
  unfold txOneQ
  split <;> rfl

theorem txOne_rep (c : Cmd) (b a res) : (txOne c b a res).1.rep = u32Sub c.rep 1 := by
  rw [txOne_eq]; exact txOneQ_rep ..

theorem txOneQ_events (c : Cmd) (b a res q) (h : c.done = false) : (txOneQ c b a res q).2.1 =
    .send a b res :: (if (txOneQ c b a res q).1.done then [.txDone a b c.name] else []) := by
  unfold txOneQ
  split
  · rfl
  · simp [h]

/-- What is reported about a transmission. -/
theorem txOne_events (c : Cmd) (b a res) (h : c.done = false) : (txOne c b a res).2.1 =
    .send a b res :: (if (txOne c b a res).1.done then [.txDone a b c.name] else []) := by
  rw [txOne_eq]; exact txOneQ_events _ _ _ _ _ h

attribute [local irreducible] txOne

/-- Static parts agree position by position. -/
def SameList (cs cs' : List Cmd) : Prop :=
  cs'.length = cs.length ∧ ∀ (j : Nat) c, cs[j]? = some c → ∃ c', cs'[j]? = some c' ∧ SameStatic c c'

theorem SameList.refl (cs : List Cmd) : SameList cs cs := ⟨rfl, fun _ c h => ⟨c, h, .refl c⟩⟩

theorem SameList.trans {a b c : List Cmd} (h1 : SameList a b) (h2 : SameList b c) : SameList a c := by
  refine ⟨h2.1.trans h1.1, fun j x hx => ?_⟩
  obtain ⟨y, hy, hs⟩ := h1.2 j x hx
  obtain ⟨z, hz, hs'⟩ := h2.2 j y hy
  exact ⟨z, hz, hs.trans hs'⟩

theorem SameList.back {cs cs' : List Cmd} (h : SameList cs cs') {j : Nat} {c'} (hj : cs'[j]? = some c') :
    ∃ c, cs[j]? = some c ∧ SameStatic c c' := by
  have hlt : j < cs'.length := (List.getElem?_eq_some_iff.mp hj).1
  rw [h.1] at hlt
  obtain ⟨x, hx, hs⟩ := h.2 j cs[j] (List.getElem?_eq_getElem hlt)
  rw [hj] at hx
  simp only [Option.some.injEq] at hx
  subst hx
  exact ⟨_, List.getElem?_eq_getElem hlt, hs⟩

theorem sameList_set {cs : List Cmd} {j : Nat} {c c' : Cmd} (hj : cs[j]? = some c) (h : SameStatic c c') :
    SameList cs (cs.set j c') := by
  refine ⟨by simp, fun i x hx => ?_⟩
  rw [List.getElem?_set]
  split
  · rename_i e
    subst e
    rw [hj] at hx
    simp only [Option.some.injEq] at hx
    subst hx
    have := (List.getElem?_eq_some_iff.mp hj).1
    exact ⟨c', by rw [if_pos this], h⟩
  · exact ⟨x, hx, .refl x⟩

theorem OpStep.same {cs op cs'} (h : OpStep cs op cs') : SameList cs cs' := by
  cases h with
  | hit _ _ _ hj _ _ => exact sameList_set hj ⟨rfl, rfl, rfl, rfl, rfl, rfl⟩
  | miss => exact .refl _
  | tx _ _ _ _ _ hj _ _ _ _ => exact sameList_set hj (txOne_static _ _ _ _)

theorem Run.same {cs ops cs'} (h : Run cs ops cs') : SameList cs cs' := by
  induction h with
  | nil => exact .refl _
  | snoc _ _ _ _ _ hs ih => exact ih.trans hs.same

/-! ## Matching -/

theorem bequalMask_ok {b e : Buf} {mask : Option Buf} {n : Nat} {r : Bool}
    (h : bequalMask (some b) (some e) mask n = .ok r) : r = true ↔ MatchesPadded b e mask n := by
  constructor
  · rintro rfl; exact (Props.C24_padding_partial b e mask n).2.2 h
  · intro hm
    by_cases hn : n = 0
    · obtain ⟨r', h1, h2⟩ := (Props.C24_padding_partial b e mask n).1 hn
      rw [h] at h1
      simp only [Out.ok.injEq] at h1
      rw [h1]; exact h2.mpr hm
    · rw [Props.C24_padding_reads_outside b e mask n (by omega) hm] at h
      simp at h

/-- A comparison that ends normally tells whether the command is open and wants the frame. -/
theorem cmdMatches_ok {b : Buf} {c : Cmd} {r : Bool} (h : cmdMatches b c = .ok r) :
    r = true ↔ c.done = false ∧ Wants c b := by
  unfold cmdMatches at h
  split at h
  · rename_i hb
    simp only [Out.ok.injEq] at h
    subst h
    simp only [Bool.false_eq_true, false_iff]
    rintro ⟨_, e, f, he, _⟩
    rw [hb] at he; simp at he
  · rename_i e he
    split at h
    · rename_i hd
      simp only [Out.ok.injEq] at h
      subst h
      simp [hd]
    · rename_i hd
      split at h
      · simp at h
      · rename_i f hf
        by_cases hp : f.padding < 0
        · have : r = false := by
            unfold bequalMask at h
            simp only at h
            rw [if_pos hp] at h
            simpa using h.symm
          subst this
          simp only [Bool.false_eq_true, false_iff]
          rintro ⟨_, e', f', _, hf', h0, _⟩
          rw [hf] at hf'
          simp only [Option.some.injEq] at hf'
          subst hf'
          omega
        · have e1 : f.padding = (f.padding.toNat : Int) := by omega
          rw [e1] at h
          rw [bequalMask_ok h]
          constructor
          · intro hm; exact ⟨by simpa using hd, e, f, he, hf, by omega, hm⟩
          · rintro ⟨_, e', f', he', hf', _, hm⟩
            rw [he] at he'; rw [hf] at hf'
            simp only [Option.some.injEq] at he' hf'
            subst he'; subst hf'
            exact hm

theorem Wants.same {c c' : Cmd} (h : SameStatic c c') (b : Buf) : Wants c' b ↔ Wants c b := by
  obtain ⟨_, _, _, h4, h5, h6⟩ := h
  unfold Wants
  rw [h4, h5, h6]

/-! ## Results of operations -/

/-- The received frames. -/
def rxFrames (ops : List Op) : List Buf := ops.filterMap (fun | .rx b _ => some b | _ => none)

/-- Whom they are credited to. -/
def rxOuts (ops : List Op) : List (Option Nat) := ops.filterMap (fun | .rx _ o => some o | _ => none)

/-- The commands transmitted. -/
def txIdx (ops : List Op) : List Nat := ops.filterMap (fun | .tx j _ _ => some j | _ => none)

/-- The commands whose transmission is finished. -/
def txFins (ops : List Op) : List Nat := ops.filterMap (fun | .tx j _ true => some j | _ => none)

@[simp] theorem rxFrames_append (a b : List Op) : rxFrames (a ++ b) = rxFrames a ++ rxFrames b := by simp [rxFrames]
@[simp] theorem rxOuts_append (a b : List Op) : rxOuts (a ++ b) = rxOuts a ++ rxOuts b := by simp [rxOuts]
@[simp] theorem txIdx_append (a b : List Op) : txIdx (a ++ b) = txIdx a ++ txIdx b := by simp [txIdx]
@[simp] theorem txFins_append (a b : List Op) : txFins (a ++ b) = txFins a ++ txFins b := by simp [txFins]
@[simp] theorem rxFrames_rx (b o) : rxFrames [.rx b o] = [b] := rfl
@[simp] theorem rxOuts_rx (b o) : rxOuts [.rx b o] = [o] := rfl
@[simp] theorem txIdx_rx (b o) : txIdx [.rx b o] = [] := rfl
@[simp] theorem txFins_rx (b o) : txFins [.rx b o] = [] := rfl
@[simp] theorem rxFrames_tx (j r f) : rxFrames [.tx j r f] = [] := rfl
@[simp] theorem rxOuts_tx (j r f) : rxOuts [.tx j r f] = [] := rfl
@[simp] theorem txIdx_tx (j r f) : txIdx [.tx j r f] = [j] := rfl
@[simp] theorem txFins_tx (j r) (f : Bool) : txFins [.tx j r f] = if f then [j] else [] := by cases f <;> rfl

theorem rxLen (ops : List Op) : (rxOuts ops).length = (rxFrames ops).length := by
  induction ops with
  | nil => rfl
  | cons op ops ih =>
    rw [show op :: ops = [op] ++ ops from rfl, rxOuts_append, rxFrames_append, List.length_append,
      List.length_append, ih]
    cases op <;> rfl

/-- All commands are open. -/
def Fresh (cs : List Cmd) : Prop := ∀ c ∈ cs, c.done = false

/-- When a command is done. -/
theorem Run.done_iff {cs ops cs'} (h : Run cs ops cs') (hf : Fresh cs) :
    ∀ (j : Nat) c, cs'[j]? = some c → (c.done = true ↔ some j ∈ rxOuts ops ∨ j ∈ txFins ops) := by
  induction h with
  | nil =>
    intro j c hj
    have := hf c (List.mem_of_getElem? hj)
    simp [this, rxOuts, txFins]
  | snoc cs1 cs2 ops op _ hs ih =>
    intro i x hx
    rw [rxOuts_append, txFins_append, List.mem_append, List.mem_append]
    cases hs with
    | hit b j c hj hm _ =>
      rw [List.getElem?_set] at hx
      simp only [rxOuts_rx, txFins_rx, List.mem_singleton, List.not_mem_nil, or_false, Option.some.injEq]
      split at hx
      · rename_i e
        subst e
        split at hx
        · simp only [Option.some.injEq] at hx
          subst hx
          simp
        · simp at hx
      · rename_i e
        rw [ih i x hx]
        have : i ≠ j := fun h => e h.symm
        simp [this]
    | miss b hm =>
      rw [ih i x hx]
      simp
    | tx j res c b a hj hp _ _ _ =>
      rw [List.getElem?_set] at hx
      simp only [rxOuts_tx, txFins_tx, List.not_mem_nil, or_false]
      split at hx
      · rename_i e
        subst e
        split at hx
        · simp only [Option.some.injEq] at hx
          subst hx
          have h0 := ih j c hj
          rw [hp.2] at h0
          simp only [Bool.false_eq_true, false_iff, not_or] at h0
          split
          · rename_i hd; simp [hd]
          · rename_i hd; simp [hd, h0.1, h0.2]
        · simp at hx
      · rename_i e
        rw [ih i x hx]
        have : i ≠ j := fun h => e h.symm
        split <;> simp [this]

theorem mem_iff_getElem?_some {α : Type} {l : List α} {x : α} : x ∈ l ↔ ∃ k : Nat, k < l.length ∧ l[k]? = some x := by
  rw [List.mem_iff_getElem?]
  constructor
  · rintro ⟨k, hk⟩; exact ⟨k, (List.getElem?_eq_some_iff.mp hk).1, hk⟩
  · rintro ⟨k, _, hk⟩; exact ⟨k, hk⟩

theorem txFins_type {cs ops cs'} (h : Run cs ops cs') : ∀ j ∈ txIdx ops, ∃ c, cs[j]? = some c ∧ c.type = .tx := by
  induction h with
  | nil => simp [txIdx]
  | snoc cs1 cs2 ops op hr hs ih =>
    intro i hi
    rw [txIdx_append, List.mem_append] at hi
    rcases hi with hi | hi
    · exact ih i hi
    · cases hs with
      | hit => simp at hi
      | miss => simp at hi
      | tx j res c b a hj hp _ _ _ =>
        simp only [txIdx_tx, List.mem_singleton] at hi
        subst hi
        obtain ⟨x, hx, hs⟩ := hr.same.back hj
        exact ⟨x, hx, by rw [← hs.1]; exact hp.1⟩

theorem txFins_sub (ops : List Op) : ∀ j ∈ txFins ops, j ∈ txIdx ops := by
  intro j hj
  simp only [txFins, List.mem_filterMap] at hj
  obtain ⟨op, h1, h2⟩ := hj
  simp only [txIdx, List.mem_filterMap]
  refine ⟨op, h1, ?_⟩
  cases op with
  | rx => simp at h2
  | tx i r f => cases f <;> simp_all

/-- The received frames of a run are credited as specified. -/
theorem Run.credited {cs ops cs'} (h : Run cs ops cs') (hf : Fresh cs) :
    Credited cs (rxFrames ops) (rxOuts ops) := by
  induction h with
  | nil => exact ⟨rfl, by simp [rxOuts], by simp [rxOuts]⟩
  | snoc cs1 cs2 ops op hr hs ih =>
    have hdone := hr.done_iff hf
    -- an expectation that wants the frame but is not taken has got its frame before
    have closed : ∀ b (j' : Nat) c', cs[j']? = some c' → c'.type = .rx → Wants c' b →
        (∀ x, cs1[j']? = some x → cmdMatches b x = .ok false) →
        ∃ k' : Nat, k' < (rxOuts ops).length ∧ (rxOuts ops)[k']? = some (some j') := by
      intro b j' c' hc' ht hw hx
      obtain ⟨x, hx1, hxs⟩ := hr.same.2 j' c' hc'
      have h1 := cmdMatches_ok (hx x hx1)
      simp only [Bool.false_eq_true, false_iff, not_and] at h1
      have h2 : x.done = true := by
        cases hd : x.done with
        | true => rfl
        | false => exact absurd ((Wants.same hxs b).mpr hw) (h1 hd)
      rcases (hdone j' x hx1).mp h2 with h3 | h3
      · exact mem_iff_getElem?_some.mp h3
      · obtain ⟨y, hy, hyt⟩ := txFins_type hr j' (txFins_sub ops j' h3)
        rw [hc'] at hy
        simp only [Option.some.injEq] at hy
        subst hy
        rw [ht] at hyt
        simp at hyt
    cases hs with
    | tx j res c b a hj hp _ _ _ => simpa using ih
    | miss b hm =>
      rw [rxFrames_append, rxOuts_append, rxFrames_rx, rxOuts_rx]
      have hl := rxLen ops
      refine ⟨by simp [hl], ?_, ?_⟩
      · intro k j hk
        rw [List.getElem?_append] at hk
        split at hk
        · rename_i hlt
          obtain ⟨c, b', h1, h2, h3, h4, h5⟩ := ih.hit k j hk
          refine ⟨c, b', h1, ?_, h3, ?_, ?_⟩
          · rw [List.getElem?_append, if_pos (by omega)]; exact h2
          · intro k' hk'; rw [List.getElem?_append, if_pos (by omega)]; exact h4 k' hk'
          · intro j' c' hj' hc' ht hw
            obtain ⟨k', hk', he⟩ := h5 j' c' hj' hc' ht hw
            exact ⟨k', hk', by rw [List.getElem?_append, if_pos (by omega)]; exact he⟩
        · rw [List.getElem?_singleton] at hk
          split at hk <;> simp at hk
      · intro k b' hk hb j c hc ht hw
        rw [List.getElem?_append] at hk
        split at hk
        · rename_i hlt
          rw [List.getElem?_append, if_pos (by omega)] at hb
          obtain ⟨k', hk', he⟩ := ih.miss k b' hk hb j c hc ht hw
          exact ⟨k', hk', by rw [List.getElem?_append, if_pos (by omega)]; exact he⟩
        · rename_i hge
          rw [List.getElem?_append, if_neg (by omega), List.getElem?_singleton] at hb
          split at hb
          · simp only [Option.some.injEq] at hb
            subst hb
            obtain ⟨k', hk', he⟩ := closed b j c hc ht hw (fun x hx => hm x (List.mem_of_getElem? hx))
            exact ⟨k', by omega, by rw [List.getElem?_append, if_pos (by omega)]; exact he⟩
          · simp at hb
    | hit b j c hj hm hlow =>
      rw [rxFrames_append, rxOuts_append, rxFrames_rx, rxOuts_rx]
      have hl := rxLen ops
      have hnew := (cmdMatches_ok hm).mp rfl
      refine ⟨by simp [hl], ?_, ?_⟩
      · intro k i hk
        rw [List.getElem?_append] at hk
        split at hk
        · rename_i hlt
          obtain ⟨c, b', h1, h2, h3, h4, h5⟩ := ih.hit k i hk
          refine ⟨c, b', h1, ?_, h3, ?_, ?_⟩
          · rw [List.getElem?_append, if_pos (by omega)]; exact h2
          · intro k' hk'; rw [List.getElem?_append, if_pos (by omega)]; exact h4 k' hk'
          · intro j' c' hj' hc' ht hw
            obtain ⟨k', hk', he⟩ := h5 j' c' hj' hc' ht hw
            exact ⟨k', hk', by rw [List.getElem?_append, if_pos (by omega)]; exact he⟩
        · rename_i hge
          rw [List.getElem?_singleton] at hk
          split at hk
          · rename_i hz
            simp only [Option.some.injEq] at hk
            subst hk
            have hkl : k = (rxOuts ops).length := by omega
            obtain ⟨c0, hc0, hcs⟩ := hr.same.back hj
            refine ⟨c0, b, hc0, ?_, (Wants.same hcs b).mp hnew.2, ?_, ?_⟩
            · rw [List.getElem?_append, if_neg (by omega), List.getElem?_singleton, if_pos (by omega)]
            · intro k' hk' he
              rw [List.getElem?_append, if_pos (by omega)] at he
              have := (hdone j c hj).mpr (Or.inl (List.mem_of_getElem? he))
              rw [hnew.1] at this
              simp at this
            · intro j' c' hj' hc' ht hw
              obtain ⟨k', hk', he⟩ := closed b j' c' hc' ht hw (fun x hx => hlow j' x hj' hx)
              exact ⟨k', by omega, by rw [List.getElem?_append, if_pos (by omega)]; exact he⟩
          · simp at hk
      · intro k b' hk hb i x hc ht hw
        rw [List.getElem?_append] at hk
        split at hk
        · rename_i hlt
          rw [List.getElem?_append, if_pos (by omega)] at hb
          obtain ⟨k', hk', he⟩ := ih.miss k b' hk hb i x hc ht hw
          exact ⟨k', hk', by rw [List.getElem?_append, if_pos (by omega)]; exact he⟩
        · rw [List.getElem?_singleton] at hk
          split at hk <;> simp at hk

end Ef
