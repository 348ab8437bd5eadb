import Verif.Lemmas.Trace

/-!
# Traces of one socket: transmissions and events
-/

namespace Ef

open Spec

attribute [local irreducible] txOne

/-! ## Order -/

theorem OpStep.done_mono {cs op cs'} (h : OpStep cs op cs') {j : Nat} {c c' : Cmd} (hc : cs[j]? = some c)
    (hc' : cs'[j]? = some c') (hd : c.done = true) : c'.done = true := by
  cases h with
  | hit b i x hi _ _ =>
    rw [List.getElem?_set] at hc'
    split at hc'
    · split at hc'
      · simp only [Option.some.injEq] at hc'; subst hc'; rfl
      · simp at hc'
    · rw [hc] at hc'; simp only [Option.some.injEq] at hc'; subst hc'; exact hd
  | miss => rw [hc] at hc'; simp only [Option.some.injEq] at hc'; subst hc'; exact hd
  | tx i res x b a hi hp _ _ _ =>
    rw [List.getElem?_set] at hc'
    split at hc'
    · rename_i e
      subst e
      rw [hi] at hc
      simp only [Option.some.injEq] at hc
      subst hc
      rw [hp.2] at hd
      simp at hd
    · rw [hc] at hc'; simp only [Option.some.injEq] at hc'; subst hc'; exact hd

/-- Before a command is transmitted, all earlier tx commands are done; so the transmissions are in order. -/
theorem Run.order {cs ops cs'} (h : Run cs ops cs') :
    (txIdx ops).Pairwise (· ≤ ·) ∧
      ∀ j ∈ txIdx ops, ∀ (j' : Nat) c, j' < j → cs'[j']? = some c → ¬ pending c := by
  induction h with
  | nil => simp [txIdx]
  | snoc cs1 cs2 ops op hr hs ih =>
    obtain ⟨ih1, ih2⟩ := ih
    have keep : ∀ j ∈ txIdx ops, ∀ (j' : Nat) c, j' < j → cs2[j']? = some c → ¬ pending c := by
      intro j hj j' c hlt hc hp
      obtain ⟨x, hx, hxs⟩ := hs.same.back hc
      have := ih2 j hj j' x hlt hx
      have ht : x.type = .tx := by rw [← hxs.1]; exact hp.1
      have hd : x.done = true := by
        cases hd : x.done with
        | true => rfl
        | false => exact absurd ⟨ht, hd⟩ this
      have := hs.done_mono hx hc hd
      rw [hp.2] at this
      simp at this
    cases hs with
    | hit b i x hi h1 h2 =>
      refine ⟨by simpa using ih1, ?_⟩
      rw [txIdx_append, txIdx_rx, List.append_nil]
      exact keep
    | miss b hm =>
      refine ⟨by simpa using ih1, ?_⟩
      rw [txIdx_append, txIdx_rx, List.append_nil]
      exact keep
    | tx j res c b a hj hp hlow hb ha =>
      rw [txIdx_append, txIdx_tx]
      refine ⟨?_, ?_⟩
      · rw [List.pairwise_append]
        refine ⟨ih1, by simp, ?_⟩
        intro j1 hj1 j2 hj2
        rw [List.mem_singleton] at hj2
        subst hj2
        by_cases hle : j1 ≤ j2
        · exact hle
        · exact absurd hp (ih2 j1 hj1 j2 c (by omega) hj)
      · intro i hi j' x hlt hx
        rw [List.mem_append, List.mem_singleton] at hi
        rcases hi with hi | hi
        · exact keep i hi j' x hlt hx
        · subst hi
          rw [List.getElem?_set, if_neg (by omega)] at hx
          exact hlow j' x hlt hx

/-! ## Number of transmissions -/

/-- All transmissions in the trace succeed. -/
def AllSent (cs : List Cmd) (ops : List Op) : Prop :=
  ∀ j res fin c b, Op.tx j res fin ∈ ops → cs[j]? = some c → c.buf = some b → res = (b.length : Int)

/-- If all transmissions succeed, a command is transmitted at most `rep` times, and it is finished exactly when it
has been transmitted `rep` times. -/
theorem Run.count {cs ops cs'} (h : Run cs ops cs') (hf : Fresh cs) (ha : AllSent cs ops) :
    ∀ (j : Nat) c c', cs[j]? = some c → cs'[j]? = some c' → 1 ≤ c.rep → c.rep < 2 ^ 32 →
      ((txIdx ops).count j ≤ c.rep ∧ (j ∈ txFins ops ↔ (txIdx ops).count j = c.rep) ∧
        c'.rep = c.rep - (txIdx ops).count j) := by
  induction h with
  | nil =>
    intro j c c' hc hc' h1 _
    rw [hc] at hc'
    simp only [Option.some.injEq] at hc'
    subst hc'
    refine ⟨by simp [txIdx], ?_, by simp [txIdx]⟩
    simp only [txFins, txIdx, List.filterMap_nil, List.not_mem_nil, List.count_nil, false_iff]
    omega
  | snoc cs1 cs2 ops op hr hs ih =>
    have ih := ih (fun j res fin c b hm => ha j res fin c b (List.mem_append_left _ hm))
    intro j c c' hc hc' h1 h2
    have hc1 : ∃ c1, cs1[j]? = some c1 ∧ SameStatic c c1 := hr.same.2 j c hc
    obtain ⟨c1, hc1, hs1⟩ := hc1
    obtain ⟨i1, i2, i3⟩ := ih j c c1 hc hc1 h1 h2
    cases hs with
    | hit b i x hi hm _ =>
      simp only [txIdx_append, txIdx_rx, List.append_nil, txFins_append, txFins_rx]
      refine ⟨i1, i2, ?_⟩
      rw [List.getElem?_set] at hc'
      split at hc'
      · rename_i e
        subst e
        rw [hi] at hc1
        simp only [Option.some.injEq] at hc1
        subst hc1
        split at hc'
        · simp only [Option.some.injEq] at hc'; subst hc'; exact i3
        · simp at hc'
      · rw [hc1] at hc'; simp only [Option.some.injEq] at hc'; subst hc'; exact i3
    | miss b hm =>
      simp only [txIdx_append, txIdx_rx, List.append_nil, txFins_append, txFins_rx]
      rw [hc1] at hc'; simp only [Option.some.injEq] at hc'; subst hc'
      exact ⟨i1, i2, i3⟩
    | tx i res x b a hi hp _ hb _ =>
      simp only [txIdx_append, txIdx_tx, txFins_append, txFins_tx, List.count_append, List.mem_append]
      rw [List.getElem?_set] at hc'
      split at hc'
      · rename_i e
        subst e
        rw [hi] at hc1
        simp only [Option.some.injEq] at hc1
        subst hc1
        rw [if_pos (List.getElem?_eq_some_iff.mp hi).1] at hc'
        simp only [Option.some.injEq] at hc'
        subst hc'
        have hnot : i ∉ txFins ops := by
          intro hin
          have := (hr.done_iff hf i x hi).mpr (Or.inr hin)
          rw [hp.2] at this
          simp at this
        have hcb : c.buf = some b := by rw [← hs1.2.2.2.2.1]; exact hb
        have hres : res = (b.length : Int) := ha i res _ c b (List.mem_append_right _ (List.mem_singleton.mpr rfl)) hc hcb
        have hne : (txIdx ops).count i ≠ c.rep := fun e => hnot (i2.mpr e)
        have hrep : u32Sub x.rep 1 = c.rep - ((txIdx ops).count i + 1) := by
          rw [i3]
          unfold u32Sub
          have : c.rep - (txIdx ops).count i + 2 ^ 32 - 1 = (c.rep - ((txIdx ops).count i + 1)) + 2 ^ 32 := by omega
          rw [this, Nat.add_mod_right]
          exact Nat.mod_eq_of_lt (by omega)
        rw [txOne_rep]
        have hcnt : List.count i [i] = 1 := by simp
        rw [hcnt]
        refine ⟨by omega, ?_, hrep⟩
        have hd := txOne_done x b a res hp.2
        cases hdone : (txOne x b a res).1.done with
        | true =>
          have := (hd.mp hdone).2
          simp only [↓reduceIte, List.mem_singleton, or_true, true_iff]
          omega
        | false =>
          have : ¬ (res = (b.length : Int) ∧ u32Sub x.rep 1 = 0) := fun h => by
            rw [hd.mpr h] at hdone; simp at hdone
          have : u32Sub x.rep 1 ≠ 0 := fun h => this ⟨hres, h⟩
          simp only [Bool.false_eq_true, ↓reduceIte, List.not_mem_nil, or_false, hnot, false_iff]
          omega
      · rename_i e
        rw [hc1] at hc'
        simp only [Option.some.injEq] at hc'
        subst hc'
        have hcnt : List.count j [i] = 0 := by simp [e]
        rw [hcnt]
        refine ⟨i1, ?_, i3⟩
        have : j ∉ (if (txOne x b a res).1.done = true then [i] else []) := by
          split
          · simp only [List.mem_singleton]; exact fun h => e h.symm
          · simp
        simp only [this, or_false]
        exact i2

/-! ## Events -/

/-- What an operation prints. -/
def opEvents (a : CStr) (cs : List Cmd) : Op → List Event
  | .rx b none => [.rxErr a b]
  | .rx b (some j) =>
    match cs[j]? with
    | some c => [.rxOk a b c.name c.mask]
    | none => [.rxErr a b]
  | .tx j res fin =>
    match cs[j]? with
    | some c => .send a (c.buf.getD []) res :: (if fin then [.txDone a (c.buf.getD []) c.name] else [])
    | none => []

theorem opEvents_same {a cs cs' op} (h : SameList cs cs') : opEvents a cs' op = opEvents a cs op := by
  have key : ∀ j : Nat, (cs[j]? = none ∧ cs'[j]? = none) ∨
      ∃ c c', cs[j]? = some c ∧ cs'[j]? = some c' ∧ SameStatic c c' := by
    intro j
    cases hj : cs[j]? with
    | none =>
      left
      refine ⟨rfl, ?_⟩
      rw [List.getElem?_eq_none_iff] at hj ⊢
      rw [h.1]; exact hj
    | some c =>
      obtain ⟨c', hc', hs⟩ := h.2 j c hj
      exact Or.inr ⟨c, c', rfl, hc', hs⟩
  cases op with
  | rx b o =>
    cases o with
    | none => rfl
    | some j =>
      rcases key j with ⟨h1, h2⟩ | ⟨c, c', h1, h2, hs⟩
      · simp only [opEvents, h1, h2]
      · simp only [opEvents, h1, h2, hs.2.1, hs.2.2.2.2.2]
  | tx j res fin =>
    rcases key j with ⟨h1, h2⟩ | ⟨c, c', h1, h2, hs⟩
    · simp only [opEvents, h1, h2]
    · simp only [opEvents, h1, h2, hs.2.1, hs.2.2.2.2.1]

theorem opEvents_iface (a cs op) : ∀ e ∈ opEvents a cs op, ifaceOf e = some a := by
  intro e he
  cases op with
  | rx b o =>
    cases o with
    | none => simp only [opEvents, List.mem_singleton] at he; subst he; rfl
    | some j =>
      simp only [opEvents] at he
      split at he <;> (simp only [List.mem_singleton] at he; subst he; rfl)
  | tx j res fin =>
    simp only [opEvents] at he
    split at he
    · simp only [List.mem_cons] at he
      rcases he with he | he
      · subst he; rfl
      · split at he
        · simp only [List.mem_singleton] at he; subst he; rfl
        · simp at he
    · simp at he

theorem opEvents_rx (a cs) (ops : List Op) :
    (ops.flatMap (opEvents a cs)).filter (isRx a) = rxReport a cs (rxFrames ops) (rxOuts ops) := by
  induction ops with
  | nil => rfl
  | cons op ops ih =>
    rw [List.flatMap_cons, List.filter_append, ih, show op :: ops = [op] ++ ops from rfl]
    cases op with
    | rx b o =>
      rw [rxFrames_append, rxOuts_append, rxFrames_rx, rxOuts_rx]
      cases o with
      | none => simp [opEvents, rxReport, isRx]
      | some j =>
        cases hj : cs[j]? <;> simp [opEvents, rxReport, isRx, hj]
    | tx j res fin =>
      rw [rxFrames_append, rxOuts_append, rxFrames_tx, rxOuts_tx]
      simp only [opEvents, List.nil_append]
      split
      · cases fin <;> simp [isRx]
      · simp

theorem opEvents_noRx (a cs) (ops : List Op) : (ops.flatMap (opEvents a cs)).filter (isNoRx a) = [] := by
  rw [List.filter_eq_nil_iff]
  intro e he
  rw [List.mem_flatMap] at he
  obtain ⟨op, _, he⟩ := he
  cases op with
  | rx b o =>
    cases o with
    | none => simp only [opEvents, List.mem_singleton] at he; subst he; simp [isNoRx]
    | some j =>
      simp only [opEvents] at he
      split at he <;> (simp only [List.mem_singleton] at he; subst he; simp [isNoRx])
  | tx j res fin =>
    simp only [opEvents] at he
    split at he
    · simp only [List.mem_cons] at he
      rcases he with he | he
      · subst he; simp [isNoRx]
      · split at he
        · simp only [List.mem_singleton] at he; subst he; simp [isNoRx]
        · simp at he
    · simp at he

/-- The bytes of command `j`. -/
def bufAt (cs : List Cmd) (j : Nat) : Buf :=
  match cs[j]? with
  | some c => c.buf.getD []
  | none => []

theorem opEvents_sent (a cs) (ops : List Op) (h : ∀ j ∈ txIdx ops, j < cs.length) :
    (ops.flatMap (opEvents a cs)).filterMap (sentOn a) = (txIdx ops).map (bufAt cs) := by
  induction ops with
  | nil => rfl
  | cons op ops ih =>
    have e : op :: ops = [op] ++ ops := rfl
    rw [e, txIdx_append] at h
    have ih := ih (fun j hj => h j (List.mem_append_right _ hj))
    rw [List.flatMap_cons, List.filterMap_append, ih, e, txIdx_append, List.map_append]
    congr 1
    cases op with
    | rx b o =>
      cases o with
      | none => simp [opEvents, sentOn]
      | some j =>
        simp only [opEvents]
        split <;> simp [sentOn]
    | tx j res fin =>
      have hj := h j (by simp)
      have hg := List.getElem?_eq_getElem hj
      simp only [opEvents, hg, bufAt, txIdx_tx, List.map_cons, List.map_nil]
      cases fin <;> simp [sentOn]

/-- A sorted list of numbers from `n` on starts with all its `n`. -/
theorem sorted_head (l : List Nat) (n : Nat) (hs : l.Pairwise (· ≤ ·)) (hn : ∀ x ∈ l, n ≤ x) :
    l = List.replicate (l.count n) n ++ l.filter (· ≠ n) := by
  induction l with
  | nil => rfl
  | cons x l ih =>
    rw [List.pairwise_cons] at hs
    have ih := ih hs.2 (fun y hy => hn y (List.mem_cons_of_mem _ hy))
    by_cases hx : x = n
    · subst hx
      rw [List.count_cons_self, List.replicate_succ, List.cons_append, List.filter_cons]
      simp only [ne_eq, not_true_eq_false, decide_false, Bool.false_eq_true, ↓reduceIte, List.cons.injEq, true_and]
      exact ih
    · have hlt : n < x := by
        have := hn x (List.mem_cons_self); omega
      have h0 : ∀ y ∈ l, y ≠ n := fun y hy => by have := hs.1 y hy; omega
      have hc : (x :: l).count n = 0 := by
        rw [List.count_eq_zero]
        simp only [List.mem_cons, not_or]
        exact ⟨fun h => hx h.symm, fun h => h0 n h rfl⟩
      rw [hc, List.replicate_zero, List.nil_append, eq_comm, List.filter_eq_self]
      intro y hy
      simp only [List.mem_cons] at hy
      rcases hy with rfl | hy
      · simpa using hx
      · simpa using h0 y hy

theorem sorted_transmissions (cs : List Cmd) (n : Nat) (l : List Nat) (hs : l.Pairwise (· ≤ ·))
    (hr : ∀ j ∈ l, n ≤ j ∧ ∃ c, cs[j - n]? = some c ∧ c.type = .tx) :
    l.map (fun j => bufAt cs (j - n)) = (cs.zipIdx n).flatMap (fun p =>
      if p.1.type = .tx then List.replicate (l.count p.2) (p.1.buf.getD []) else []) := by
  induction cs generalizing n l with
  | nil =>
    cases l with
    | nil => rfl
    | cons x l =>
      obtain ⟨_, c, hc, _⟩ := hr x (List.mem_cons_self)
      simp at hc
  | cons c cs ih =>
    have hsp := sorted_head l n hs (fun x hx => (hr x hx).1)
    have hge : ∀ j ∈ l.filter (· ≠ n), j ∈ l ∧ n + 1 ≤ j := by
      intro j hj
      simp only [List.mem_filter, decide_eq_true_eq] at hj
      have := (hr j hj.1).1
      exact ⟨hj.1, by have := hj.2; omega⟩
    have ih := ih (n + 1) (l.filter (· ≠ n)) (List.Pairwise.filter _ hs) (fun j hj => by
      obtain ⟨h1, h2⟩ := hge j hj
      obtain ⟨_, x, hx, ht⟩ := hr j h1
      refine ⟨h2, x, ?_, ht⟩
      have e : j - n = (j - (n + 1)) + 1 := by omega
      rw [e, List.getElem?_cons_succ] at hx
      exact hx)
    rw [List.zipIdx_cons, List.flatMap_cons]
    conv => lhs; rw [hsp]
    rw [List.map_append, List.map_replicate]
    congr 1
    · simp only [Nat.sub_self, bufAt, List.getElem?_cons_zero]
      by_cases hcnt : l.count n = 0
      · rw [hcnt]; simp
      · have : n ∈ l := List.count_pos_iff.mp (by omega)
        obtain ⟨_, x, hx, ht⟩ := hr n this
        simp only [Nat.sub_self, List.getElem?_cons_zero, Option.some.injEq] at hx
        subst hx
        rw [if_pos ht]
    · have e1 : (l.filter (· ≠ n)).map (fun j => bufAt (c :: cs) (j - n)) =
          (l.filter (· ≠ n)).map (fun j => bufAt cs (j - (n + 1))) := by
        apply List.map_congr_left
        intro j hj
        have := (hge j hj).2
        have e : j - n = (j - (n + 1)) + 1 := by omega
        simp only [bufAt, e, List.getElem?_cons_succ]
      rw [e1, ih]
      rw [List.flatMap_def, List.flatMap_def]
      congr 1
      apply List.map_congr_left
      rintro ⟨x, k⟩ hk
      have hk' := List.le_snd_of_mem_zipIdx hk
      simp only
      rw [List.count_filter (by simp; omega)]

/-- What is sent during a run. -/
theorem Run.transmissions {cs ops cs'} (h : Run cs ops cs') (a : CStr) :
    (ops.flatMap (opEvents a cs)).filterMap (sentOn a) =
      Spec.transmissions cs (fun j => (txIdx ops).count j) := by
  have ht := txFins_type h
  rw [opEvents_sent a cs ops (fun j hj => by
    obtain ⟨c, hc, _⟩ := ht j hj
    exact (List.getElem?_eq_some_iff.mp hc).1)]
  have := sorted_transmissions cs 0 (txIdx ops) h.order.1 (fun j hj => ⟨Nat.zero_le _, ht j hj⟩)
  simpa [Spec.transmissions] using this

end Ef
