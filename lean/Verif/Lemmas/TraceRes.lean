import Verif.Lemmas.TraceTx
import Verif.Spec.Attempts

/-!
# Traces of one socket: the results of the transmissions
-/

namespace Ef

open Spec

attribute [local irreducible] txOne

/-- Commands and results of the transmissions. -/
def txPairs (ops : List Op) : List (Nat × Int) := ops.filterMap (fun | .tx j res _ => some (j, res) | _ => none)

/-- The results of the transmissions of command `j`. -/
def txRes (ops : List Op) (j : Nat) : List Int := ((txPairs ops).filter (fun p => p.1 == j)).map (·.2)

@[simp] theorem txPairs_append (a b : List Op) : txPairs (a ++ b) = txPairs a ++ txPairs b := by simp [txPairs]
@[simp] theorem txPairs_rx (b o) : txPairs [.rx b o] = [] := rfl
@[simp] theorem txPairs_tx (j r f) : txPairs [.tx j r f] = [(j, r)] := rfl

theorem txPairs_fst (ops : List Op) : (txPairs ops).map (·.1) = txIdx ops := by
  induction ops with
  | nil => rfl
  | cons op ops ih => cases op <;> simp_all [txPairs, txIdx]

theorem txRes_append (a b : List Op) (j : Nat) : txRes (a ++ b) j = txRes a j ++ txRes b j := by simp [txRes]
@[simp] theorem txRes_rx (b o j) : txRes [.rx b o] j = [] := rfl
theorem txRes_tx (i r f j) : txRes [.tx i r f] j = if i = j then [r] else [] := by
  unfold txRes
  rw [txPairs_tx]
  by_cases h : i = j
  · simp [h]
  · simp [h]

theorem txRes_nil {ops : List Op} {j : Nat} (h : j ∉ txIdx ops) : txRes ops j = [] := by
  unfold txRes
  rw [List.map_eq_nil_iff, List.filter_eq_nil_iff]
  intro p hp
  simp only [beq_iff_eq]
  rintro rfl
  exact h (by rw [← txPairs_fst]; exact List.mem_map_of_mem hp)

theorem mem_txIdx_of_res {ops : List Op} {j : Nat} (h : txRes ops j ≠ []) : j ∈ txIdx ops :=
  Classical.byContradiction fun h' => h (txRes_nil h')

/-- The counter, and when a command is finished. -/
theorem Run.completes {cs ops cs'} (h : Run cs ops cs') (hf : Fresh cs) :
    ∀ (j : Nat) c c', cs[j]? = some c → cs'[j]? = some c' → c.rep < 2 ^ 32 →
      (c'.rep < 2 ^ 32 ∧ (c'.rep + (txRes ops j).length) % 2 ^ 32 = c.rep) ∧
      (∀ k, k + 1 < (txRes ops j).length → ¬ CompletedBy c (txRes ops j) k) ∧
      (j ∈ txFins ops ↔ ∃ k, (txRes ops j).length = k + 1 ∧ CompletedBy c (txRes ops j) k) := by
  induction h with
  | nil =>
    intro j c c' hc hc' hr
    rw [hc] at hc'
    simp only [Option.some.injEq] at hc'
    subst hc'
    have e : txRes [] j = [] := rfl
    rw [e]
    refine ⟨⟨hr, by simpa using Nat.mod_eq_of_lt hr⟩, by simp, ?_⟩
    simp [txFins]
  | snoc cs1 cs2 ops op hr hs ih =>
    intro j c c' hc hc' hlt
    obtain ⟨c1, hc1, hs1⟩ := hr.same.2 j c hc
    obtain ⟨i1, i2, i3⟩ := ih j c c1 hc hc1 hlt
    cases hs with
    | hit b i x hi hm _ =>
      simp only [txRes_append, txRes_rx, List.append_nil, txFins_append, txFins_rx]
      refine ⟨?_, i2, i3⟩
      rw [List.getElem?_set] at hc'
      split at hc'
      · rename_i e
        subst e
        rw [hi] at hc1
        simp only [Option.some.injEq] at hc1
        subst hc1
        split at hc'
        · simp only [Option.some.injEq] at hc'; subst hc'; exact i1
        · simp at hc'
      · rw [hc1] at hc'; simp only [Option.some.injEq] at hc'; subst hc'; exact i1
    | miss b hm =>
      simp only [txRes_append, txRes_rx, List.append_nil, txFins_append, txFins_rx]
      rw [hc1] at hc'; simp only [Option.some.injEq] at hc'; subst hc'
      exact ⟨i1, i2, i3⟩
    | tx i res x b a hi hp _ hb _ =>
      simp only [txRes_append, txRes_tx, txFins_append, txFins_tx, List.mem_append]
      rw [List.getElem?_set] at hc'
      split at hc'
      · rename_i e
        subst e
        rw [hi] at hc1
        simp only [Option.some.injEq] at hc1
        subst hc1
        rw [if_pos (List.getElem?_eq_some_iff.mp hi).1] at hc'
        simp only [Option.some.injEq] at hc'
        subst hc'
        rw [if_pos rfl, txOne_rep]
        have hnot : i ∉ txFins ops := by
          intro hin
          have := (hr.done_iff hf i x hi).mpr (Or.inr hin)
          rw [hp.2] at this
          simp at this
        have hcb : c.buf = some b := by rw [← hs1.2.2.2.2.1]; exact hb
        have hlast : ∀ k, (txRes ops i).length = k + 1 → ¬ CompletedBy c (txRes ops i) k := fun k hk hcomp =>
          hnot (i3.mpr ⟨k, hk, hcomp⟩)
        have hrep : u32Sub x.rep 1 = 0 ↔ ((txRes ops i).length + 1) % 2 ^ 32 = c.rep := by
          unfold u32Sub
          have h1 := i1.1
          have h2 := i1.2
          omega
        refine ⟨⟨?_, ?_⟩, ?_, ?_⟩
        · unfold u32Sub; exact Nat.mod_lt _ (by omega)
        · have h1 := i1.1
          have h2 := i1.2
          rw [List.length_append]
          simp only [List.length_cons, List.length_nil]
          unfold u32Sub
          omega
        · intro k hk hcomp
          rw [List.length_append] at hk
          simp only [List.length_cons, List.length_nil] at hk
          have hk' : k < (txRes ops i).length := by omega
          have hcomp' : CompletedBy c (txRes ops i) k := by
            refine ⟨hcomp.1, ?_⟩
            have := hcomp.2
            rwa [List.getElem?_append_left hk'] at this
          by_cases hlt2 : k + 1 < (txRes ops i).length
          · exact i2 k hlt2 hcomp'
          · exact hlast k (by omega) hcomp'
        · have hd := txOne_done x b a res hp.2
          have hcomp : CompletedBy c (txRes ops i ++ [res]) (txRes ops i).length ↔ (res = (b.length : Int) ∧ u32Sub x.rep 1 = 0) := by
            unfold CompletedBy
            rw [List.getElem?_append_right (Nat.le_refl _), Nat.sub_self, hcb, hrep]
            simp only [List.getElem?_cons_zero, Option.some.injEq, Option.getD_some]
            exact And.comm
          cases hdone : (txOne x b a res).1.done with
          | true =>
            simp only [↓reduceIte, List.mem_singleton, or_true, true_iff]
            exact ⟨(txRes ops i).length, by simp, hcomp.mpr (hd.mp hdone)⟩
          | false =>
            simp only [Bool.false_eq_true, ↓reduceIte, List.not_mem_nil, or_false, hnot, false_iff]
            rintro ⟨k, hk, hk2⟩
            rw [List.length_append] at hk
            simp only [List.length_cons, List.length_nil, Nat.add_right_cancel_iff] at hk
            subst hk
            rw [hd.mpr (hcomp.mp hk2)] at hdone
            simp at hdone
      · rename_i e
        rw [hc1] at hc'
        simp only [Option.some.injEq] at hc'
        subst hc'
        rw [if_neg e, List.append_nil]
        refine ⟨i1, i2, ?_⟩
        have : j ∉ (if (txOne x b a res).1.done = true then [i] else []) := by
          split
          · simp only [List.mem_singleton]; exact fun h => e h.symm
          · simp
        simp only [this, or_false]
        exact i3

/-- A list of pairs sorted by the first component. -/
theorem sorted_blocks (P : List (Nat × Int)) (n m : Nat) (hs : (P.map (·.1)).Pairwise (· ≤ ·))
    (hr : ∀ p ∈ P, n ≤ p.1 ∧ p.1 < n + m) :
    P = (List.range' n m).flatMap (fun j => P.filter (fun p => p.1 == j)) := by
  induction m generalizing n P with
  | zero =>
    cases P with
    | nil => rfl
    | cons p P => have := hr p (by simp); omega
  | succ m ih =>
    rw [List.range'_succ, List.flatMap_cons]
    have split : P = P.filter (fun p => p.1 == n) ++ P.filter (fun p => !(p.1 == n)) := by
      clear ih
      induction P with
      | nil => rfl
      | cons p P ihP =>
        rw [List.map_cons, List.pairwise_cons] at hs
        have ihP := ihP hs.2 fun q hq => hr q (by simp [hq])
        by_cases hp : p.1 = n
        · rw [List.filter_cons_of_pos (by simpa using hp), List.filter_cons_of_neg (by simpa using hp), List.cons_append]
          exact congrArg (p :: ·) ihP
        · have hlt := (hr p (by simp)).1
          have hall : ∀ q ∈ P, q.1 ≠ n := by
            intro q hq
            have := hs.1 q.1 (List.mem_map_of_mem hq)
            omega
          rw [List.filter_cons_of_neg (by simpa using hp), List.filter_cons_of_pos (by simpa using hp)]
          rw [List.filter_eq_nil_iff.mpr (fun q hq => by simpa using hall q hq), List.nil_append]
          rw [List.filter_eq_self.mpr (fun q hq => by simpa using hall q hq)]
    have hs' : ((P.filter (fun p => !(p.1 == n))).map (·.1)).Pairwise (· ≤ ·) := by
      rw [List.pairwise_map] at hs ⊢
      exact hs.filter _
    have := ih (P.filter (fun p => !(p.1 == n))) (n + 1) hs' (by
      intro p hp
      obtain ⟨h1, h2⟩ := List.mem_filter.mp hp
      have := hr p h1
      simp only [Bool.not_eq_eq_eq_not, Bool.not_true, beq_eq_false_iff_ne, ne_eq] at h2
      omega)
    conv => lhs; rw [split]
    congr 1
    rw [this]
    rw [List.flatMap_def, List.flatMap_def]
    congr 1
    apply List.map_congr_left
    intro j hj
    have hj' := List.mem_range'_1.mp hj
    rw [List.filter_filter]
    apply List.filter_congr
    intro p _
    by_cases hp : p.1 = j
    · have : p.1 ≠ n := by omega
      simp [hp]; omega
    · simp [hp]

theorem opEvents_attempts (a cs) (ops : List Op) (h : ∀ j ∈ txIdx ops, j < cs.length) :
    (ops.flatMap (opEvents a cs)).filterMap (attemptOn a) = (txPairs ops).map (fun p => (bufAt cs p.1, p.2)) := by
  induction ops with
  | nil => rfl
  | cons op ops ih =>
    have e : op :: ops = [op] ++ ops := rfl
    rw [e, txIdx_append] at h
    have ih := ih (fun j hj => h j (List.mem_append_right _ hj))
    rw [List.flatMap_cons, List.filterMap_append, ih, e, txPairs_append, List.map_append]
    congr 1
    cases op with
    | rx b o =>
      cases o with
      | none => simp [opEvents, attemptOn]
      | some j =>
        simp only [opEvents]
        split <;> simp [attemptOn]
    | tx j res fin =>
      have hj := h j (by simp)
      have hg := List.getElem?_eq_getElem hj
      simp only [opEvents, hg, bufAt, txPairs_tx, List.map_cons, List.map_nil]
      cases fin <;> simp [attemptOn]

/-- What is sent during a run, with results. -/
theorem Run.attempts {cs ops cs'} (h : Run cs ops cs') (a : CStr) :
    (ops.flatMap (opEvents a cs)).filterMap (attemptOn a) = Spec.attempts cs (txRes ops) := by
  have ht := txFins_type h
  have hlt : ∀ j ∈ txIdx ops, j < cs.length := fun j hj => by
    obtain ⟨c, hc, _⟩ := ht j hj
    exact (List.getElem?_eq_some_iff.mp hc).1
  rw [opEvents_attempts a cs ops hlt]
  have := sorted_blocks (txPairs ops) 0 cs.length (by rw [txPairs_fst]; exact h.order.1) (fun p hp => by
    have := hlt p.1 (by rw [← txPairs_fst]; exact List.mem_map_of_mem hp)
    omega)
  conv => lhs; rw [this]
  rw [List.map_flatMap]
  unfold Spec.attempts
  have key : ∀ (l : List Cmd) (n : Nat), (∀ k, l[k]? = cs[n + k]? ) →
      (List.range' n l.length).flatMap (fun j => ((txPairs ops).filter (fun p => p.1 == j)).map (fun p => (bufAt cs p.1, p.2))) =
      (l.zipIdx n).flatMap (fun p => (txRes ops p.2).map (fun x => (p.1.buf.getD [], x))) := by
    intro l
    induction l with
    | nil => intro n _; rfl
    | cons c l ih =>
      intro n hn
      rw [List.length_cons, List.range'_succ, List.zipIdx_cons, List.flatMap_cons, List.flatMap_cons]
      congr 1
      · unfold txRes
        rw [List.map_map]
        apply List.map_congr_left
        intro p hp
        have hp2 := (List.mem_filter.mp hp).2
        simp only [beq_iff_eq] at hp2
        have h0 := hn 0
        simp only [List.getElem?_cons_zero, Nat.add_zero] at h0
        simp only [Function.comp, bufAt, hp2, ← h0]
      · exact ih (n + 1) fun k => by
          have := hn (k + 1)
          rw [List.getElem?_cons_succ] at this
          rw [this]
          congr 1
          omega
  exact key cs 0 fun k => by rw [Nat.zero_add]

end Ef
