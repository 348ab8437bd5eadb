import Verif.Props.Run
import Verif.Props.Commands
import Verif.Props.Words
import Verif.Lemmas.Kinds

/-!
# C111: which order of the commands matters
-/

namespace Ef.Props

open Ef Ef.Spec

/-- The commands of a kind. -/
def ofKind (k : CmdType) (cmds : List Cmd) : List Cmd := cmds.filter (fun c => c.type == k)

/-- The same commands, in an order that is the same for the definitions, for the `pcap` commands, for the `hex` commands
and for the commands of each interface; the interfaces are first used in the same order. -/
structure SameOrder (cmds cmds' : List Cmd) : Prop where
  names : ofKind .name cmds' = ofKind .name cmds
  pcaps : ofKind .pcap cmds' = ofKind .pcap cmds
  hexes : ofKind .hex cmds' = ofKind .hex cmds
  ifaces : ifaces cmds' = ifaces cmds
  io : ∀ a, cmdsOn a cmds' = cmdsOn a cmds

theorem SameOrder.symm {cmds cmds' : List Cmd} (h : SameOrder cmds cmds') : SameOrder cmds' cmds :=
  ⟨h.names.symm, h.pcaps.symm, h.hexes.symm, h.ifaces.symm, fun a => (h.io a).symm⟩

theorem inventory_kind (cs : List Cmd) : inventory (ofKind .name cs) = inventory cs := by
  induction cs with
  | nil => rfl
  | cons c cs ih =>
    by_cases h : c.type = .name
    · rw [ofKind, List.filter_cons_of_pos (by simp [h])]
      simp only [inventory]
      rw [← ofKind, ih]
    · rw [ofKind, List.filter_cons_of_neg (by simp [h]), ← ofKind, ih]
      simp only [inventory]
      rw [if_neg h]

theorem pcapEvents_kind (cs : List Cmd) : pcapEvents (ofKind .pcap cs) = pcapEvents cs := by
  induction cs with
  | nil => rfl
  | cons c cs ih =>
    by_cases h : c.type = .pcap
    · rw [ofKind, List.filter_cons_of_pos (by simp [h])]
      simp only [pcapEvents]
      rw [← ofKind, ih]
    · rw [ofKind, List.filter_cons_of_neg (by simp [h]), ← ofKind, ih]
      simp only [pcapEvents]
      rw [if_neg h]

theorem hexEvents_kind (cs : List Cmd) : hexEvents (ofKind .hex cs) = hexEvents cs := by
  induction cs with
  | nil => rfl
  | cons c cs ih =>
    by_cases h : c.type = .hex
    · rw [ofKind, List.filter_cons_of_pos (by simp [h])]
      simp only [hexEvents]
      rw [← ofKind, ih]
    · rw [ofKind, List.filter_cons_of_neg (by simp [h]), ← ofKind, ih]
      simp only [hexEvents]
      rw [if_neg h]

theorem find_kind (n : CStr) (cs : List Cmd) : (ofKind .name cs).find? (defines n) = cs.find? (defines n) := by
  induction cs with
  | nil => rfl
  | cons c cs ih =>
    by_cases h : c.type = .name
    · rw [ofKind, List.filter_cons_of_pos (by simp [h]), List.find?_cons, List.find?_cons, ← ofKind, ih]
    · have : defines n c = false := by unfold defines; simp [h]
      rw [ofKind, List.filter_cons_of_neg (by simp [h]), List.find?_cons, ← ofKind, ih, this]

theorem SameOrder.resolve {cmds cmds' : List Cmd} (h : SameOrder cmds cmds') : resolve cmds' = resolve cmds := by
  funext c
  unfold Spec.resolve
  split
  · rw [← find_kind, ← find_kind _ cmds, h.names]
  · rfl

theorem SameOrder.unresolved {cmds cmds' : List Cmd} (h : SameOrder cmds cmds') : unresolved cmds' = unresolved cmds := by
  have key : ∀ (n : CStr) (l : List Cmd), l.any (defines n) = (l.find? (defines n)).isSome := by
    intro n l; rw [Bool.eq_iff_iff, List.find?_isSome, List.any_eq_true]
  funext c
  unfold Spec.unresolved
  split
  · rw [key, key, ← find_kind, ← find_kind _ cmds, h.names]
  · rfl

/-- Both lists have the same commands. -/
theorem SameOrder.mem {cmds cmds' : List Cmd} (h : SameOrder cmds cmds') (hi : ∀ c ∈ cmds', HasIface c) {c : Cmd} (hc : c ∈ cmds') :
    c ∈ cmds := by
  have kind : ∀ k, ofKind k cmds' = ofKind k cmds → c.type = k → c ∈ cmds := by
    intro k he hk
    have : c ∈ ofKind k cmds' := List.mem_filter.mpr ⟨hc, by simp [hk]⟩
    rw [he] at this
    exact (List.mem_filter.mp this).1
  cases ht : c.type with
  | name => exact kind _ h.names ht
  | pcap => exact kind _ h.pcaps ht
  | hex => exact kind _ h.hexes ht
  | rx | tx =>
    obtain ⟨a, ha⟩ := Option.isSome_iff_exists.mp (hi c hc (by simp [ht]))
    have : c ∈ cmdsOn a cmds' := List.mem_filter.mpr ⟨hc, by simp [ioIface, ht, ha]⟩
    rw [h.io] at this
    exact (List.mem_filter.mp this).1

theorem filter_resolve (all : List Cmd) (k : CmdType) (cmds : List Cmd) :
    ofKind k (cmds.map (Spec.resolve all)) = (ofKind k cmds).map (Spec.resolve all) := by
  unfold ofKind
  rw [List.filter_map]
  congr 1
  apply List.filter_congr
  intro c _
  simp only [Function.comp]
  unfold Spec.resolve
  repeat (first | rfl | split)

theorem cmdsOn_map (all : List Cmd) (a : CStr) (cmds : List Cmd) :
    cmdsOn a (cmds.map (Spec.resolve all)) = (cmdsOn a cmds).map (Spec.resolve all) := by
  unfold cmdsOn
  rw [List.filter_map]
  congr 1
  apply List.filter_congr
  intro c _
  simp only [Function.comp]
  unfold Spec.resolve
  repeat (first | rfl | split)

theorem SameOrder.map {cmds cmds' : List Cmd} (h : SameOrder cmds cmds') :
    SameOrder (cmds.map (Spec.resolve cmds)) (cmds'.map (Spec.resolve cmds')) := by
  rw [h.resolve]
  refine ⟨?_, ?_, ?_, ?_, fun a => ?_⟩
  · rw [filter_resolve, filter_resolve, h.names]
  · rw [filter_resolve, filter_resolve, h.pcaps]
  · rw [filter_resolve, filter_resolve, h.hexes]
  · rw [ifaces_resolve, ifaces_resolve, h.ifaces]
  · rw [cmdsOn_map, cmdsOn_map, h.io]

theorem execResolved_order (env : Env) {cmds cmds' : List Cmd} (h : SameOrder cmds cmds') (hr : Ready cmds) (hr' : Ready cmds') :
    execResolved env cmds' = execResolved env cmds := by
  have hg : mapCmds cmds' [] = mapCmds cmds [] := by
    have m := mapCmds_group [] cmds hr.iface (by simpa using hr.slots)
    have m' := mapCmds_group [] cmds' hr'.iface (by simpa using hr'.slots)
    rw [show group [] = [] from rfl, List.nil_append] at m m'
    rw [m, m']
    unfold group
    rw [h.ifaces]
    congr 1
    apply List.map_congr_left
    intro a _
    rw [h.io]
  unfold execResolved pcapAll
  rw [hg, ← pcapEvents_kind cmds', h.pcaps, pcapEvents_kind, ← hexEvents_kind cmds', h.hexes, hexEvents_kind]

/-- **C111**: two lists of commands with the same definitions, `pcap` commands, `hex` commands and commands of each interface,
each in the same order, do exactly the same. (All names that are used are defined.) -/
theorem C111_order (env : Env) (cmds cmds' : List Cmd) (h : SameOrder cmds cmds') (hr : Ready cmds) (hr' : Ready cmds')
    (hu : ∀ c ∈ cmds, unresolved cmds c = false) : execCmds env cmds' = execCmds env cmds := by
  have hu' : ∀ c ∈ cmds', unresolved cmds' c = false := by
    intro c hc
    rw [h.unresolved]
    exact hu c (h.mem hr'.iface hc)
  have none : ∀ l : List Cmd, (∀ c ∈ l, Spec.unresolved l c = false) → l.filter (Spec.unresolved l) = [] := by
    intro l hl
    rw [List.filter_eq_nil_iff]
    intro c hc
    rw [hl c hc]
    simp
  unfold execCmds
  rw [pairNames_eq, pairNames_eq, none _ hu, none _ hu']
  simp only [List.filterMap_nil, ne_eq, not_true_eq_false, ↓reduceIte]
  rw [execResolved_order env h.map (hr.resolve _) (hr'.resolve _), ← inventory_kind cmds', h.names, inventory_kind]

/-- Commands whose order does not matter: of different kinds, or of different interfaces. -/
def Unrelated (c d : Cmd) : Prop :=
  match c.type, d.type with
  | .name, .name => False
  | .pcap, .pcap => False
  | .hex, .hex => False
  | _, _ => ioIface c = none ∨ ioIface c ≠ ioIface d

instance (c d : Cmd) : Decidable (Unrelated c d) := by unfold Unrelated; split <;> infer_instance

theorem filter_swap {c d : Cmd} (p : Cmd → Bool) (h : ¬ (p c = true ∧ p d = true)) (pre post : List Cmd) :
    (pre ++ d :: c :: post).filter p = (pre ++ c :: d :: post).filter p := by
  simp only [List.filter_append, List.filter_cons]
  by_cases hc : p c = true
  · by_cases hd : p d = true
    · exact absurd ⟨hc, hd⟩ h
    · simp [hd]
  · simp [hc]

theorem firsts_swap (pre post : List CStr) (a b : CStr) (h : a ∈ pre ∨ b ∈ pre ∨ a = b) :
    firsts (pre ++ a :: b :: post) = firsts (pre ++ b :: a :: post) := by
  by_cases hab : a = b
  · subst hab; rfl
  · have hpre : a ∈ pre ∨ b ∈ pre := by
      rcases h with h | h | h
      · exact Or.inl h
      · exact Or.inr h
      · exact absurd h hab
    clear h
    induction pre with
    | nil => simp at hpre
    | cons x pre ih =>
      simp only [List.cons_append, firsts]
      congr 1
      by_cases hx : a ∈ pre ∨ b ∈ pre
      · rw [ih hx]
      · have hx' : x = a ∨ x = b := by
          rcases hpre with h | h
          · rcases List.mem_cons.mp h with h | h
            · exact Or.inl h.symm
            · exact absurd (Or.inl h) hx
          · rcases List.mem_cons.mp h with h | h
            · exact Or.inr h.symm
            · exact absurd (Or.inr h) hx
        clear ih hpre hx
        have key : ∀ l : List CStr, (firsts (l ++ a :: b :: post)).filter (· ≠ x) = (firsts (l ++ b :: a :: post)).filter (· ≠ x) := by
          intro l
          induction l with
          | nil =>
            simp only [List.nil_append, firsts]
            rcases hx' with rfl | rfl
            · simp only [List.filter_cons, List.filter_filter]
              have : (b ≠ x) := fun e => hab e.symm
              simp [this, this.symm, Bool.and_comm]
            · simp only [List.filter_cons, List.filter_filter]
              have : (a ≠ x) := hab
              simp [this, this.symm, Bool.and_comm]
          | cons y l ih =>
            simp only [List.cons_append, firsts, List.filter_cons, List.filter_filter]
            have e : ∀ m : List CStr, m.filter (fun z => decide (z ≠ x) && decide (z ≠ y)) = (m.filter (· ≠ x)).filter (· ≠ y) := by
              intro m
              rw [List.filter_filter]
              congr 1; funext z; rw [Bool.and_comm]
            rw [e, e, ih]
        exact key pre

/-- Neighbouring commands may be exchanged. -/
theorem swap_order {c d : Cmd} {pre post : List Cmd} (h : Unrelated c d)
    (hif : ∀ a b, ioIface c = some a → ioIface d = some b → a ∈ ifaces pre ∨ b ∈ ifaces pre) :
    SameOrder (pre ++ c :: d :: post) (pre ++ d :: c :: post) := by
  have kind : ∀ k, (k = .name ∨ k = .pcap ∨ k = .hex) → ¬ ((c.type == k) = true ∧ (d.type == k) = true) := by
    rintro k hk ⟨h1, h2⟩
    rw [beq_iff_eq] at h1 h2
    unfold Unrelated at h
    rw [h1, h2] at h
    rcases hk with rfl | rfl | rfl <;> exact h
  refine ⟨filter_swap _ (kind _ (by simp)) _ _, filter_swap _ (kind _ (by simp)) _ _, filter_swap _ (kind _ (by simp)) _ _, ?_, fun a => ?_⟩
  · unfold ifaces
    cases hc : ioIface c with
    | none => simp only [List.filterMap_append, List.filterMap_cons, hc]
    | some a =>
      cases hd : ioIface d with
      | none => simp only [List.filterMap_append, List.filterMap_cons, hc, hd]
      | some b =>
        simp only [List.filterMap_append, List.filterMap_cons, hc, hd]
        refine (firsts_swap _ _ _ _ ?_).symm
        have mem : ∀ x, x ∈ ifaces pre → x ∈ pre.filterMap ioIface := by
          intro x hx
          obtain ⟨c, hc, e⟩ := (ifaces_mem pre x).1 hx
          exact List.mem_filterMap.mpr ⟨c, hc, e⟩
        rcases hif a b hc hd with h | h
        · exact Or.inl (mem _ h)
        · exact Or.inr (Or.inl (mem _ h))
  · refine filter_swap _ ?_ _ _
    rintro ⟨h1, h2⟩
    rw [beq_iff_eq] at h1 h2
    unfold Unrelated at h
    split at h
    · exact h
    · exact h
    · exact h
    · rcases h with h | h
      · rw [h] at h1; cases h1
      · rw [h1, h2] at h; exact h rfl

/-- **C111, exchanging two neighbouring commands.** -/
theorem C111_swap (env : Env) (c d : Cmd) (pre post : List Cmd) (h : Unrelated c d)
    (hif : ∀ a b, ioIface c = some a → ioIface d = some b → a ∈ ifaces pre ∨ b ∈ ifaces pre)
    (hr : Ready (pre ++ c :: d :: post)) (hr' : Ready (pre ++ d :: c :: post))
    (hu : ∀ x ∈ pre ++ c :: d :: post, unresolved (pre ++ c :: d :: post) x = false) :
    execCmds env (pre ++ d :: c :: post) = execCmds env (pre ++ c :: d :: post) :=
  C111_order env _ _ (swap_order h hif) hr hr' hu

/-- **C111, command lines**: the words of the commands, given in another order of this kind. Both lines must be lines that are
read as these commands (see C52). -/
theorem C111_words (w : World) (ms : Int) (caps : List CStr) (l l' : List (List CStr × Cmd))
    (hc : ∀ p ∈ l, Command w.env.cfg.hasPcap p.1 p.2) (hc' : ∀ p ∈ l', Command w.env.cfg.hasPcap p.1 p.2)
    (hl : (allWords l).length ≤ 101) (hl' : (allWords l').length ≤ 101) (hs : Separated w.env.cfg.hasPcap l)
    (hs' : Separated w.env.cfg.hasPcap l') (ho : SameOrder (l.map (·.2)) (l'.map (·.2)))
    (hu : ∀ c ∈ l.map (·.2), unresolved (l.map (·.2)) c = false) :
    argcCmds w ms caps (allWords l') = argcCmds w ms caps (allWords l) := by
  have p := C52_commands_partial _ l hc hs hl
  have p' := C52_commands_partial _ l' hc' hs' hl'
  unfold argcCmds
  rw [p, p']
  simp only [Out.ok_bind]
  rw [C111_order _ _ _ ho (parsed_ready _ _ _ p).2 (parsed_ready _ _ _ p').2 hu]

/-- Non-vacuity: a definition behind its use, and commands of two interfaces. -/
example : Unrelated { type := .tx, arg0 := some c!"a", name := some c!"n" } { type := .name, name := some c!"n", buf := some [1#8] } ∧
    Unrelated { type := .tx, arg0 := some c!"a" } { type := .rx, arg0 := some c!"b" } ∧
    ¬ Unrelated { type := .tx, arg0 := some c!"a" } { type := .rx, arg0 := some c!"a" } := by decide

example (env : Env) : execCmds env [expect [1#8] none, { expect [2#8] none with arg0 := some c!"f" }, expect [3#8] none] =
    execCmds env [expect [1#8] none, expect [3#8] none, { expect [2#8] none with arg0 := some c!"f" }] :=
  C111_swap env (expect [3#8] none) { expect [2#8] none with arg0 := some c!"f" } [expect [1#8] none] [] (by decide)
    (fun a b ha _ => Or.inl (by rw [← Option.some.inj ha]; decide +kernel)) ⟨by unfold Fresh; decide +kernel, by unfold HasIface; decide +kernel, by decide +kernel⟩
    ⟨by unfold Fresh; decide +kernel, by unfold HasIface; decide +kernel, by decide +kernel⟩ (by decide +kernel)

end Ef.Props
