import Verif.Spec.Forks
import Verif.Props.Attempts

/-!
# C104: captures that cannot be started
-/

namespace Ef.Props

open Ef Ef.Spec

/-- **C104, full statement**: with any captures, the commands are executed by one process. -/
def C104_statement : Prop :=
  ∀ (ask : List Bool → Int × Bool) (env : List Bool → Env) (caps : List CStr) (cmds : List Cmd),
    (forkedRuns ask env caps cmds).length = 1

/-- The paths behind a given one. -/
theorem startAll_paths (ask : List Bool → Int × Bool) (rest : List Capture) : ∀ (path : List Bool) (started : List Capture),
    ((startAll ask path started rest).map (·.path)).Nodup ∧
    ∀ q, q ∈ (startAll ask path started rest).map (·.path) ↔ ∃ t, q = path ++ t ∧ t.length = rest.length ∧
      ∀ k, t[k]? = some true → 0 < (ask (path ++ t.take k)).1 ∧ (ask (path ++ t.take k)).2 = false := by
  induction rest with
  | nil =>
    intro path started
    refine ⟨by simp [startAll], fun q => ?_⟩
    simp only [startAll, List.map_cons, List.map_nil, List.mem_singleton, List.length_nil, List.length_eq_zero_iff]
    constructor
    · rintro rfl
      exact ⟨[], by simp, rfl, by simp⟩
    · rintro ⟨t, rfl, rfl, _⟩
      simp
  | cons c rest ih =>
    intro path started
    have hside : ∀ (s : Bool) st q, q ∈ (startAll ask (path ++ [s]) st rest).map (·.path) ↔
        ∃ t, q = path ++ s :: t ∧ t.length = rest.length ∧
          ∀ k, t[k]? = some true → 0 < (ask (path ++ s :: t.take k)).1 ∧ (ask (path ++ s :: t.take k)).2 = false := by
      intro s st q
      rw [(ih (path ++ [s]) st).2 q]
      simp only [List.append_assoc, List.singleton_append]
    unfold startAll
    rw [List.map_append]
    have hsplit : ∀ q, (∃ t, q = path ++ t ∧ t.length = (c :: rest).length ∧
          ∀ k, t[k]? = some true → 0 < (ask (path ++ t.take k)).1 ∧ (ask (path ++ t.take k)).2 = false) ↔
        ∃ s t, q = path ++ s :: t ∧ t.length = rest.length ∧ (s = true → 0 < (ask path).1 ∧ (ask path).2 = false) ∧
          ∀ k, t[k]? = some true → 0 < (ask (path ++ s :: t.take k)).1 ∧ (ask (path ++ s :: t.take k)).2 = false := by
      intro q
      constructor
      · rintro ⟨t, rfl, hl, hk⟩
        cases t with
        | nil => simp at hl
        | cons s t =>
          refine ⟨s, t, rfl, by simpa using hl, fun hs => ?_, fun k h => ?_⟩
          · have := hk 0 (by simp [hs])
            simpa using this
          · have := hk (k + 1) (by simpa using h)
            simpa using this
      · rintro ⟨s, t, rfl, hl, hs, hk⟩
        refine ⟨s :: t, rfl, by simp [hl], fun k h => ?_⟩
        cases k with
        | zero => simpa using hs (by simpa using h)
        | succ k => simpa using hk k (by simpa using h)
    constructor
    · rw [List.nodup_append]
      refine ⟨?_, (ih _ _).1, ?_⟩
      · split
        · exact (ih _ _).1
        · simp
      · intro a ha b hb
        rw [hside] at hb
        obtain ⟨t, rfl, _⟩ := hb
        split at ha
        · rw [hside] at ha
          obtain ⟨u, rfl, _⟩ := ha
          intro e
          have := List.append_cancel_left e
          simp at this
        · simp at ha
    · intro q
      rw [List.mem_append, hsplit, hside]
      constructor
      · rintro (h | h)
        · split at h
          · rename_i hc
            rw [hside] at h
            obtain ⟨t, h1, h2, h3⟩ := h
            exact ⟨true, t, h1, h2, fun _ => hc, h3⟩
          · simp at h
        · obtain ⟨t, h1, h2, h3⟩ := h
          exact ⟨false, t, h1, h2, by simp, h3⟩
      · rintro ⟨s, t, h1, h2, h3, h4⟩
        cases s with
        | false => exact Or.inr ⟨t, h1, h2, h4⟩
        | true =>
          refine Or.inl ?_
          rw [if_pos (h3 rfl), hside]
          exact ⟨t, h1, h2, h4⟩

/-- **C104, exactly**: the commands are executed by each process that has not become a capture, that is, by the original
one and by each child whose `execl` fails, once each. -/
theorem C104_processes (ask : List Bool → Int × Bool) (env : List Bool → Env) (caps : List CStr) (cmds : List Cmd) :
    ∃ ps : List (List Bool), ps.Nodup ∧ (∀ p, p ∈ ps ↔ GoesOn ask caps.length p) ∧
      forkedRuns ask env caps cmds = ps.map (fun p => execCmds (env p) cmds) := by
  refine ⟨(startAll ask [] [] (caps.map (fun s => { cmd := captureCmd s }))).map (·.path), (startAll_paths ask _ _ _).1,
    fun p => ?_, ?_⟩
  · rw [(startAll_paths ask _ _ _).2]
    unfold GoesOn
    simp only [List.nil_append, List.length_map]
    constructor
    · rintro ⟨t, rfl, h⟩; exact h
    · intro h; exact ⟨p, rfl, h⟩
  · unfold forkedRuns
    rw [List.map_map]
    rfl

theorem goesOn_original (ask : List Bool → Int × Bool) (n : Nat) : GoesOn ask n (List.replicate n false) := by
  refine ⟨List.length_replicate, fun k h => ?_⟩
  rw [List.getElem?_replicate] at h
  split at h <;> simp at h

/-- **C104, the part that holds**: the commands are executed once exactly if each child the tool starts becomes a capture. -/
theorem C104_once_partial (ask : List Bool → Int × Bool) (env : List Bool → Env) (caps : List CStr) (cmds : List Cmd) :
    (forkedRuns ask env caps cmds = [execCmds (env (List.replicate caps.length false)) cmds] ↔
      (forkedRuns ask env caps cmds).length = 1) ∧
    ((forkedRuns ask env caps cmds).length = 1 ↔
      ∀ k, k < caps.length → 0 < (ask (List.replicate k false)).1 → (ask (List.replicate k false)).2 = true) := by
  obtain ⟨ps, hnd, hps, e⟩ := C104_processes ask env caps cmds
  have h0 : List.replicate caps.length false ∈ ps := (hps _).mpr (goesOn_original _ _)
  rw [e]
  have hone : ps.length = 1 ↔ ps = [List.replicate caps.length false] := by
    constructor
    · intro h
      obtain ⟨a, rfl⟩ := List.length_eq_one_iff.mp h
      rw [List.mem_singleton] at h0
      rw [h0]
    · intro h; rw [h]; rfl
  refine ⟨⟨fun h => by rw [h]; rfl, fun h => ?_⟩, ?_⟩
  · rw [List.length_map, hone] at h
    rw [h]
    rfl
  rw [List.length_map, hone]
  constructor
  · intro h k hk hpos
    refine Classical.byContradiction fun hr => ?_
    have hr : (ask (List.replicate k false)).2 = false := by simpa using hr
    have hm : List.replicate k false ++ true :: List.replicate (caps.length - k - 1) false ∈ ps := by
      rw [hps]
      refine ⟨by simp; omega, fun j hj => ?_⟩
      have hjk : j = k := by
        rw [List.getElem?_append] at hj
        split at hj
        · rw [List.getElem?_replicate] at hj
          split at hj <;> simp at hj
        · rename_i hge
          rw [List.length_replicate] at hj hge
          cases hd : j - k with
          | zero => omega
          | succ d =>
            rw [hd, List.getElem?_cons_succ, List.getElem?_replicate] at hj
            split at hj <;> simp at hj
      subst hjk
      rw [List.take_append_of_le_length (by simp), List.take_of_length_le (by simp)]
      exact ⟨hpos, hr⟩
    rw [h, List.mem_singleton] at hm
    have : true ∈ List.replicate caps.length false := by rw [← hm]; simp
    simp [List.mem_replicate] at this
  · intro h
    have hall : ∀ p ∈ ps, p = List.replicate caps.length false := by
      intro p hp
      obtain ⟨h1, h2⟩ := (hps p).mp hp
      have key : ∀ k, k ≤ caps.length → p.take k = List.replicate k false := by
        intro k
        induction k with
        | zero => intro _; simp
        | succ k ih =>
          intro hk
          have ih := ih (by omega)
          have hk' : k < p.length := by omega
          rw [List.take_succ_eq_append_getElem hk', ih, List.replicate_succ']
          congr 2
          cases hx : p[k] with
          | false => rfl
          | true =>
            obtain ⟨g1, g2⟩ := h2 k (by rw [List.getElem?_eq_getElem hk', hx])
            rw [ih] at g1 g2
            have := h k (by omega) g1
            rw [g2] at this
            simp at this
      have := key caps.length (Nat.le_refl _)
      rw [← h1, List.take_length] at this
      rw [this, h1]
    match ps, hnd, h0, hall with
    | [a], _, _, hall => rw [hall a (by simp)]
    | a :: b :: r, hnd, _, hall =>
      exfalso
      have ha := hall a (by simp)
      have hb := hall b (by simp)
      rw [List.nodup_cons] at hnd
      exact hnd.1 (by rw [ha, hb]; simp)

theorem startAll_double (ask : List Bool → Int × Bool) (h : ∀ p, 0 < (ask p).1 ∧ (ask p).2 = false) (rest : List Capture) :
    ∀ path started, (startAll ask path started rest).length = 2 ^ rest.length := by
  induction rest with
  | nil => intro path started; rfl
  | cons c rest ih =>
    intro path started
    unfold startAll
    rw [if_pos (h path), List.length_append, ih, ih, List.length_cons, Nat.pow_succ]
    omega

/-- **C104, without a shell**: if `/bin/bash` cannot be executed, every capture doubles the number of processes. If they
all get the same answers from the system, everything happens as often, in particular each transmission. -/
theorem C104_doubles (ask : List Bool → Int × Bool) (env : Env) (caps : List CStr) (cmds : List Cmd)
    (h : ∀ p, 0 < (ask p).1 ∧ (ask p).2 = false) :
    forkedRuns ask (fun _ => env) caps cmds = List.replicate (2 ^ caps.length) (execCmds env cmds) := by
  unfold forkedRuns
  have hl := startAll_double ask h (caps.map (fun s => ({ cmd := captureCmd s } : Capture))) [] []
  rw [List.length_map] at hl
  rw [List.map_const', hl]

/-- **C104 does not hold.** -/
theorem C104_false : ¬ C104_statement := by
  intro h
  have h1 := h (fun _ => (1, false)) (fun _ => oneFails) [c!"eth0"] []
  rw [C104_doubles _ _ _ _ (fun _ => ⟨by decide, rfl⟩)] at h1
  simp at h1

/-- The captures of all processes: a process knows those it has started itself, and those its ancestors had started
before it. -/
theorem startAll_captures (ask : List Bool → Int × Bool) (rest : List Capture) : ∀ (path : List Bool) (started : List Capture),
    ∀ p ∈ startAll ask path started rest, ∃ t, p.path = path ++ t ∧ ∃ l, p.captures = started ++ l ∧
      l.length = rest.length ∧ ∀ (k : Nat) c, rest[k]? = some c →
        l[k]? = some (if t[k]? = some true then c else captureStart c (ask (path ++ t.take k)).1) := by
  induction rest with
  | nil =>
    intro path started p hp
    simp only [startAll, List.mem_singleton] at hp
    subst hp
    exact ⟨[], by simp, [], by simp, rfl, by simp⟩
  | cons c rest ih =>
    intro path started p hp
    have step : ∀ (s : Bool) (c' : Capture), c' = (if s = true then c else captureStart c (ask path).1) →
        p ∈ startAll ask (path ++ [s]) (started ++ [c']) rest → ∃ t, p.path = path ++ t ∧ ∃ l, p.captures = started ++ l ∧
      l.length = (c :: rest).length ∧ ∀ (k : Nat) d, (c :: rest)[k]? = some d →
        l[k]? = some (if t[k]? = some true then d else captureStart d (ask (path ++ t.take k)).1) := by
      intro s c' hc hp
      obtain ⟨t, h1, l, h2, h3, h4⟩ := ih _ _ p hp
      refine ⟨s :: t, by rw [h1, List.append_assoc]; rfl, c' :: l, by rw [h2, List.append_assoc]; rfl, by simp [h3], fun k d hk => ?_⟩
      cases k with
      | zero =>
        simp only [List.getElem?_cons_zero, Option.some.injEq] at hk
        subst hk
        rw [hc]
        cases s <;> simp
      | succ k =>
        have := h4 k d (by simpa using hk)
        simpa using this
    unfold startAll at hp
    rcases List.mem_append.mp hp with h | h
    · split at h
      · exact step true c rfl h
      · simp at h
    · exact step false _ rfl h

/-- **C104, the captures of a process**: process `p` takes capture `k` for a running one of its own, and will stop it, exactly
if the `fork` for it succeeded in `p` or in an ancestor of `p` - also if it was an ancestor that started it. -/
theorem C104_inherited (ask : List Bool → Int × Bool) (caps : List CStr) :
    ∀ p ∈ startAll ask [] [] (caps.map (fun s => { cmd := captureCmd s })), GoesOn ask caps.length p.path ∧
      p.captures.length = caps.length ∧
      ∀ (k : Nat) s, caps[k]? = some s → ∃ c, p.captures[k]? = some c ∧ c.cmd = captureCmd s ∧
        (c.running = true ↔ p.path[k]? = some false ∧ 0 < (ask (p.path.take k)).1) ∧
        (c.running = true → c.pid = (ask (p.path.take k)).1) := by
  intro p hp
  have hg : GoesOn ask caps.length p.path := by
    have := ((startAll_paths ask _ [] []).2 p.path).mp (List.mem_map_of_mem hp)
    obtain ⟨t, h1, h2, h3⟩ := this
    rw [List.nil_append] at h1
    subst h1
    exact ⟨by simpa using h2, by simpa using h3⟩
  obtain ⟨t, h1, l, h2, h3, h4⟩ := startAll_captures ask _ _ _ p hp
  rw [List.nil_append] at h1 h2
  subst h1
  rw [h2]
  refine ⟨hg, by simpa using h3, fun k s hk => ?_⟩
  have hk' : (caps.map (fun s => ({ cmd := captureCmd s } : Capture)))[k]? = some { cmd := captureCmd s } := by simp [hk]
  refine ⟨_, h4 k _ hk', ?_⟩
  rw [List.nil_append]
  have hkl : k < p.path.length := by rw [hg.1]; exact (List.getElem?_eq_some_iff.mp hk).1
  rw [List.getElem?_eq_getElem hkl]
  cases hx : p.path[k] with
  | true => simp
  | false =>
    simp only [Option.some.injEq, Bool.false_eq_true, if_false]
    unfold captureStart
    split <;> simp_all

/-- Non-vacuity: two captures, of which the second one cannot be started; the frame is transmitted twice, and the second
process will stop the capture the first one has started. -/
example : let ask : List Bool → Int × Bool := fun p => if p = [] then (100, true) else (101, false)
    (startAll ask [] [] [{ cmd := c!"a" }, { cmd := c!"b" }]).map (fun p => p.captures.map (fun c => (c.pid, c.running))) =
      [[(100, true), (0, false)], [(100, true), (101, true)]] ∧
    ((forkedRuns ask (fun _ => oneFails) [c!"eth0", c!"eth1"] [transmit [1#8] 3]).filterMap Out.get?).map
      (fun r => r.events.filterMap (attemptOn c!"e")) =
      [[([1#8], -1), ([1#8], 1), ([1#8], 1)], [([1#8], -1), ([1#8], 1), ([1#8], 1)]] := by decide +kernel

end Ef.Props
