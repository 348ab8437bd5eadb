import Verif.Spec.Arrivals
import Verif.Props.Separate
import Verif.Props.Tool
import Verif.Props.Longer
import Verif.Props.Loopback

/-!
# Frames that arrive in time (C126)
-/

namespace Ef.Props

open Ef Ef.Spec

theorem arrivedBy_length_mono {c d : Int} (h : c ≤ d) (l : List (Int × Buf)) :
    (arrivedBy c l).length ≤ (arrivedBy d l).length := by
  unfold arrivedBy
  induction l with
  | nil => simp
  | cons e l ih =>
    rw [List.takeWhile_cons, List.takeWhile_cons]
    by_cases h1 : e.1 ≤ c
    · rw [if_pos (by simpa using h1), if_pos (by simp; omega)]
      simpa using ih
    · rw [if_neg (by simpa using h1)]
      simp

theorem arrivedBy_take (c : Int) (l : List (Int × Buf)) : arrivedBy c l = l.take (arrivedBy c l).length := by
  unfold arrivedBy
  induction l with
  | nil => rfl
  | cons e l ih =>
    rw [List.takeWhile_cons]
    split
    · rw [List.length_cons, List.take_succ_cons, ← ih]
    · rfl

theorem timerGt_micros {a b : TimeVal} (ha : Normalised a) (hb : Normalised b) (h : ¬ timerGt a b = true) :
    micros a ≤ micros b := by
  unfold Normalised at ha hb
  unfold micros
  unfold timerGt at h
  split at h
  · simp at h; omega
  · simp at h; omega

/-- A frame that is read is given to the commands as it was on the wire. -/
theorem delivered_read {cfg : Config} {i : Nat} {s : Step} {o : Buf} {m : RxMsg} (hr : s.readable i = true)
    (hm : s.recv i = some m) (hd : ReadAs cfg o m) (h0 : o ≠ []) (hl : o.length < 32768) :
    delivered cfg i s = [o] := by
  obtain ⟨h1, h2⟩ := restore_delivered hd.1 hl hd.2
  unfold delivered
  rw [if_pos hr, hm]
  simp only
  rw [if_neg ?_, h1]
  · rfl
  · intro hn
    rw [hn] at h2
    exact h0 (h2.mp (by simp))

theorem take_drop_succ {α : Type} {l : List α} {n k : Nat} {e : α} (h : l[n]? = some e) (hk : n + 1 ≤ k) :
    (l.take k).drop n = e :: (l.take k).drop (n + 1) := by
  obtain ⟨hn, he⟩ := List.getElem?_eq_some_iff.mp h
  have hl : n < (l.take k).length := by rw [List.length_take]; omega
  rw [List.drop_eq_getElem_cons hl, List.getElem_take, he]

/-- What is heard is a section of what arrives. -/
theorem follows_heard {cfg : Config} {w : Wire} {listens : Nat → Bool} {tend : TimeVal} (ht : Normalised tend) {i : Nat}
    (hi : listens i = true) (hw : ∀ e ∈ w i, e.2 ≠ [] ∧ e.2.length < 32768) {reads : Nat → Nat} {hist : List Step}
    (h : Follows cfg w listens tend reads hist) (hn : ∀ s ∈ hist, Normalised s.now)
    (hr : reads i ≤ (arrivedBy (micros tend) (w i)).length) :
    ∃ k, reads i ≤ k ∧ k ≤ (arrivedBy (micros tend) (w i)).length ∧
      (usable tend hist).flatMap (delivered cfg i) = (((w i).take k).drop (reads i)).map (·.2) ∧
      (Expires tend hist → k = (arrivedBy (micros tend) (w i)).length) := by
  have stop : ∀ (reads : Nat → Nat) (s : Step) (hist : List Step), reads i ≤ (arrivedBy (micros tend) (w i)).length →
      timerGt s.now tend = true ∨ s.res ≤ 0 →
      (s.res = 0 → (arrivedBy (micros tend) (w i)).length ≤ reads i) →
      ∃ k, reads i ≤ k ∧ k ≤ (arrivedBy (micros tend) (w i)).length ∧
        (usable tend (s :: hist)).flatMap (delivered cfg i) = (((w i).take k).drop (reads i)).map (·.2) ∧
        (Expires tend (s :: hist) → k = (arrivedBy (micros tend) (w i)).length) := by
    intro reads s hist hr hs h0
    refine ⟨reads i, Nat.le_refl _, hr, ?_, ?_⟩
    · rw [usable_stop hs, List.drop_eq_nil_of_le (by rw [List.length_take]; omega)]
      rfl
    · rintro ⟨s', hs', hz⟩
      rw [usable_stop hs] at hs'
      simp only [List.length_nil, List.getElem?_cons_zero, Option.some.injEq] at hs'
      subst hs'
      have := h0 hz
      omega
  induction h with
  | nil reads =>
    refine ⟨reads i, Nat.le_refl _, hr, ?_, ?_⟩
    · rw [List.drop_eq_nil_of_le (by rw [List.length_take]; omega)]
      rfl
    · rintro ⟨s, hs, -⟩
      simp at hs
  | failed reads s hist hf => exact stop reads s hist hr (.inr (by omega)) (fun h => by omega)
  | expired reads s hist c h0 hc _ hq =>
    refine stop reads s hist hr (.inr (by omega)) (fun _ => ?_)
    have := hq i hi
    have := arrivedBy_length_mono hc (w i)
    omega
  | ready reads s hist c hp hc hs hm hf ih =>
    by_cases hg : timerGt s.now tend = true
    · exact stop reads s hist hr (.inl hg) (fun h => by omega)
    · have hle : micros s.now ≤ micros tend := timerGt_micros (hn s (by simp)) ht hg
      have hgo := usable_go (hist := hist) hg (show ¬ s.res ≤ 0 by omega)
      have hexp : Expires tend (s :: hist) → Expires tend hist := by
        rintro ⟨s', hs', hz⟩
        rw [hgo, List.length_cons, List.getElem?_cons_succ] at hs'
        exact ⟨s', hs', hz⟩
      by_cases hrd : s.readable i = true
      · obtain ⟨e, m, he, hme, hd⟩ := hm i hi hrd
        have hlt := (hs i hi).mp hrd
        have hmono := arrivedBy_length_mono (Int.le_trans hc hle) (w i)
        obtain ⟨k, h1, h2, h3, h4⟩ := ih (fun s hs => hn s (List.mem_cons_of_mem _ hs)) (by simp only [if_pos hrd]; omega)
        simp only [if_pos hrd] at h1 h3
        obtain ⟨g1, g2⟩ := hw e (List.mem_of_getElem? he)
        refine ⟨k, by omega, h2, ?_, fun hx => h4 (hexp hx)⟩
        rw [hgo, List.flatMap_cons, h3, delivered_read hrd hme hd g1 g2, take_drop_succ he h1]
        rfl
      · obtain ⟨k, h1, h2, h3, h4⟩ := ih (fun s hs => hn s (List.mem_cons_of_mem _ hs)) (by simp only [if_neg hrd]; omega)
        simp only [if_neg hrd] at h1 h3
        refine ⟨k, h1, h2, ?_, fun hx => h4 (hexp hx)⟩
        rw [hgo, List.flatMap_cons, h3]
        unfold delivered
        rw [if_neg hrd]
        rfl

/-! ## C126 -/

/-- A run with the commands `cmds` where the frames `w` arrive, looked at on the interface `a` with socket `i`, for which there
is an rx command. -/
structure Receiving (env : Env) (cmds : List Cmd) (r : ExecRes) (w : Wire) (i : Nat) (a : CStr) : Prop where
  ready : Ready cmds
  known : ∀ c ∈ cmds, unresolved cmds c = false
  opens : ∀ a ∈ ifaces cmds, env.canOpen a = true
  run : execCmds env cmds = .ok r
  done : r.status = .finished
  idx : (ifaces cmds)[i]? = some a
  rx : (onSocket a cmds).any (fun c => c.type == .rx) = true
  clock : Normalised (deadline env) ∧ ∀ s ∈ env.hist, Normalised s.now
  frames : ∀ e ∈ w i, e.2 ≠ [] ∧ e.2.length < 32768
  order : (w i).Pairwise (fun e e' => e.1 ≤ e'.1)
  os : Follows env.cfg w (fun j => ((ifaces cmds)[j]?.map (fun b => (onSocket b cmds).any (fun c => c.type == .rx))).getD false)
    (deadline env) (fun _ => 0) env.hist

theorem Receiving.heard {env : Env} {cmds : List Cmd} {r : ExecRes} {w : Wire} {i : Nat} {a : CStr}
    (h : Receiving env cmds r w i a) :
    ∃ k, k ≤ (inTime w (deadline env) i).length ∧ heardOn env a cmds i = (inTime w (deadline env) i).take k ∧
      (Expires (deadline env) env.hist → heardOn env a cmds i = inTime w (deadline env) i) := by
  obtain ⟨k, -, h2, h3, h4⟩ := follows_heard h.clock.1 (i := i) (by simp only [h.idx]; exact h.rx) h.frames h.os h.clock.2
    (Nat.zero_le _)
  have e : heardOn env a cmds i = ((w i).take k).map (·.2) := by
    unfold heardOn Spec.heard
    rw [if_pos h.rx, List.take_length, h3, List.drop_zero]
  have e2 : (w i).take k = (arrivedBy (micros (deadline env)) (w i)).take k := by
    conv => rhs; rw [arrivedBy_take]
    rw [List.take_take, Nat.min_eq_left h2]
  have e3 : heardOn env a cmds i = (inTime w (deadline env) i).take k := by
    rw [e, e2, List.map_take]; rfl
  refine ⟨k, by unfold inTime; simpa using h2, e3, fun hx => ?_⟩
  rw [e3, List.take_of_length_le]
  unfold inTime
  rw [List.length_map, h4 hx]
  exact Nat.le_refl _

/-- **C126**: every frame that arrives at an interface with an rx command until the deadline is reported, in the order of
arrival, and no expectation it satisfies is reported missing. -/
def C126_statement : Prop :=
  ∀ (env : Env) (cmds : List Cmd) (r : ExecRes) (w : Wire) (i : Nat) (a : CStr), Receiving env cmds r w i a →
    ∃ out, Credited (onSocket a cmds) (inTime w (deadline env) i) out ∧
      r.events.filter (isRx a) = rxReport a (onSocket a cmds) (inTime w (deadline env) i) out ∧
      r.events.filter (isNoRx a) = (uncredited (onSocket a cmds) out).map (noRxReport a)

/-- **C126, the part that holds**: it is so if the last `select` returns 0, that is, if the tool is fast enough to read
everything before the deadline. Missing: runs which end because the clock has passed the deadline while frames wait (false,
see `C126_false`). -/
theorem C126_all_partial (env : Env) (cmds : List Cmd) (r : ExecRes) (w : Wire) (i : Nat) (a : CStr)
    (h : Receiving env cmds r w i a) (hx : Expires (deadline env) env.hist) :
    ∃ out, Credited (onSocket a cmds) (inTime w (deadline env) i) out ∧
      r.events.filter (isRx a) = rxReport a (onSocket a cmds) (inTime w (deadline env) i) out ∧
      r.events.filter (isNoRx a) = (uncredited (onSocket a cmds) out).map (noRxReport a) := by
  obtain ⟨k, -, -, he⟩ := h.heard
  rw [← he hx]
  exact socket_report h.ready h.known h.opens h.run h.done h.idx

/-- C126: in any case, the report is about the first frames that arrive, without a gap, and about no frame that arrives
after the deadline. -/
theorem C126_first (env : Env) (cmds : List Cmd) (r : ExecRes) (w : Wire) (i : Nat) (a : CStr)
    (h : Receiving env cmds r w i a) :
    ∃ k out, k ≤ (inTime w (deadline env) i).length ∧
      Credited (onSocket a cmds) ((inTime w (deadline env) i).take k) out ∧
      r.events.filter (isRx a) = rxReport a (onSocket a cmds) ((inTime w (deadline env) i).take k) out ∧
      r.events.filter (isNoRx a) = (uncredited (onSocket a cmds) out).map (noRxReport a) := by
  obtain ⟨k, hk, he, -⟩ := h.heard
  obtain ⟨out, h1, h2, h3⟩ := socket_report h.ready h.known h.opens h.run h.done h.idx
  rw [he] at h1 h2
  exact ⟨k, out, hk, h1, h2, h3⟩

/-- C126, success: without tx commands and without overlapping masks, there are no errors on the interface exactly if the frames
that arrive until the deadline can be paired with the expectations, again if the last `select` returns 0. -/
theorem C126_success_partial (env : Env) (cmds : List Cmd) (r : ExecRes) (w : Wire) (i : Nat) (a : CStr)
    (h : Receiving env cmds r w i a) (hx : Expires (deadline env) env.hist) (hrx : ∀ c ∈ onSocket a cmds, c.type = .rx)
    (ho : NoOverlap (onSocket a cmds)) :
    errorsOn a r.events = 0 ↔ Paired (expectations (onSocket a cmds)) (inTime w (deadline env) i) := by
  obtain ⟨k, -, -, he⟩ := h.heard
  obtain ⟨h1, h2⟩ := C58_success_partial env cmds r i a h.ready h.known h.opens h.run h.done h.idx hrx
  rw [← he hx]
  exact ⟨h1, h2 ho⟩

/-- C126 for the test of C90, from the words to the exit code: a test that transmits the frames `T` on interface `x` and expects
the frames `R` on interface `y` succeeds exactly if the frames that arrive at `y` until the deadline are the frames of `R`, each
as often as it is expected, in any order; again if the last `select` returns 0. -/
theorem C126_connection_partial (w : World) (ms : Int) (caps : List CStr) (x y : CStr) (T R : List (List CStr × Buf)) (r : RunRes)
    (n : Int) (hxy : x ≠ y) (hTn : T ≠ []) (hRn : R ≠ []) (hT : ∀ p ∈ T, Describes p.1 p.2)
    (hR : ∀ p ∈ R, Describes p.1 p.2) (hlen : (testLine x y T R).length ≤ 101) (hox : w.env.canOpen x = true)
    (hoy : w.env.canOpen y = true) (h : argcCmds w ms caps (testLine x y T R) = .ok r) (hn : r.ret = some n) (wire : Wire)
    (tend : TimeVal) (ht : tend = deadline { w.env with timeoutMs := ms }) (htn : Normalised tend)
    (hclock : ∀ s ∈ w.env.hist, Normalised s.now) (hframes : ∀ e ∈ wire 1, e.2 ≠ [] ∧ e.2.length < 32768)
    (hos : Follows w.env.cfg wire (fun j => j == 1) tend (fun _ => 0) w.env.hist) (hx : Expires tend w.env.hist) :
    n = 0 ↔ (inTime wire tend 1).Perm (R.map (·.2)) := by
  obtain ⟨k, -, -, h3, h4⟩ := follows_heard htn (i := 1) rfl hframes hos hclock (Nat.zero_le _)
  have e : seen w ms = inTime wire tend 1 := by
    unfold seen inTime
    rw [← ht, h3, List.drop_zero, h4 hx, ← arrivedBy_take]
  rw [← e]
  exact (C90_connection w ms caps x y T R r n hxy hTn hRn hT hR hlen hox hoy h hn).1

/-! ## The tool is too slow -/

/-- Two frames that arrive one after the other at the only interface. -/
def twoFrames : Wire := fun i => if i = 0 then [(0, [1#8]), (1000, [2#8])] else []

/-- An answer with a frame that waits. -/
def answer (now : TimeVal) (b : Buf) : Step :=
  Step.mk 1 now (fun i => i == 0) (fun _ => false) (fun _ => some ⟨b, none⟩) (fun _ => 0)

/-- Nothing waits. -/
def nothing (now : TimeVal) : Step := Step.mk 0 now (fun _ => false) (fun _ => false) (fun _ => none) (fun _ => 0)

/-- A tool that has enough time. -/
def inTimeEnv : Env :=
  Env.mk ⟨true, true⟩ (fun _ => true) ⟨0, 0⟩ 100 [answer ⟨0, 2000⟩ [1#8], answer ⟨0, 3000⟩ [2#8], nothing ⟨0, 100000⟩] 10

/-- A tool that is interrupted for 0.1 seconds before it reads the clock again. -/
def lateEnv : Env :=
  Env.mk ⟨true, true⟩ (fun _ => true) ⟨0, 0⟩ 100 [answer ⟨0, 2000⟩ [1#8], answer ⟨0, 102000⟩ [2#8]] 10

/-- The commands. -/
def firstOnly : List Cmd := [expect [1#8] none]

theorem ready_firstOnly : Ready firstOnly :=
  ⟨by unfold Fresh; decide +kernel, by unfold HasIface; decide +kernel, by decide +kernel⟩

theorem plain_readable (cfg : Config) (b : Buf) : ReadAs cfg b ⟨b, none⟩ := by
  refine ⟨.plain none (fun x hx => by simp at hx), fun he => ?_⟩
  have := congrArg RxMsg.aux he
  simp [strip] at this

/-- Only the first interface listens. -/
theorem firstOnly_listens {i : Nat}
    (h : ((ifaces firstOnly)[i]?.map (fun b => (onSocket b firstOnly).any (fun c => c.type == .rx))).getD false = true) :
    i = 0 := by
  have hl : (ifaces firstOnly).length = 1 := by decide +kernel
  by_cases hi : i < 1
  · omega
  · rw [List.getElem?_eq_none (by omega)] at h
    simp at h

theorem receiving_inTime : Receiving inTimeEnv firstOnly (result inTimeEnv firstOnly) twoFrames 0 c!"e" where
  ready := ready_firstOnly
  known := by decide +kernel
  opens := fun _ _ => rfl
  run := result_ok (by decide +kernel)
  done := by decide +kernel
  idx := by decide +kernel
  rx := by decide +kernel
  clock := by unfold Normalised; decide +kernel
  frames := by decide +kernel
  order := by decide +kernel
  os := by
    refine .ready _ _ _ 2000 (by decide) (by decide +kernel) ?_ ?_
      (.ready _ _ _ 3000 (by decide) (by decide +kernel) ?_ ?_
      (.expired _ _ _ 100000 rfl (by decide +kernel) (by decide +kernel) ?_))
    · intro i hi
      rw [firstOnly_listens hi]
      decide +kernel
    · intro i hi _
      rw [firstOnly_listens hi]
      exact ⟨(0, [1#8]), ⟨[1#8], none⟩, by decide +kernel, rfl, plain_readable _ _⟩
    · intro i hi
      rw [firstOnly_listens hi]
      decide +kernel
    · intro i hi _
      rw [firstOnly_listens hi]
      exact ⟨(1000, [2#8]), ⟨[2#8], none⟩, by decide +kernel, rfl, plain_readable _ _⟩
    · intro i hi
      rw [firstOnly_listens hi]
      decide +kernel

theorem receiving_late : Receiving lateEnv firstOnly (result lateEnv firstOnly) twoFrames 0 c!"e" where
  ready := ready_firstOnly
  known := by decide +kernel
  opens := fun _ _ => rfl
  run := result_ok (by decide +kernel)
  done := by decide +kernel
  idx := by decide +kernel
  rx := by decide +kernel
  clock := by unfold Normalised; decide +kernel
  frames := by decide +kernel
  order := by decide +kernel
  os := by
    refine .ready _ _ _ 2000 (by decide) (by decide +kernel) ?_ ?_
      (.ready _ _ _ 3000 (by decide) (by decide +kernel) ?_ ?_ (.nil _))
    · intro i hi
      rw [firstOnly_listens hi]
      decide +kernel
    · intro i hi _
      rw [firstOnly_listens hi]
      exact ⟨(0, [1#8]), ⟨[1#8], none⟩, by decide +kernel, rfl, plain_readable _ _⟩
    · intro i hi
      rw [firstOnly_listens hi]
      decide +kernel
    · intro i hi _
      rw [firstOnly_listens hi]
      exact ⟨(1000, [2#8]), ⟨[2#8], none⟩, by decide +kernel, rfl, plain_readable _ _⟩

/-- The conditions of `C126_connection_partial` can be met: the cable of C90. -/
example : Follows (cable ethBytes).env.cfg (fun i => if i = 1 then [(5, ethBytes)] else []) (fun j => j == 1) ⟨0, 100000⟩
      (fun _ => 0) (cable ethBytes).env.hist ∧
    Expires ⟨0, 100000⟩ (cable ethBytes).env.hist ∧ deadline { (cable ethBytes).env with timeoutMs := 100 } = ⟨0, 100000⟩ := by
  refine ⟨.ready _ _ _ 0 (by decide) (by decide +kernel) ?_ ?_ (.ready _ _ _ 10 (by decide) (by decide +kernel) ?_ ?_
      (.expired _ _ _ 1000000 rfl (by decide +kernel) (by decide +kernel) ?_)), ⟨_, rfl, rfl⟩, by decide +kernel⟩
  · intro i hi
    obtain rfl : i = 1 := by simpa using hi
    decide +kernel
  · intro i _ hr
    exact absurd hr Bool.false_ne_true
  · intro i hi
    obtain rfl : i = 1 := by simpa using hi
    decide +kernel
  · intro i hi _
    obtain rfl : i = 1 := by simpa using hi
    exact ⟨(5, ethBytes), ⟨ethBytes, none⟩, by decide +kernel, rfl, plain_readable _ _⟩
  · intro i hi
    obtain rfl : i = 1 := by simpa using hi
    decide +kernel

/-- The conditions of `C126_all_partial` can be met: the unexpected second frame is an error. -/
theorem C126_example : Receiving inTimeEnv firstOnly (result inTimeEnv firstOnly) twoFrames 0 c!"e" ∧
    Expires (deadline inTimeEnv) inTimeEnv.hist ∧ (result inTimeEnv firstOnly).ret = some 1 ∧
    inTime twoFrames (deadline inTimeEnv) 0 = [[1#8], [2#8]] :=
  ⟨receiving_inTime, ⟨nothing ⟨0, 100000⟩, rfl, rfl⟩, by decide +kernel, by decide +kernel⟩

/-- The same frames, the same commands and the same deadline, but a slow tool: success. -/
theorem C126_late : Receiving lateEnv firstOnly (result lateEnv firstOnly) twoFrames 0 c!"e" ∧
    (result lateEnv firstOnly).ret = some 0 ∧ deadline lateEnv = deadline inTimeEnv :=
  ⟨receiving_late, by decide +kernel, by decide +kernel⟩

/-- **C126 does not hold**: a frame that nobody waits for arrives 99 ms before the deadline, `select` reports it, but the tool reads
the clock after the deadline and ends without looking at the frame. The run succeeds. -/
theorem C126_false : ¬ C126_statement := by
  intro hs
  obtain ⟨out, h1, h2, -⟩ := hs lateEnv firstOnly _ twoFrames 0 c!"e" receiving_late
  have hl := h1.len
  have hF : inTime twoFrames (deadline lateEnv) 0 = [[1#8], [2#8]] := by decide +kernel
  have hE : ((result lateEnv firstOnly).events.filter (isRx c!"e")).length = 1 := by decide +kernel
  rw [h2, hF] at hE
  rw [hF] at hl
  unfold rxReport at hE
  rw [List.length_zipWith, hl] at hE
  simp at hE

end Ef.Props
