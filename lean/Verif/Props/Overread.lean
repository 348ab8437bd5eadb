import Verif.Props.NoCrashRun
import Verif.Props.Run

/-!
# C24, C98: which received frames make the comparison read behind the expected frame
-/

namespace Ef.Props

open Ef Ef.Spec

/-- **C24**, exactly: the comparison reads behind the expected frame if and only if `Overread`; otherwise it tells whether the
frame matches. With padding it therefore never accepts a frame. -/
theorem C24_exactly (rx expected : Buf) (mask : Option Buf) (n : Nat) :
    (bequalMask (some rx) (some expected) mask n = .ub .oobRead ↔ Overread rx expected mask n) ∧
    (¬ Overread rx expected mask n →
      ∃ r, bequalMask (some rx) (some expected) mask n = .ok r ∧ (r = true ↔ MatchesPadded rx expected mask n)) ∧
    (0 < n → bequalMask (some rx) (some expected) mask n ≠ .ok true) := by
  obtain ⟨h1, h2⟩ := bequalMask_exact rx expected mask n
  refine ⟨⟨fun h => ?_, h1⟩, h2, fun hn h => ?_⟩
  · apply Classical.byContradiction
    intro hn
    obtain ⟨r, hr, _⟩ := h2 hn
    rw [hr] at h
    cases h
  · by_cases ho : Overread rx expected mask n
    · rw [h1 ho] at h; cases h
    · obtain ⟨r, hr, hm⟩ := h2 ho
      rw [hr, Out.ok.injEq] at h
      have hp := hm.mp h
      refine ho ⟨hn, ?_, .inr hp⟩
      obtain ⟨core, t, rfl, ht, hl, _⟩ := hp
      rw [List.length_append, hl, ht]

/-- The frame `b` trips over one of the commands: no command before wants it, and comparing them reads too far. -/
def Trips (b : Buf) (cs : List Cmd) : Prop :=
  ∃ pre c post, cs = pre ++ c :: post ∧ (∀ x ∈ pre, ¬ Wants x b) ∧
    ∃ f e, c.frame = some f ∧ c.buf = some e ∧ Overread b e c.mask f.padding.toNat

theorem not_clear {b : Buf} {c : Cmd} :
    ¬ Clear b c ↔ ∃ f e, c.frame = some f ∧ c.buf = some e ∧ Overread b e c.mask f.padding.toNat := by
  unfold Clear
  constructor
  · intro h
    apply Classical.byContradiction
    intro hn
    exact h fun f e h1 h2 h3 => hn ⟨f, e, h1, h2, h3⟩
  · rintro ⟨f, e, h1, h2, h3⟩ h
    exact h f e h1 h2 h3

theorem trips_cons {b : Buf} {c : Cmd} {cs : List Cmd} : Trips b (c :: cs) ↔ ¬ Clear b c ∨ (¬ Wants c b ∧ Trips b cs) := by
  constructor
  · rintro ⟨pre, d, post, he, hw, ho⟩
    cases pre with
    | nil =>
      simp only [List.nil_append, List.cons.injEq] at he
      rw [he.1]
      exact .inl (not_clear.mpr ho)
    | cons x pre =>
      simp only [List.cons_append, List.cons.injEq] at he
      obtain ⟨rfl, he⟩ := he
      exact .inr ⟨hw _ (by simp), pre, d, post, he, fun y hy => hw y (by simp [hy]), ho⟩
  · rintro (h | ⟨h, pre, d, post, rfl, hw, ho⟩)
    · exact ⟨[], c, cs, rfl, by simp, not_clear.mp h⟩
    · refine ⟨c :: pre, d, post, rfl, ?_, ho⟩
      intro x hx
      rcases List.mem_cons.mp hx with rfl | hx
      · exact h
      · exact hw x hx

/-- Nothing is known about the received frames. -/
abbrev Nobody : Buf → Prop := fun _ => False

theorem cmdMatches_exact {b : Buf} {c : Cmd} (h : c.buf.isSome → c.frame.isSome) (hd : c.done = false) :
    (¬ Clear b c → cmdMatches b c = .ub .oobRead) ∧
    (Clear b c → ∃ r, cmdMatches b c = .ok r ∧ (r = true ↔ Wants c b)) := by
  unfold cmdMatches
  cases he : c.buf with
  | none =>
    refine ⟨fun hc => ?_, fun _ => ⟨false, rfl, ?_⟩⟩
    · obtain ⟨f, e, _, h2, _⟩ := not_clear.mp hc
      rw [he] at h2; cases h2
    · simp [Wants, he]
  | some e =>
    obtain ⟨f, hf⟩ := Option.isSome_iff_exists.1 (h (by rw [he]; rfl))
    simp only [hd, hf, Bool.false_eq_true, if_false]
    have hcl : Clear b c ↔ ¬ Overread b e c.mask f.padding.toNat := by
      unfold Clear
      constructor
      · intro hx; exact hx f e hf he
      · intro hx f' e' h1 h2
        rw [hf] at h1; rw [he] at h2
        cases h1; cases h2
        exact hx
    have hwt : Wants c b ↔ 0 ≤ f.padding ∧ MatchesPadded b e c.mask f.padding.toNat := by
      unfold Wants
      constructor
      · rintro ⟨e', f', h1, h2, h3⟩
        rw [he] at h1; rw [hf] at h2
        cases h1; cases h2
        exact h3
      · intro h3; exact ⟨e, f, he, hf, h3⟩
    rw [hcl, hwt]
    by_cases hp : f.padding < 0
    · have hz : f.padding.toNat = 0 := by omega
      refine ⟨fun hx => absurd (fun ho : Overread b e c.mask f.padding.toNat => by have := ho.1; omega) hx, fun _ => ⟨false, ?_, ?_⟩⟩
      · unfold bequalMask
        simp only [hp, if_true]
      · simp only [Bool.false_eq_true, false_iff]
        omega
    · have hb := bequalMask_exact b e c.mask f.padding.toNat
      rw [show ((f.padding.toNat : Nat) : Int) = f.padding by omega] at hb
      refine ⟨fun hx => hb.1 (Classical.not_not.mp hx), fun hx => ?_⟩
      obtain ⟨r, h1, h2⟩ := hb.2 hx
      exact ⟨r, h1, h2.trans ⟨fun h => ⟨by omega, h⟩, fun h => h.2⟩⟩

theorem matchCmds_exact {b : Buf} {cs : List Cmd} (h : ∀ c ∈ cs, Steady Nobody c ∧ c.done = false) :
    (Trips b cs → matchCmds b cs = .ub .oobRead) ∧
    (¬ Trips b cs → matchCmds b cs = .ok none ∨
      ∃ c cs', matchCmds b cs = .ok (some (c, cs')) ∧ c ∈ cs ∧ cs' ≠ [] ∧ ∀ x ∈ cs', Steady Nobody x) := by
  induction cs with
  | nil =>
    refine ⟨?_, fun _ => .inl rfl⟩
    rintro ⟨pre, c, post, he, _⟩
    simp at he
  | cons c cs ih =>
    obtain ⟨ih1, ih2⟩ := ih fun x hx => h x (by simp [hx])
    obtain ⟨hc, hd⟩ := h c (by simp)
    obtain ⟨m1, m2⟩ := cmdMatches_exact (b := b) hc.frame hd
    rw [trips_cons]
    unfold matchCmds
    by_cases hcl : Clear b c
    · obtain ⟨r, hr, hw⟩ := m2 hcl
      rw [hr, Out.ok_bind]
      cases r with
      | true =>
        refine ⟨?_, fun _ => .inr ⟨c, _, rfl, by simp, by simp, ?_⟩⟩
        · rintro (hx | ⟨hx, _⟩)
          · exact absurd hcl hx
          · exact absurd (hw.mp rfl) hx
        · intro x hx
          rcases List.mem_cons.1 hx with rfl | hx
          · exact ⟨hc.arg0, hc.frame, hc.tx, hc.clear⟩
          · exact (h x (by simp [hx])).1
      | false =>
        have hnw : ¬ Wants c b := fun hx => by simpa using hw.mpr hx
        constructor
        · rintro (hx | ⟨_, hx⟩)
          · exact absurd hcl hx
          · simp [ih1 hx, bind, Out.bind]
        · intro hn
          rcases ih2 fun hx => hn (.inr ⟨hnw, hx⟩) with e | ⟨m, cs', e, h1, _, h2⟩
          · left
            simp [e, Out.ok_bind]
          · right
            refine ⟨m, c :: cs', by simp [e, Out.ok_bind], by simp [h1], by simp, ?_⟩
            intro x hx
            rcases List.mem_cons.1 hx with rfl | hx
            · exact hc
            · exact h2 x hx
    · refine ⟨fun _ => by rw [m1 hcl]; rfl, fun hn => absurd (.inl hcl) hn⟩

/-- A socket on which a frame is received that trips. -/
def Tripped (cfg : Config) (s : Step) (i : Nat) (cs : List Cmd) : Prop :=
  cs.any (fun c => c.type == .rx) = true ∧ s.readable i = true ∧ ∃ m b, s.recv i = some m ∧ Arrives cfg m b ∧ Trips b cs

theorem rxResource_exact {cfg : Config} {s : Step} {i : Nat} {r : Resource} (hl : ∀ m, s.recv i = some m → 14 ≤ m.data.length)
    (hn : r.cmds ≠ []) (h : ∀ c ∈ r.cmds, Steady Nobody c ∧ c.done = false) :
    (Tripped cfg s i r.cmds → rxResource cfg s i r = .ub .oobRead) ∧
    (¬ Tripped cfg s i r.cmds → ∃ r' e, rxResource cfg s i r = .ok (r', e) ∧ SteadyRes Nobody r') := by
  have hst : SteadyRes Nobody r := ⟨hn, fun c hc => (h c hc).1⟩
  unfold rxResource hasRx
  by_cases hg : (r.cmds.any (fun c => c.type == .rx) && s.readable i) = true
  · rw [if_pos hg]
    rw [Bool.and_eq_true] at hg
    cases hm : s.recv i with
    | none =>
      refine ⟨?_, fun _ => ⟨_, _, rfl, hst⟩⟩
      rintro ⟨_, _, m, b, h1, _⟩
      rw [hm] at h1; cases h1
    | some m =>
      have hlen := hl m hm
      simp only
      unfold rxFrame
      simp only
      rw [if_neg (by rw [List.length_take]; unfold rxBufSize; omega)]
      obtain ⟨b, hb⟩ := restoreVlan_ends cfg m (by omega)
      have ht : Tripped cfg s i r.cmds ↔ Trips b r.cmds := by
        constructor
        · rintro ⟨_, _, m', b', h1, h2, h3⟩
          rw [hm] at h1
          cases h1
          unfold Arrives at hb h2
          rw [hb] at h2
          cases h2
          exact h3
        · intro hx; exact ⟨hg.1, hg.2, m, b, hm, hb, hx⟩
      rw [ht]
      unfold Arrives at hb
      rw [hb, Out.ok_bind]
      obtain ⟨e1, e2⟩ := matchCmds_exact (b := b) h
      refine ⟨fun hx => by rw [e1 hx]; rfl, fun hx => ?_⟩
      rcases e2 hx with e | ⟨c, cs', e, h1, h2, h3⟩
      · rw [e, Out.ok_bind]
        obtain ⟨a, ha⟩ := resArg0_ends hst
        simp only [ha, Out.ok_bind]
        exact ⟨_, _, rfl, hst⟩
      · rw [e, Out.ok_bind]
        obtain ⟨a, ha⟩ := Option.isSome_iff_exists.1 (h c h1).1.arg0
        simp only [ha]
        exact ⟨_, _, rfl, h2, h3⟩
  · rw [if_neg hg]
    refine ⟨?_, fun _ => ⟨_, _, rfl, hst⟩⟩
    rintro ⟨h1, h2, _⟩
    exact absurd (by rw [h1, h2]; rfl) hg

theorem rxAll_exact {cfg : Config} {s : Step} (hl : ∀ i m, s.recv i = some m → 14 ≤ m.data.length) (i : Nat) {rs : List Resource}
    (h : ∀ r ∈ rs, r.cmds ≠ [] ∧ ∀ c ∈ r.cmds, Steady Nobody c ∧ c.done = false) :
    ((∃ (k : Nat) (r : Resource), rs[k]? = some r ∧ Tripped cfg s (i + k) r.cmds) → rxAll cfg s i rs = .ub .oobRead) ∧
    (¬ (∃ (k : Nat) (r : Resource), rs[k]? = some r ∧ Tripped cfg s (i + k) r.cmds) →
      ∃ rs' es, rxAll cfg s i rs = .ok (rs', es) ∧ ∀ r ∈ rs', SteadyRes Nobody r) := by
  induction rs generalizing i with
  | nil => exact ⟨fun ⟨k, r, h, _⟩ => by simp at h, fun _ => ⟨_, _, rfl, by simp⟩⟩
  | cons r rs ih =>
    obtain ⟨ih1, ih2⟩ := ih (i + 1) fun x hx => h x (by simp [hx])
    obtain ⟨r1, r2⟩ := rxResource_exact (cfg := cfg) (hl i) (h r (by simp)).1 (h r (by simp)).2
    unfold rxAll
    by_cases ht : Tripped cfg s i r.cmds
    · exact ⟨fun _ => by rw [r1 ht]; rfl, fun hn => absurd ⟨0, r, rfl, ht⟩ hn⟩
    · obtain ⟨r', e, h1, h2⟩ := r2 ht
      rw [h1, Out.ok_bind]
      constructor
      · rintro ⟨k, x, hk, hx⟩
        cases k with
        | zero =>
          simp only [List.getElem?_cons_zero, Option.some.injEq] at hk
          subst hk
          exact absurd hx ht
        | succ k =>
          rw [List.getElem?_cons_succ] at hk
          simp only
          rw [ih1 ⟨k, x, hk, by rw [show i + 1 + k = i + (k + 1) by omega]; exact hx⟩]
          rfl
      · intro hn
        obtain ⟨rs', es, h3, h4⟩ := ih2 fun ⟨k, x, hk, hx⟩ =>
          hn ⟨k + 1, x, by rw [List.getElem?_cons_succ]; exact hk, by rw [show i + (k + 1) = i + 1 + k by omega]; exact hx⟩
        simp only [h3, Out.ok_bind]
        refine ⟨_, _, rfl, ?_⟩
        intro x hx
        rcases List.mem_cons.1 hx with rfl | hx
        · exact h2
        · exact h4 x hx

/-- In the answer `s` of the system a frame trips on one of the interfaces. -/
def TripsNow (cfg : Config) (s : Step) (cmds : List Cmd) : Prop :=
  ∃ (i : Nat) (a : CStr), (ifaces cmds)[i]? = some a ∧ Tripped cfg s i (onSocket a cmds)

/-- **C98**, exactly for the first answer of the system: if all interfaces can be opened and all names are defined, the tool
reads outside of a buffer if and only if one of the first frames trips. -/
theorem C98_reads_outside (w : World) (ms : Int) (caps argv : List CStr) (cmds : List Cmd) (s : Step) (hist : List Step)
    (hf : RealFrames w) (hp : parseCmds w.env.cfg.hasPcap argv = .ok (some cmds)) (hu : ∀ c ∈ cmds, unresolved cmds c = false)
    (ho : (ifaces cmds).all w.env.canOpen = true) (hh : w.env.hist = s :: hist) (hs : 0 < s.res)
    (ht : timerGt s.now (timerAdd w.env.begin (timeoutVal ms)) = false) :
    (TripsNow w.env.cfg s cmds → argcCmds w ms caps argv = .ub .oobRead) ∧
    (¬ TripsNow w.env.cfg s cmds → hist = [] → EndsWell (argcCmds w ms caps argv)) := by
  have hok := parseCmds_ok hp
  have hready := parseCmds_ready hp
  have hW := cmdOk_whole (K := Nobody) hok.2 (fun c _ b hb => hb.elim) hu
  have hR := hready.resolve cmds
  have hfil : cmds.filter (unresolved cmds) = [] := by
    rw [List.filter_eq_nil_iff]
    intro c hc
    rw [hu c hc]
    simp
  -- the commands up to the main loop
  have hpc : ∃ ep, pcapAll w.env.cfg (cmds.map (resolve cmds)) = .ok ep := by
    unfold pcapAll
    split
    · exact pcapEvents_ends fun c hc ht => ⟨(hW c hc).iface (.inr (.inr ht)), (hW c hc).given (by rw [ht]; decide)⟩
    · exact ⟨_, rfl⟩
  obtain ⟨ep, hpc⟩ := hpc
  obtain ⟨eh, hhex⟩ := hexEvents_ends fun c hc => (hW c hc).mask
  have hm := mapCmds_group [] (cmds.map (resolve cmds)) hR.iface (by simpa using hR.slots)
  rw [show group [] = [] from rfl] at hm
  simp only [List.nil_append] at hm
  have hop := openAll_eq w.env.canOpen (group_named (cmds.map (resolve cmds)))
  rw [ifaces_resolve, ho] at hop
  -- the first round
  have hgr : ∀ r ∈ group (cmds.map (resolve cmds)), r.cmds ≠ [] ∧ ∀ c ∈ r.cmds, Steady Nobody c ∧ c.done = false := by
    intro r hr'
    unfold group at hr'
    obtain ⟨a, ha, rfl⟩ := List.mem_map.1 hr'
    obtain ⟨c, hc, hca⟩ := (ifaces_mem _ a).1 ha
    refine ⟨List.ne_nil_of_mem (List.mem_filter.2 ⟨hc, by simp [hca]⟩), ?_⟩
    intro x hx
    simp only [cmdsOn, List.mem_filter, beq_iff_eq] at hx
    have hw := hW x hx.1
    exact ⟨⟨by rw [ioIface_arg0 hx.2]; rfl, hw.frame, fun ht => hw.given (by rw [ht]; decide), hw.clear⟩, hR.fresh x hx.1⟩
  have hget : ∀ (k : Nat) (r : Resource), (group (cmds.map (resolve cmds)))[k]? = some r ↔
      ∃ a, (ifaces cmds)[k]? = some a ∧ r = { cmds := onSocket a cmds } := by
    intro k r
    unfold group
    rw [List.getElem?_map, ifaces_resolve]
    cases (ifaces cmds)[k]? with
    | none => simp
    | some a =>
      simp only [Option.map_some, Option.some.injEq, exists_eq_left']
      exact eq_comm
  have hlen : ∀ i m, s.recv i = some m → 14 ≤ m.data.length := hf s (by rw [hh]; simp)
  obtain ⟨x1, x2⟩ := rxAll_exact (cfg := w.env.cfg) hlen 0 hgr
  have htn : (∃ (k : Nat) (r : Resource), (group (cmds.map (resolve cmds)))[k]? = some r ∧ Tripped w.env.cfg s (0 + k) r.cmds) ↔
      TripsNow w.env.cfg s cmds := by
    unfold TripsNow
    constructor
    · rintro ⟨k, r, h1, h2⟩
      obtain ⟨a, h3, rfl⟩ := (hget k r).mp h1
      rw [Nat.zero_add] at h2
      exact ⟨k, a, h3, h2⟩
    · rintro ⟨k, a, h1, h2⟩
      refine ⟨k, _, (hget k _).mpr ⟨a, h1, rfl⟩, ?_⟩
      rw [Nat.zero_add]
      exact h2
  rw [htn] at x1 x2
  unfold argcCmds
  rw [hp, Out.ok_bind]
  simp only
  unfold execCmds
  rw [pairNames_eq, hfil]
  simp only [List.filterMap_nil, ne_eq, not_true_eq_false, if_false]
  unfold execResolved
  simp only [hpc, hhex, hm, hop, Out.ok_bind, hh]
  constructor
  · intro htr
    have hio : wantsIo (group (cmds.map (resolve cmds))) = true := by
      obtain ⟨i, a, h1, h2⟩ := htr
      have := List.mem_of_getElem? ((hget i _).mpr ⟨a, h1, rfl⟩)
      unfold wantsIo
      rw [List.any_eq_true]
      exact ⟨_, this, by unfold hasRx; simp only; rw [h2.1]; rfl⟩
    unfold mainLoop process
    simp only [hio, not_true_eq_false, if_false, ht, Bool.false_eq_true, show ¬ s.res ≤ 0 by omega, x1 htr]
    rfl
  · rintro htr rfl
    obtain ⟨rs1, e1, h1, h2⟩ := x2 htr
    unfold mainLoop
    by_cases hio : wantsIo (group (cmds.map (resolve cmds))) = true
    · obtain ⟨fin, rs2, e2, h3, h4⟩ := txLoop_ends (w := writeSet s (group (cmds.map (resolve cmds)))) (send := s.send) w.env.fuel 0 h2
      have hpr : process w.env.cfg w.env.fuel s (group (cmds.map (resolve cmds))) = .ok (fin, rs2, e1 ++ e2) := by
        unfold process
        simp only [h1, Out.ok_bind, h3]
      simp only [hio, not_true_eq_false, if_false, ht, Bool.false_eq_true, show ¬ s.res ≤ 0 by omega, hpr, Out.ok_bind]
      cases fin with
      | true =>
        unfold mainLoop
        simp only [if_true]
        split <;> exact .inl ⟨_, rfl⟩
      | false => exact .inl ⟨_, rfl⟩
    · simp only [hio]
      exact .inl ⟨_, rfl⟩

/-! ## Examples -/

-- With a mask a frame of the padded size is refused if a compared bit differs; otherwise the comparison reads too far.
example : Overread [1#8, 2#8] [1#8] none 1 ∧ Overread [3#8, 2#8] [1#8] (some [1#8]) 1 ∧ ¬ Overread [3#8, 2#8] [1#8] (some [2#8]) 1 := by
  refine ⟨(C24_exactly _ _ _ _).1.mp (by decide), (C24_exactly _ _ _ _).1.mp (by decide), fun h => ?_⟩
  exact absurd ((C24_exactly _ _ _ _).1.mpr h) (by decide)

/-- An expectation with one byte of padding. -/
def expectPad (b : Buf) (m : Option Buf) : Cmd := { expect b m with frame := some { plainFrame with padding := 1 } }

-- The first byte is ignored: only a frame of the padded size whose second byte agrees trips; a command before may take it.
example : matchCmds [9#8, 1#8, 2#8] [expectPad [0#8, 1#8] (some [0#8])] = .ub .oobRead ∧
    (matchCmds [9#8, 3#8, 2#8] [expectPad [0#8, 1#8] (some [0#8])]).get?.isSome = true ∧
    (matchCmds [9#8, 1#8, 2#8] [expect [9#8, 1#8, 2#8] none, expectPad [0#8, 1#8] (some [0#8])]).get?.isSome = true := by
  refine ⟨(matchCmds_exact ?_).1 ⟨[], _, [], rfl, by simp, _, _, rfl, rfl, (C24_exactly _ _ _ _).1.mp (by decide)⟩, by decide, by decide⟩
  intro c hc
  simp only [List.mem_singleton] at hc
  subst hc
  exact ⟨⟨rfl, fun _ => rfl, fun _ => rfl, fun _ h => h.elim⟩, rfl⟩

end Ef.Props
