import Verif.Lemmas.Events
import Verif.Lemmas.Compare
import Verif.Lemmas.ParseCmds
import Verif.Spec.Overread

/-!
# Lemmas: runs that do not crash
-/

namespace Ef

open Ef.Spec

attribute [local irreducible] txOne

/-- Comparing the frame with the frame of the command does not read behind it. -/
def Clear (b : Buf) (c : Cmd) : Prop :=
  ∀ f e, c.frame = some f → c.buf = some e → ¬ Overread b e c.mask f.padding.toNat

/-- The comparison, exactly: it reads behind the expected frame, or tells whether there is a match. -/
theorem bequalMask_exact (b e : Buf) (mask : Option Buf) (n : Nat) :
    (Overread b e mask n → bequalMask (some b) (some e) mask n = .ub .oobRead) ∧
    (¬ Overread b e mask n → ∃ r, bequalMask (some b) (some e) mask n = .ok r ∧ (r = true ↔ MatchesPadded b e mask n)) := by
  by_cases hn : n = 0
  · subst hn
    refine ⟨fun h => absurd h.1 (by omega), fun _ => ?_⟩
    obtain ⟨r, h1, h2⟩ := bequalMask_zero b e mask
    refine ⟨r, h1, h2.trans ?_⟩
    constructor
    · intro h; exact ⟨b, [], by simp, rfl, h⟩
    · rintro ⟨core, t, rfl, ht, h⟩
      have : t = [] := List.length_eq_zero_iff.mp ht
      subst this
      simpa using h
  · by_cases hl : b.length = e.length + n
    · have hs : b = b.take e.length ++ b.drop e.length := (List.take_append_drop ..).symm
      have hc : (b.take e.length).length = e.length := by rw [List.length_take]; omega
      have hm : MatchesPadded b e mask n ↔ ∀ i, compared mask i → bit (b.take e.length) i = bit e i := by
        constructor
        · rintro ⟨core, t, hb, ht, hlc, h⟩
          have : b.take e.length = core := by rw [hb, ← hlc]; simp
          rw [this]
          exact h
        · intro h
          exact ⟨_, _, hs, by rw [List.length_drop]; omega, hc, h⟩
      unfold bequalMask
      simp only
      rw [if_neg (by omega), if_neg (by omega)]
      cases mask with
      | none =>
        refine ⟨fun _ => ?_, fun h => absurd ⟨by omega, hl, .inl rfl⟩ h⟩
        simp only [memcmpEq]
        rw [if_neg (by omega)]
      | some m =>
        simp only
        rw [maskLoop_oob _ _ _ _ 0 (by omega) (by omega) (by omega)]
        have hag := agree_prefix_iff (b.take e.length) (b.drop e.length) e m hc
        rw [← hs] at hag
        refine ⟨fun h => ?_, fun h => ?_⟩
        · rw [if_neg]
          rw [hag]
          rcases h.2.2 with h | h
          · cases h
          · exact fun hx => hx (hm.mp h)
        · have hno : ¬ MatchesPadded b e (some m) n := fun hx => h ⟨by omega, hl, .inr hx⟩
          rw [if_pos (by rw [hag]; exact fun hx => hno (hm.mpr hx))]
          exact ⟨false, rfl, by simpa using hno⟩
    · refine ⟨fun h => absurd h.2.1 hl, fun _ => ⟨false, ?_, ?_⟩⟩
      · unfold bequalMask
        simp only
        rw [if_neg (by omega), if_pos (by omega)]
      · simp only [Bool.false_eq_true, false_iff]
        rintro ⟨core, t, rfl, ht, h, _⟩
        rw [List.length_append] at hl
        omega

/-- A command of a socket with all it needs, for received frames with `K`. -/
structure Steady (K : Buf → Prop) (c : Cmd) : Prop where
  arg0 : c.arg0.isSome
  frame : c.buf.isSome → c.frame.isSome
  tx : c.type = .tx → c.buf.isSome
  clear : ∀ b, K b → Clear b c

def SteadyRes (K : Buf → Prop) (r : Resource) : Prop := r.cmds ≠ [] ∧ ∀ c ∈ r.cmds, Steady K c

theorem cmdMatches_ends {K : Buf → Prop} {b : Buf} {c : Cmd} (h : Steady K c) (hb : K b) :
    ∃ r, cmdMatches b c = .ok r := by
  unfold cmdMatches
  cases he : c.buf with
  | none => exact ⟨_, rfl⟩
  | some e =>
    simp only
    split
    · exact ⟨_, rfl⟩
    · obtain ⟨f, hf⟩ := Option.isSome_iff_exists.1 (h.frame (by rw [he]; rfl))
      rw [hf]
      simp only
      by_cases hp : f.padding < 0
      · unfold bequalMask
        simp only [hp, if_true]
        exact ⟨_, rfl⟩
      · rw [show f.padding = (f.padding.toNat : Int) by omega]
        obtain ⟨r, hr, _⟩ := (bequalMask_exact b e c.mask _).2 (h.clear b hb f e hf he)
        exact ⟨r, hr⟩

theorem matchCmds_ends {K : Buf → Prop} {b : Buf} (hb : K b) {cs : List Cmd} (h : ∀ c ∈ cs, Steady K c) :
    matchCmds b cs = .ok none ∨ ∃ c cs', matchCmds b cs = .ok (some (c, cs')) ∧ c ∈ cs ∧ cs' ≠ [] ∧ ∀ x ∈ cs', Steady K x := by
  induction cs with
  | nil => exact .inl rfl
  | cons c cs ih =>
    obtain ⟨r, hr⟩ := cmdMatches_ends (h c (by simp)) hb
    unfold matchCmds
    rw [hr, Out.ok_bind]
    cases r with
    | true =>
      right
      refine ⟨c, _, rfl, by simp, by simp, ?_⟩
      intro x hx
      rcases List.mem_cons.1 hx with rfl | hx
      · have := h c (by simp)
        exact ⟨this.arg0, this.frame, this.tx, this.clear⟩
      · exact h x (by simp [hx])
    | false =>
      rcases ih fun x hx => h x (by simp [hx]) with e | ⟨m, cs', e, h1, _, h2⟩
      · left
        simp [e, Out.ok_bind]
      · right
        refine ⟨m, c :: cs', by simp [e, Out.ok_bind], by simp [h1], by simp, ?_⟩
        intro x hx
        rcases List.mem_cons.1 hx with rfl | hx
        · exact h _ (by simp)
        · exact h2 x hx

theorem resArg0_ends {K : Buf → Prop} {r : Resource} (h : SteadyRes K r) : ∃ a, resArg0 r = .ok a := by
  unfold resArg0
  obtain ⟨h1, h2⟩ := h
  cases hc : r.cmds with
  | nil => exact absurd hc h1
  | cons c cs =>
    obtain ⟨a, ha⟩ := Option.isSome_iff_exists.1 (h2 c (by rw [hc]; simp)).arg0
    simp [ha]

/-- What is compared with the commands. -/
def Arrives (cfg : Config) (m : RxMsg) (b : Buf) : Prop := restoreVlan cfg (m.data.take rxBufSize) m.aux = .ok b

theorem restoreVlan_ends (cfg : Config) (m : RxMsg) (h : 12 ≤ m.data.length) : ∃ b, Arrives cfg m b := by
  unfold Arrives restoreVlan
  split
  · exact ⟨_, rfl⟩
  · split
    · rw [if_neg (by rw [List.length_take]; unfold rxBufSize; omega)]
      exact ⟨_, rfl⟩
    · exact ⟨_, rfl⟩

theorem rxFrame_ends {K : Buf → Prop} {cfg : Config} {r : Resource} {m : RxMsg} (h : SteadyRes K r)
    (hl : 12 ≤ m.data.length) (hK : ∀ b, Arrives cfg m b → K b) :
    ∃ r' es, rxFrame cfg r m = .ok (r', es) ∧ SteadyRes K r' := by
  unfold rxFrame
  simp only
  split
  · exact ⟨_, _, rfl, h⟩
  · obtain ⟨b, hb⟩ := restoreVlan_ends cfg m hl
    have hk := hK b hb
    unfold Arrives at hb
    rw [hb, Out.ok_bind]
    rcases matchCmds_ends hk h.2 with e | ⟨c, cs', e, h1, h2, h3⟩
    · rw [e, Out.ok_bind]
      obtain ⟨a, ha⟩ := resArg0_ends h
      simp only [ha, Out.ok_bind]
      exact ⟨_, _, rfl, h⟩
    · rw [e, Out.ok_bind]
      obtain ⟨a, ha⟩ := Option.isSome_iff_exists.1 (h.2 c h1).arg0
      simp only [ha]
      exact ⟨_, _, rfl, h2, h3⟩

/-- An answer of the system whose frames are long enough and have `K`. -/
def Step.Fine (cfg : Config) (K : Buf → Prop) (s : Step) : Prop :=
  ∀ i m, s.recv i = some m → 12 ≤ m.data.length ∧ ∀ b, Arrives cfg m b → K b

theorem rxAll_ends {K : Buf → Prop} {cfg : Config} {s : Step} (hs : s.Fine cfg K) (i : Nat) {rs : List Resource}
    (h : ∀ r ∈ rs, SteadyRes K r) : ∃ rs' es, rxAll cfg s i rs = .ok (rs', es) ∧ ∀ r ∈ rs', SteadyRes K r := by
  induction rs generalizing i with
  | nil => exact ⟨_, _, rfl, by simp⟩
  | cons r rs ih =>
    have h1 : ∃ r' e, rxResource cfg s i r = .ok (r', e) ∧ SteadyRes K r' := by
      unfold rxResource
      split
      · split
        · exact ⟨_, _, rfl, h r (by simp)⟩
        · rename_i m hm
          exact rxFrame_ends (h r (by simp)) (hs i m hm).1 (hs i m hm).2
      · exact ⟨_, _, rfl, h r (by simp)⟩
    obtain ⟨r', e, h1, h2⟩ := h1
    obtain ⟨rs', es, h3, h4⟩ := ih (i + 1) fun x hx => h x (by simp [hx])
    unfold rxAll
    rw [h1, Out.ok_bind]
    simp only [h3, Out.ok_bind]
    refine ⟨_, _, rfl, ?_⟩
    intro x hx
    rcases List.mem_cons.1 hx with rfl | hx
    · exact h2
    · exact h4 x hx

theorem Steady.congr {K : Buf → Prop} {c c' : Cmd} (h : Steady K c) (h1 : c'.arg0 = c.arg0) (h2 : c'.frame = c.frame)
    (h3 : c'.buf = c.buf) (h4 : c'.type = c.type) (h5 : c'.mask = c.mask) : Steady K c' := by
  refine ⟨by rw [h1]; exact h.arg0, by rw [h2, h3]; exact h.frame, by rw [h3, h4]; exact h.tx, ?_⟩
  intro b hb
  unfold Clear
  rw [h2, h3, h5]
  exact h.clear b hb

theorem txFirst_ends {K : Buf → Prop} {res : Int} {cs : List Cmd} (h : ∀ c ∈ cs, Steady K c) :
    txFirst res cs = .ok none ∨
      ∃ cs' e m, txFirst res cs = .ok (some (cs', e, m)) ∧ cs' ≠ [] ∧ ∀ x ∈ cs', Steady K x := by
  induction cs with
  | nil => exact .inl rfl
  | cons c cs ih =>
    have hc := h c (by simp)
    unfold txFirst
    split
    · rename_i ht
      obtain ⟨b, hb⟩ := Option.isSome_iff_exists.1 (hc.tx ht.1)
      obtain ⟨a, ha⟩ := Option.isSome_iff_exists.1 hc.arg0
      right
      simp only [hb, ha]
      have hsame := txOne_static c b a res
      generalize txOne c b a res = q at hsame ⊢
      obtain ⟨c', e, more⟩ := q
      obtain ⟨e4, _, e1, e2, e3, e5⟩ := hsame
      refine ⟨_, _, _, rfl, by simp, ?_⟩
      intro x hx
      rcases List.mem_cons.1 hx with rfl | hx
      · exact hc.congr e1 e2 e3 e4 e5
      · exact h x (by simp [hx])
    · rcases ih fun x hx => h x (by simp [hx]) with e | ⟨cs', ev, m, e, _, h2⟩
      · left
        rw [e]
        rfl
      · right
        refine ⟨c :: cs', ev, m, by rw [e]; rfl, by simp, ?_⟩
        intro x hx
        rcases List.mem_cons.1 hx with rfl | hx
        · exact hc
        · exact h2 x hx

theorem txRound_ends {K : Buf → Prop} {w : Nat → Bool} {send : Nat → Int} (i k : Nat) {rs : List Resource}
    (h : ∀ r ∈ rs, SteadyRes K r) :
    ∃ rs' k' es more, txRound w send i k rs = .ok (rs', k', es, more) ∧ ∀ r ∈ rs', SteadyRes K r := by
  induction rs generalizing i k with
  | nil => exact ⟨_, _, _, _, rfl, by simp⟩
  | cons r rs ih =>
    have hr := h r (by simp)
    have ih' := fun i k => ih i k fun x hx => h x (by simp [hx])
    have keep : ∀ {r' : Resource} {rs' : List Resource}, SteadyRes K r' → (∀ x ∈ rs', SteadyRes K x) →
        ∀ x ∈ r' :: rs', SteadyRes K x := by
      intro r' rs' h1 h2 x hx
      rcases List.mem_cons.1 hx with rfl | hx
      · exact h1
      · exact h2 x hx
    unfold txRound
    split
    · rcases txFirst_ends (res := send k) hr.2 with e | ⟨cs', ev, m, e, h1, h2⟩
      · obtain ⟨rs', k', es, more, h3, h4⟩ := ih' (i + 1) k
        simp only [e, Out.ok_bind, h3]
        exact ⟨_, _, _, _, rfl, keep hr h4⟩
      · obtain ⟨rs', k', es, more, h3, h4⟩ := ih' (i + 1) (k + 1)
        simp only [e, Out.ok_bind, h3]
        exact ⟨_, _, _, _, rfl, keep ⟨h1, h2⟩ h4⟩
    · obtain ⟨rs', k', es, more, h3, h4⟩ := ih' (i + 1) k
      simp only [Out.ok_bind, h3]
      exact ⟨_, _, _, _, rfl, keep hr h4⟩

theorem txLoop_ends {K : Buf → Prop} {w : Nat → Bool} {send : Nat → Int} (fuel k : Nat) {rs : List Resource}
    (h : ∀ r ∈ rs, SteadyRes K r) :
    ∃ fin rs' es, txLoop w send fuel k rs = .ok (fin, rs', es) ∧ ∀ r ∈ rs', SteadyRes K r := by
  induction fuel generalizing k rs with
  | zero => exact ⟨_, _, _, rfl, h⟩
  | succ fuel ih =>
    obtain ⟨rs', k', es, more, h1, h2⟩ := txRound_ends (w := w) (send := send) 0 k h
    unfold txLoop
    simp only [h1, Out.ok_bind]
    split
    · obtain ⟨fin, rs'', es', h3, h4⟩ := ih k' h2
      simp only [h3, Out.ok_bind]
      exact ⟨_, _, _, rfl, h4⟩
    · exact ⟨_, _, _, rfl, h2⟩

theorem mainLoop_ends {K : Buf → Prop} {cfg : Config} {fuel : Nat} {tend : TimeVal} {hist : List Step}
    (hs : ∀ s ∈ hist, s.Fine cfg K) (left : TimeVal) {rs : List Resource} (h : ∀ r ∈ rs, SteadyRes K r) :
    ∃ r, mainLoop cfg fuel tend hist left rs = .ok r := by
  induction hist generalizing left rs with
  | nil => unfold mainLoop; split <;> exact ⟨_, rfl⟩
  | cons s hist ih =>
    unfold mainLoop
    split
    · exact ⟨_, rfl⟩
    · simp only
      split
      · exact ⟨_, rfl⟩
      · split
        · exact ⟨_, rfl⟩
        · obtain ⟨rs1, e1, h1, h2⟩ := rxAll_ends (hs s (by simp)) 0 h
          obtain ⟨fin, rs2, e2, h3, h4⟩ := txLoop_ends (w := writeSet s rs) (send := s.send) fuel 0 h2
          have hp : process cfg fuel s rs = .ok (fin, rs2, e1 ++ e2) := by
            unfold process
            simp only [h1, Out.ok_bind, h3]
          simp only [hp, Out.ok_bind]
          split
          · obtain ⟨⟨st, rs'', es⟩, h5⟩ := ih (fun x hx => hs x (by simp [hx])) (timerSub tend s.now) h4
            simp only [h5, Out.ok_bind]
            exact ⟨_, rfl⟩
          · exact ⟨_, rfl⟩

theorem pcapEvents_ends {cmds : List Cmd} (h : ∀ c ∈ cmds, c.type = .pcap → c.arg0.isSome ∧ c.buf.isSome) :
    ∃ es, pcapEvents cmds = .ok es := by
  induction cmds with
  | nil => exact ⟨_, rfl⟩
  | cons c cs ih =>
    obtain ⟨es, he⟩ := ih fun x hx => h x (by simp [hx])
    unfold pcapEvents
    split
    · rename_i ht
      obtain ⟨h1, h2⟩ := h c (by simp) ht
      obtain ⟨a, ha⟩ := Option.isSome_iff_exists.1 h1
      obtain ⟨b, hb⟩ := Option.isSome_iff_exists.1 h2
      simp only [ha, hb, he, Out.ok_bind]
      exact ⟨_, rfl⟩
    · exact ⟨_, he⟩

theorem hexEvents_ends {cmds : List Cmd} (h : ∀ c ∈ cmds, ∀ b m, c.buf = some b → c.mask = some m → b.length ≤ m.length) :
    ∃ es, hexEvents cmds = .ok es := by
  induction cmds with
  | nil => exact ⟨_, rfl⟩
  | cons c cs ih =>
    obtain ⟨es, he⟩ := ih fun x hx => h x (by simp [hx])
    unfold hexEvents
    split
    · split
      · exact ⟨_, he⟩
      · rename_i b hb
        split
        · simp only [he, Out.ok_bind]
          exact ⟨_, rfl⟩
        · rename_i m hm
          rw [if_pos (h c (by simp) b m hb hm)]
          simp only [he, Out.ok_bind]
          exact ⟨_, rfl⟩
    · exact ⟨_, he⟩

/-- A command after the names have been resolved. -/
structure Whole (K : Buf → Prop) (c : Cmd) : Prop where
  iface : c.type = .rx ∨ c.type = .tx ∨ c.type = .pcap → c.arg0.isSome
  frame : c.buf.isSome → c.frame.isSome
  given : c.type ≠ .rx → c.buf.isSome
  mask : ∀ b m, c.buf = some b → c.mask = some m → b.length ≤ m.length
  clear : ∀ b, K b → Clear b c

theorem execResolved_ends {K : Buf → Prop} {env : Env} {cmds : List Cmd} (hr : Ready cmds) (h : ∀ c ∈ cmds, Whole K c)
    (hs : ∀ s ∈ env.hist, s.Fine env.cfg K) : ∃ r, execResolved env cmds = .ok r := by
  unfold execResolved
  have hp : ∃ ep, pcapAll env.cfg cmds = .ok ep := by
    unfold pcapAll
    split
    · exact pcapEvents_ends fun c hc ht => ⟨(h c hc).iface (.inr (.inr ht)), (h c hc).given (by rw [ht]; decide)⟩
    · exact ⟨_, rfl⟩
  obtain ⟨ep, hp⟩ := hp
  obtain ⟨eh, hh⟩ := hexEvents_ends fun c hc => (h c hc).mask
  have hm := mapCmds_group [] cmds hr.iface (by simpa using hr.slots)
  rw [show group [] = [] from rfl] at hm
  simp only [List.nil_append] at hm
  simp only [hp, hh, hm, Out.ok_bind, openAll_eq env.canOpen (group_named cmds)]
  split
  · exact ⟨_, rfl⟩
  · have hg : ∀ r ∈ group cmds, SteadyRes K r := by
      intro r hr'
      unfold group at hr'
      obtain ⟨a, ha, rfl⟩ := List.mem_map.1 hr'
      obtain ⟨c, hc, hca⟩ := (ifaces_mem cmds a).1 ha
      refine ⟨List.ne_nil_of_mem (List.mem_filter.2 ⟨hc, by simp [hca]⟩), ?_⟩
      intro x hx
      simp only [cmdsOn, List.mem_filter, beq_iff_eq] at hx
      have hw := h x hx.1
      refine ⟨by rw [ioIface_arg0 hx.2]; rfl, hw.frame, fun ht => hw.given (by rw [ht]; decide), hw.clear⟩
    obtain ⟨⟨st, rs', el⟩, hl⟩ := mainLoop_ends (fuel := env.fuel) (tend := timerAdd env.begin (timeoutVal env.timeoutMs)) hs
      (timeoutVal env.timeoutMs) hg
    simp only [hl, Out.ok_bind]
    cases st <;> exact ⟨_, rfl⟩

theorem execCmds_ends {K : Buf → Prop} {env : Env} {cmds : List Cmd} (hr : Ready cmds)
    (h : (∀ c ∈ cmds, unresolved cmds c = false) → ∀ c ∈ cmds.map (resolve cmds), Whole K c)
    (hs : ∀ s ∈ env.hist, s.Fine env.cfg K) : ∃ r, execCmds env cmds = .ok r := by
  unfold execCmds
  rw [pairNames_eq]
  simp only
  split
  · exact ⟨_, rfl⟩
  · rename_i hne
    have hu : ∀ c ∈ cmds, unresolved cmds c = false := by
      intro c hc
      cases hx : unresolved cmds c with
      | false => rfl
      | true =>
        simp only [ne_eq, Classical.not_not] at hne
        rw [List.filterMap_eq_nil_iff] at hne
        have := hne c (List.mem_filter.2 ⟨hc, hx⟩)
        rw [Option.map_eq_none_iff] at this
        unfold unresolved at hx
        rw [this] at hx
        simp at hx
    obtain ⟨r, hx⟩ := execResolved_ends (hr.resolve cmds) (h hu) hs
    simp only [hx, Out.ok_bind]
    exact ⟨_, rfl⟩

end Ef
