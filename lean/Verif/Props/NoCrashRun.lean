import Verif.Lemmas.RunEnds
import Verif.Props.NoCrash
import Verif.Props.Serialise
import Verif.Props.Commands
import Verif.Props.Loopback

/-!
# No traffic crashes the tool (C98)
-/

namespace Ef.Props

open Ef Ef.Spec

/-- Every frame the system delivers has at least an Ethernet header. -/
def RealFrames (w : World) : Prop := ∀ s ∈ w.env.hist, ∀ i m, s.recv i = some m → 14 ≤ m.data.length

/-- **C98, full statement**: a command line that is parsed normally is executed normally, whatever the system does and
whatever frames are received. -/
def C98_statement : Prop :=
  ∀ (w : World) (ms : Int) (caps argv : List CStr), RealFrames w → EndsWell (parseCmds w.env.cfg.hasPcap argv) →
    EndsWell (argcCmds w ms caps argv)

/-- The frames which are compared with the expectations. -/
def Received (w : World) (b : Buf) : Prop := ∃ s ∈ w.env.hist, ∃ i m, s.recv i = some m ∧ Arrives w.env.cfg m b

theorem cmdOk_whole {K : Buf → Prop} {cmds : List Cmd} (h : ∀ c ∈ cmds, CmdOk c)
    (hK : ∀ c ∈ cmds, ∀ b, K b → Clear b c) (hu : ∀ c ∈ cmds, unresolved cmds c = false) :
    ∀ c ∈ cmds.map (resolve cmds), Whole K c := by
  have hmask : ∀ c ∈ cmds, ∀ b m, c.buf = some b → c.mask = some m → b.length ≤ m.length := by
    intro c hc b m hb hm
    obtain ⟨f, hf, _, hmf⟩ := (h c hc).mask m hm
    obtain ⟨f0, hf0⟩ := (h c hc).frame f b hf hb
    have := C19_mask_length f0 f b m hf0 hmf
    omega
  intro c hc
  obtain ⟨c0, hc0, rfl⟩ := List.mem_map.1 hc
  have ho := h c0 hc0
  cases hr : refersTo c0 with
  | none =>
    have e : resolve cmds c0 = c0 := by unfold resolve; rw [hr]
    rw [e]
    refine ⟨ho.iface, fun hb => by rw [ho.built]; exact hb, ?_, hmask c0 hc0, hK c0 hc0⟩
    intro ht
    rcases ho.given ht with hg | ⟨h1, h2⟩
    · exact hg
    · unfold refersTo at hr
      cases hb : c0.buf with
      | some b => rfl
      | none =>
        rw [if_pos ⟨h1, hb⟩] at hr
        rw [hr] at h2
        simp at h2
  | some n =>
    have hun := hu c0 hc0
    unfold unresolved at hun
    rw [hr] at hun
    simp only [Bool.not_eq_false', List.any_eq_true] at hun
    cases hf : cmds.find? (defines n) with
    | none =>
      obtain ⟨d, hd, hdn⟩ := hun
      rw [List.find?_eq_none] at hf
      exact absurd hdn (by simpa using hf d hd)
    | some d =>
      have hd := List.mem_of_find?_eq_some hf
      have hdn := List.find?_some hf
      unfold defines at hdn
      simp only [Bool.and_eq_true, beq_iff_eq] at hdn
      have e : resolve cmds c0 = { c0 with frame := d.frame, buf := d.buf, mask := d.mask } := by
        unfold resolve; rw [hr]; simp only [hf]
      rw [e]
      exact ⟨ho.iface, fun hb => by rw [(h d hd).built]; exact hb, fun _ => hdn.1.2, hmask d hd, hK d hd⟩

/-- **C98, partial**: this holds if no received frame leads to a read behind an expected (or transmitted) frame when it is
compared with it; that is, it does not have the size of that frame with its `padding`, or some bit that is compared differs.
Missing: the other frames (false, see `C98_false` and `C98_reads_outside`). -/
theorem C98_no_crash_partial (w : World) (ms : Int) (caps argv : List CStr) (hf : RealFrames w)
    (hp : EndsWell (parseCmds w.env.cfg.hasPcap argv))
    (hpad : ∀ cmds, parseCmds w.env.cfg.hasPcap argv = .ok (some cmds) → ∀ c ∈ cmds, ∀ f e, c.frame = some f →
      c.buf = some e → ∀ b, Received w b → ¬ Overread b e c.mask f.padding.toNat) :
    EndsWell (argcCmds w ms caps argv) := by
  unfold argcCmds
  refine ends_bind hp fun o ho => ?_
  cases o with
  | none => exact .inl ⟨_, rfl⟩
  | some cmds =>
    simp only
    have hok := parseCmds_ok ho
    obtain ⟨r, hr⟩ := execCmds_ends (K := Received w) (env := { w.env with timeoutMs := ms }) (parseCmds_ready ho)
      (cmdOk_whole hok.2 fun c hc b hb f e h1 h2 => hpad cmds ho c hc f e h1 h2 b hb) (by
        intro s hs i m hm
        exact ⟨by have := hf s hs i m hm; omega, fun b hb => ⟨s, hs, i, m, hm, hb⟩⟩)
    rw [hr, Out.ok_bind]
    exact .inl ⟨_, rfl⟩

/-! ## Without the word `padding` -/

theorem runHdrParser_padding {t h : Hdr} (ht : t ∈ hdrTmpls) {pad pad' : Int} {m m' : Bool} {argv : List CStr} {n : Nat}
    (h0 : t.name ≠ c!"padding") (hr : runHdrParser t pad m argv = .ok (some (n, h, pad', m'))) : pad' = pad := by
  have kinds : ∀ t ∈ hdrTmpls, t.name ≠ c!"padding" → t.parser ≠ .padding := by decide +kernel
  have hk := kinds t ht h0
  unfold runHdrParser at hr
  split at hr
  · simp only [Out.bind_eq_ok] at hr
    obtain ⟨o, _, hr⟩ := hr
    cases o with
    | none => simp at hr
    | some x => simp only [Out.ok.injEq, Option.some.injEq, Prod.mk.injEq] at hr; exact hr.2.2.1.symm
  · simp only [Out.bind_eq_ok] at hr
    obtain ⟨o, _, hr⟩ := hr
    cases o with
    | none => simp at hr
    | some x => simp only [Out.ok.injEq, Option.some.injEq, Prod.mk.injEq] at hr; exact hr.2.2.1.symm
  · rename_i hpar
    exact absurd hpar hk

theorem argcFrameLoop_padding (cap fuel : Nat) : ∀ (f : Frame) (i : Nat) (argv : List CStr) (n : Nat) (f' : Frame),
    c!"padding" ∉ argv → argcFrameLoop cap fuel f i argv = .ok (some (n, f')) → f'.padding = f.padding := by
  induction fuel with
  | zero =>
    intro f i argv n f' _ hr
    simp only [argcFrameLoop, Out.ok.injEq, Option.some.injEq, Prod.mk.injEq] at hr
    rw [hr.2]
  | succ fuel ih =>
    intro f i argv n f' hW hr
    unfold argcFrameLoop at hr
    split at hr
    · simp only [Out.ok.injEq, Option.some.injEq, Prod.mk.injEq] at hr
      rw [hr.2]
    · rename_i w rest
      split at hr
      · simp at hr
      · cases e : findTmpl w with
        | none =>
          rw [e] at hr
          simp only [Out.ok.injEq, Option.some.injEq, Prod.mk.injEq] at hr
          rw [hr.2]
        | some t =>
          have ht : t ∈ hdrTmpls := List.mem_of_find?_eq_some e
          have htw : t.name = w := by simpa using List.find?_some e
          rw [e] at hr
          simp only at hr
          rw [Out.bind_eq_ok] at hr
          obtain ⟨fp, _, hr⟩ := hr
          rw [Out.bind_eq_ok, hdrCopy_eq] at hr
          obtain ⟨r, hr1, hr⟩ := hr
          cases r with
          | none => simp at hr
          | some x =>
            obtain ⟨k, h, pad, m⟩ := x
            simp only at hr
            have hp : pad = f.padding := runHdrParser_padding ht (by
              rw [htw]
              rintro rfl
              exact hW (by simp)) hr1
            have := ih _ _ _ _ _ (fun hx => hW (List.mem_cons_of_mem _ (List.mem_of_mem_drop hx))) hr
            rw [this]
            exact hp

theorem argcFrame_padding {argv : List CStr} {n : Nat} {f : Frame} (hp : c!"padding" ∉ argv)
    (h : argcFrame argv = .ok (some (n, f))) : f.padding = 0 := by
  unfold argcFrame at h
  split at h
  · simp at h
  · exact argcFrameLoop_padding _ _ _ _ _ _ _ hp h

theorem parseCmds_padding {hp : Bool} {argv : List CStr} {cmds : List Cmd} (hw : c!"padding" ∉ argv)
    (h : parseCmds hp argv = .ok (some cmds)) : ∀ c ∈ cmds, ∀ f, c.frame = some f → f.padding = 0 := by
  obtain ⟨l, h1, h2, h3, h4⟩ := parseCmds_conv h
  have fw : ∀ {ws f b m}, FrameWords ws f b m → c!"padding" ∉ ws → f.padding = 0 := by
    rintro ws f b m ⟨_, f0, g1, g2, _⟩ hn
    rw [(frameToBuf_stack g2).2.1]
    exact argcFrame_padding hn g1
  intro c hc f hf
  rw [h2] at hc
  obtain ⟨p, hp', rfl⟩ := List.mem_map.1 hc
  have hsub : ∀ x ∈ p.1, x ∈ argv := by
    intro x hx
    rw [h1]
    exact List.mem_flatMap.2 ⟨p, hp', hx⟩
  have hcm := h4 p hp'
  obtain ⟨ws, c⟩ := p
  cases hcm with
  | define n hfw =>
    simp only [Option.some.injEq] at hf
    subst hf
    exact fw hfw fun hx => hw (hsub _ (by simp [hx]))
  | frame hh hfw =>
    simp only [Option.some.injEq] at hf
    subst hf
    exact fw hfw fun hx => hw (hsub _ (by simp [hx]))
  | ref n hh => cases hh <;> simp at hf
  | listen ifc => simp at hf

/-- **C98** with C50: for words without the situations of `C50_crashes` and without `padding` the whole tool ends normally,
whatever the options are, whatever the system does and whatever frames are received. -/
theorem C98_tool (w : World) (argv : List CStr) (hf : RealFrames w) (hs : Safe (getopt w.posix argv).2)
    (hp : c!"padding" ∉ (getopt w.posix argv).2) : EndsWell (main_ w argv) := by
  have hrun : ∀ ms caps, EndsWell (argcCmds w ms caps (getopt w.posix argv).2) := fun ms caps =>
    C98_no_crash_partial w ms caps _ hf (C50_no_crash_partial _ _ hs) (by
      intro cmds hc c hc' f e h1 _ b _ h3
      rw [parseCmds_padding hp hc c hc' f h1] at h3
      exact absurd h3.1 (by decide))
  have loop : ∀ (os : List Opt) ms caps, EndsWell (mainLoopOpts w (getopt w.posix argv).2 os ms caps) := by
    intro os
    induction os with
    | nil =>
      intro ms caps
      unfold mainLoopOpts
      exact ends_bind (hrun ms caps) fun r _ => .inl ⟨_, rfl⟩
    | cons o os ih =>
      intro ms caps
      cases o <;> unfold mainLoopOpts <;> first | exact .inl ⟨_, rfl⟩ | exact ih _ _
  unfold main_
  exact loop _ _ _

/-! ## Examples -/

/-- A world in which a frame `b` arrives everywhere, without an error and before the time is over. -/
def worldFrame (b : Buf) : World :=
  { quiet with env := { quiet.env with hist := [⟨1, ⟨0, 0⟩, fun _ => true, fun _ => true, fun _ => some ⟨b, none⟩, fun _ => b.length⟩] } }

theorem worldFrame_real {b : Buf} (h : 14 ≤ b.length) : RealFrames (worldFrame b) := by
  intro s hs i m hm
  simp only [worldFrame, List.mem_singleton] at hs
  subst hs
  simp only [Option.some.injEq] at hm
  subst hm
  exact h

theorem ends_of_crash {α : Type} {o : Out α} (h : crash o = none) : EndsWell o := by
  cases o with
  | ok a => exact .inl ⟨a, rfl⟩
  | exit c => exact .inr ⟨c, rfl⟩
  | ub u => simp [crash] at h
  | abort => simp [crash] at h

/-- The frame `eth` followed by four bytes. -/
def trailed : Buf := List.replicate 6 255#8 ++ zeros 5 ++ [1#8, 0xaa#8, 0xaa#8] ++ zeros 46 ++ [1#8, 2#8, 3#8, 4#8]

/-- **C98 does not hold**: `rx a eth padding 4` reads outside the expected frame when the frame it waits for arrives. -/
theorem C98_false : ¬ C98_statement := by
  intro h
  have hp : EndsWell (parseCmds true [c!"rx", c!"a", c!"eth", c!"padding", c!"4"]) := ends_of_crash (by decide +kernel)
  have hc : crash (argcCmds (worldFrame trailed) 100 [] [c!"rx", c!"a", c!"eth", c!"padding", c!"4"]) = some (some .oobRead) := by
    decide +kernel
  exact crash_ends hc (h (worldFrame trailed) 100 [] _ (worldFrame_real (by decide +kernel)) hp)

/-- Non-vacuity: a cable on which a bit is changed (the exit status is then 2, see the examples of C90), and words without `padding`. -/
example : RealFrames (cable (ethBytes.set 20 4#8)) ∧ c!"padding" ∉ saneWords := by
  refine ⟨?_, by decide +kernel⟩
  intro s hs i m hm
  simp only [cable, List.mem_cons, List.not_mem_nil, or_false] at hs
  rcases hs with rfl | rfl | rfl
  · simp at hm
  · simp only [Option.some.injEq] at hm
    subst hm
    decide +kernel
  · simp at hm

end Ef.Props
