import Verif.Lemmas.ExecAll

/-!
# What parsing establishes about the commands
-/

namespace Ef

open Spec

/-- Facts about every command that comes from the command line. -/
structure CmdOk (c : Cmd) : Prop where
  fresh : c.done = false
  iface : c.type = .rx ∨ c.type = .tx ∨ c.type = .pcap → c.arg0.isSome
  built : c.frame.isSome = c.buf.isSome
  given : c.type ≠ .rx → c.buf.isSome ∨ (c.type ≠ .name ∧ c.name.isSome)
  named : c.type = .name → c.name.isSome
  rep : c.rep < 2 ^ 32
  frame : ∀ f b, c.frame = some f → c.buf = some b → ∃ f0, frameToBuf f0 = .ok (f, b)
  mask : ∀ m, c.mask = some m → ∃ f, c.frame = some f ∧ f.hasMask = true ∧ frameMaskToBuf f = .ok m

/-- A command before its frame is parsed. -/
structure CmdBase (c : Cmd) : Prop where
  fresh : c.done = false
  iface : c.type = .rx ∨ c.type = .tx ∨ c.type = .pcap → c.arg0.isSome
  noFrame : c.frame = none
  noBuf : c.buf = none
  noMask : c.mask = none
  named : c.type = .name → c.name.isSome
  rep : c.rep < 2 ^ 32

theorem argcCmdFrame_ok {c i argv c' n} (hb : CmdBase c) (h : argcCmdFrame c i argv = .ok (.cmd c' n)) : CmdOk c' := by
  unfold argcCmdFrame at h
  rw [Out.bind_eq_ok] at h
  obtain ⟨o, _, h⟩ := h
  cases o with
  | none => simp at h
  | some p =>
    obtain ⟨k, f⟩ := p
    simp only at h
    split at h
    · split at h
      · rename_i ht
        simp only [Out.ok.injEq, CmdRes.cmd.injEq] at h
        obtain ⟨rfl, _⟩ := h
        refine ⟨hb.fresh, hb.iface, by rw [hb.noFrame, hb.noBuf]; rfl, fun h => absurd ht h, hb.named, hb.rep, ?_, ?_⟩
        · intro f b hf; rw [hb.noFrame] at hf; simp at hf
        · intro m hm; rw [hb.noMask] at hm; simp at hm
      · simp at h
    · rw [Out.bind_eq_ok] at h
      obtain ⟨⟨f', b⟩, hfb, h⟩ := h
      simp only at h
      split at h
      · rename_i hm
        rw [Out.bind_eq_ok] at h
        obtain ⟨m, hmb, h⟩ := h
        simp only [Out.ok.injEq, CmdRes.cmd.injEq] at h
        obtain ⟨rfl, _⟩ := h
        refine ⟨hb.fresh, hb.iface, rfl, fun _ => Or.inl rfl, hb.named, hb.rep, ?_, ?_⟩
        · intro f2 b2 h1 h2
          simp only [Option.some.injEq] at h1 h2
          subst h1; subst h2
          exact ⟨f, hfb⟩
        · intro m2 h1
          simp only [Option.some.injEq] at h1
          subst h1
          exact ⟨f', rfl, hm, hmb⟩
      · simp only [Out.ok.injEq, CmdRes.cmd.injEq] at h
        obtain ⟨rfl, _⟩ := h
        refine ⟨hb.fresh, hb.iface, rfl, fun _ => Or.inl rfl, hb.named, hb.rep, ?_, ?_⟩
        · intro f2 b2 h1 h2
          simp only [Option.some.injEq] at h1 h2
          subst h1; subst h2
          exact ⟨f, hfb⟩
        · intro m2 h1
          simp only [hb.noMask] at h1
          simp at h1

theorem argcCmdRest_ok {c i argv c' n} (hb : CmdBase c) (h : argcCmdRest c i argv = .ok (.cmd c' n)) : CmdOk c' := by
  unfold argcCmdRest at h
  split at h
  · rename_i w nm rest
    split at h
    · rename_i hw
      simp only [Out.ok.injEq, CmdRes.cmd.injEq] at h
      obtain ⟨rfl, _⟩ := h
      refine ⟨hb.fresh, hb.iface, by simp only; rw [hb.noFrame, hb.noBuf]; rfl, fun _ => Or.inr ⟨hw.2, rfl⟩,
        fun h => absurd h hw.2, hb.rep, ?_, ?_⟩
      · intro f b hf; rw [hb.noFrame] at hf; simp at hf
      · intro m hm; rw [hb.noMask] at hm; simp at hm
    · exact argcCmdFrame_ok hb h
  · exact argcCmdFrame_ok hb h

theorem u32_lt (z : Int) : (z % 2 ^ 32).toNat < 2 ^ 32 := by
  have : z % 2 ^ 32 < 2 ^ 32 := Int.emod_lt_of_pos z (by decide)
  have : 0 ≤ z % 2 ^ 32 := Int.emod_nonneg z (by decide)
  omega

theorem argcCmd_ok {hp argv c n} (h : argcCmd hp argv = .ok (.cmd c n)) : CmdOk c := by
  unfold argcCmd at h
  split at h
  · simp at h
  · split at h
    · simp at h
    · simp at h
    · rename_i t _
      split at h
      · simp at h
      · rename_i a rest'
        cases t with
        | name => exact argcCmdRest_ok ⟨rfl, by simp, rfl, rfl, rfl, fun _ => rfl, by simp⟩ h
        | hex => exact argcCmdRest_ok ⟨rfl, by simp, rfl, rfl, rfl, by simp, by simp⟩ h
        | pcap => exact argcCmdRest_ok ⟨rfl, by simp, rfl, rfl, rfl, by simp, by simp⟩ h
        | rx => exact argcCmdRest_ok ⟨rfl, by simp, rfl, rfl, rfl, by simp, by simp⟩ h
        | tx =>
          simp only at h
          split at h
          · simp at h
          · split at h
            · split at h
              · simp at h
              · refine argcCmdRest_ok ⟨rfl, by simp, rfl, rfl, rfl, by simp, ?_⟩ h
                simp only
                exact u32_lt _
            · exact argcCmdRest_ok ⟨rfl, by simp, rfl, rfl, rfl, by simp, by simp⟩ h

theorem argcCmdsLoop_ok {hp slots argv cs rest} (h : argcCmdsLoop hp slots argv = .ok (some (cs, rest))) :
    cs.length ≤ slots ∧ ∀ c ∈ cs, CmdOk c := by
  induction slots generalizing argv cs rest with
  | zero =>
    simp only [argcCmdsLoop, Out.ok.injEq, Option.some.injEq, Prod.mk.injEq] at h
    obtain ⟨rfl, _⟩ := h
    simp
  | succ slots ih =>
    rw [argcCmdsLoop] at h
    split at h
    · simp only [Out.ok.injEq, Option.some.injEq, Prod.mk.injEq] at h
      obtain ⟨rfl, _⟩ := h
      simp
    · rw [Out.bind_eq_ok] at h
      obtain ⟨r, hr, h⟩ := h
      cases r with
      | err => simp at h
      | stop =>
        simp only [Out.ok.injEq, Option.some.injEq, Prod.mk.injEq] at h
        obtain ⟨rfl, _⟩ := h
        simp
      | cmd c used =>
        simp only [Out.bind_eq_ok] at h
        obtain ⟨o, ho, h⟩ := h
        cases o with
        | none => simp at h
        | some p =>
          obtain ⟨cs', rest'⟩ := p
          simp only [Out.ok.injEq, Option.some.injEq, Prod.mk.injEq] at h
          obtain ⟨rfl, _⟩ := h
          obtain ⟨h1, h2⟩ := ih ho
          refine ⟨by simp; omega, ?_⟩
          intro x hx
          simp only [List.mem_cons] at hx
          rcases hx with rfl | hx
          · exact argcCmd_ok hr
          · exact h2 x hx

/-- The commands of an accepted command line. -/
theorem parseCmds_ok {hp argv cmds} (h : parseCmds hp argv = .ok (some cmds)) :
    cmds.length ≤ 100 ∧ ∀ c ∈ cmds, CmdOk c := by
  unfold parseCmds at h
  rw [Out.bind_eq_ok] at h
  obtain ⟨o, ho, h⟩ := h
  cases o with
  | none => simp at h
  | some p =>
    obtain ⟨cs, rest⟩ := p
    simp only at h
    split at h
    · simp only [Out.ok.injEq, Option.some.injEq] at h
      subst h
      exact argcCmdsLoop_ok ho
    · simp at h

/-- Parsed commands meet the requirements of the theorems about runs. -/
theorem parseCmds_ready {hp argv cmds} (h : parseCmds hp argv = .ok (some cmds)) : Ready cmds := by
  obtain ⟨hl, hc⟩ := parseCmds_ok h
  refine ⟨fun c hcm => (hc c hcm).fresh, fun c hcm ht => (hc c hcm).iface ?_, ?_⟩
  · rcases ht with ht | ht
    · exact Or.inl ht
    · exact Or.inr (Or.inl ht)
  · have h1 := firsts_length (cmds.filterMap ioIface)
    have h2 := List.length_filterMap_le ioIface cmds
    unfold ifaces
    omega

end Ef
