import Verif.Lemmas.Commands
import Verif.Model.Messages

/-!
# Lemmas about the printed messages
-/

namespace Ef

open Spec Props

/-- The words before a frame. -/
def LeadWords (hp : Bool) (hd : List CStr) : Prop := (∃ c, Head hp hd c) ∨ ∃ n, hd = [c!"name", n]

theorem cmdRestMsgs_frame {t : CmdType} {ws : List CStr} (hw : ∀ w, ws.head? = some w → w ≠ c!"name") :
    cmdRestMsgs t ws = argcFrameMsgs ws := by
  unfold cmdRestMsgs
  split
  · rename_i w x tl
    rw [if_neg (fun h => hw w rfl h.1)]
  · rfl

theorem argcCmdRest_frame {c : Cmd} {i : Nat} {ws : List CStr} (hw : ∀ w, ws.head? = some w → w ≠ c!"name") :
    argcCmdRest c i ws = argcCmdFrame c i ws := by
  unfold argcCmdRest
  split
  · rename_i w x tl
    rw [if_neg (fun h => hw w rfl h.1)]
  · rfl

/-- Words with which a frame can begin, as far as the command before it is concerned. -/
def FrameStart (ws : List CStr) : Prop := ws ≠ [] ∧ ∀ w, ws.head? = some w → w ≠ c!"rep" ∧ w ≠ c!"repeat" ∧ w ≠ c!"name"

theorem cmdMsgs_lead {hp : Bool} {hd ws : List CStr} (h : LeadWords hp hd) (hs : FrameStart ws) :
    cmdMsgs hp (hd ++ ws) = argcFrameMsgs ws := by
  obtain ⟨hne, hs⟩ := hs
  have hn : ∀ w, ws.head? = some w → w ≠ c!"name" := fun w hw => (hs w hw).2.2
  rcases h with ⟨c, h⟩ | ⟨n, rfl⟩
  · cases ws with
    | nil => exact absurd rfl hne
    | cons w tl =>
      cases h with
      | hex => cases hp <;> exact cmdRestMsgs_frame hn
      | pcap file e => subst e; exact cmdRestMsgs_frame hn
      | rx ifc => cases hp <;> exact cmdRestMsgs_frame hn
      | tx ifc =>
        obtain ⟨h1, h2, _⟩ := hs w rfl
        have e : cmdMsgs hp ([c!"tx", ifc] ++ w :: tl) = cmdRestMsgs .tx (w :: tl) := by
          cases hp <;> exact if_neg (by simp [h1, h2])
        rw [e]
        exact cmdRestMsgs_frame hn
      | txRep ifc x k hx =>
        have : cmdMsgs hp ([c!"tx", ifc, x, k] ++ w :: tl) = (if x = c!"rep" ∨ x = c!"repeat" then
              cmdRestMsgs .tx (w :: tl) else cmdRestMsgs .tx (x :: k :: w :: tl)) := by
          cases hp <;> rfl
        rw [this, if_pos hx]
        exact cmdRestMsgs_frame hn
  · cases hp <;> exact cmdRestMsgs_frame hn

theorem argcCmd_lead {hp : Bool} {hd ws : List CStr} (h : LeadWords hp hd) (hs : FrameStart ws) :
    ∃ c, argcCmd hp (hd ++ ws) = argcCmdFrame c hd.length ws := by
  obtain ⟨hne, hs⟩ := hs
  have hn : ∀ w, ws.head? = some w → w ≠ c!"name" := fun w hw => (hs w hw).2.2
  rcases h with ⟨c, h⟩ | ⟨n, rfl⟩
  · exact ⟨c, by rw [argcCmd_head h hne (fun w hw => ⟨(hs w hw).1, (hs w hw).2.1⟩)]; exact argcCmdRest_frame hn⟩
  · refine ⟨{ type := .name, name := some n }, ?_⟩
    rw [← argcCmdRest_frame hn]
    cases hp <;> rfl

theorem cmdsMsgs_err {hp : Bool} {argc slots k : Nat} {argv : List CStr} (hne : argv ≠ []) (h : argcCmd hp argv = .ok .err) :
    cmdsMsgs hp argc (slots + 1) k argv = cmdMsgs hp argv := by
  rw [cmdsMsgs, if_neg hne, h]
  simp

theorem cmdsMsgs_stop {hp : Bool} {argc slots k : Nat} {argv : List CStr} (hne : argv ≠ []) (h : argcCmd hp argv = .ok .stop) :
    cmdsMsgs hp argc (slots + 1) k argv = cmdMsgs hp argv ++ [.parseError (argc - argv.length) argc k] := by
  rw [cmdsMsgs, if_neg hne, h]

theorem cmdsMsgs_cmd {hp : Bool} {argc slots k used : Nat} {argv : List CStr} {c : Cmd} (hne : argv ≠ [])
    (h : argcCmd hp argv = .ok (.cmd c used)) :
    cmdsMsgs hp argc (slots + 1) k argv = cmdMsgs hp argv ++ cmdsMsgs hp argc slots (k + 1) (argv.drop used) := by
  rw [cmdsMsgs, if_neg hne, h]

/-- A frame that is not accepted, in a line without other commands. -/
theorem parseMsgs_rejected {hp : Bool} {hd ws : List CStr} (h : LeadWords hp hd) (hs : FrameStart ws)
    (hr : argcFrame ws = .ok none) : parseCmds hp (hd ++ ws) = .ok none ∧ parseMsgs hp (hd ++ ws) = argcFrameMsgs ws := by
  have hne : hd ++ ws ≠ [] := by simp [hs.1]
  obtain ⟨c, hc⟩ := argcCmd_lead h hs
  have he : argcCmd hp (hd ++ ws) = .ok .err := by
    rw [hc]
    unfold argcCmdFrame
    rw [hr]
    rfl
  constructor
  · unfold parseCmds
    rw [show (100 : Nat) = 99 + 1 from rfl, argcCmdsLoop, if_neg hne, he]
    rfl
  · unfold parseMsgs
    rw [show (100 : Nat) = 99 + 1 from rfl, cmdsMsgs_err hne he, cmdMsgs_lead h hs]

/-! ## Rejected command lines -/

theorem fieldsMsgs_ne {t : HelpText} {fuel : Nat} {h : Hdr} {m : Bool} {i : Nat} {argv : List CStr}
    (hr : parseFieldsLoop fuel h m i argv = .ok none) : fieldsMsgs t fuel h i argv ≠ [] := by
  induction fuel generalizing h m i argv with
  | zero => simp [parseFieldsLoop] at hr
  | succ fuel ih =>
    cases argv with
    | nil => simp [parseFieldsLoop] at hr
    | cons w rest =>
      rw [parseFieldsLoop.eq_def] at hr
      rw [fieldsMsgs.eq_def]
      simp only at hr ⊢
      split at hr
      · rw [if_pos ‹_›]; simp
      · rw [if_neg ‹_›]
        split at hr
        · rw [if_pos ‹_›]; exact ih hr
        · rw [if_neg ‹_›]
          cases hf : findField h w with
          | none => rw [hf] at hr; simp at hr
          | some f =>
            rw [hf] at hr
            simp only at hr ⊢
            cases rest with
            | nil => simp
            | cons v rest' =>
              simp only at hr ⊢
              split at hr
              · rw [if_pos ‹_›]; exact ih hr
              · rw [if_neg ‹_›]
                split at hr
                · rw [if_pos ‹_›]; simp
                · rw [if_neg ‹_›]
                  split at hr
                  · rw [if_pos ‹_›]
                    rw [Out.bind_eq_ok] at hr
                    obtain ⟨⟨h2, cnt⟩, h3, hr⟩ := hr
                    simp only at hr
                    rw [h3]
                    simp only
                    split at hr
                    · rw [if_pos ‹_›]
                      intro e
                      exact ih hr (List.append_eq_nil_iff.1 e).2
                    · rw [if_neg ‹_›]; simp
                  · rw [if_neg ‹_›]
                    rw [Out.bind_eq_ok] at hr
                    obtain ⟨⟨h2, b⟩, h3, hr⟩ := hr
                    simp only at hr
                    rw [h3]
                    intro e
                    exact ih hr (List.append_eq_nil_iff.1 e).2

theorem special_tmpls : ∀ t ∈ hdrTmpls, t.parser ≠ .fields → t.name = c!"data" ∨ t.name = c!"padding" := by decide +kernel

theorem frameMsgs_ne {cap fuel : Nat} {f : Frame} {i : Nat} {argv : List CStr}
    (hr : argcFrameLoop cap fuel f i argv = .ok none) (hd : c!"data" ∉ argv) (hp : c!"padding" ∉ argv) :
    frameMsgs fuel f argv ≠ [] := by
  induction fuel generalizing f i argv with
  | zero => simp [argcFrameLoop] at hr
  | succ fuel ih =>
    cases argv with
    | nil => simp [argcFrameLoop] at hr
    | cons w rest =>
      rw [argcFrameLoop.eq_def] at hr
      rw [frameMsgs.eq_def]
      simp only at hr ⊢
      split at hr
      · rw [if_pos ‹_›]; simp
      · rw [if_neg ‹_›]
        cases hf : findTmpl w with
        | none => rw [hf] at hr; simp at hr
        | some t =>
          rw [hf] at hr
          simp only at hr ⊢
          rw [Out.bind_eq_ok] at hr
          obtain ⟨f', h1, hr⟩ := hr
          rw [Out.bind_eq_ok] at hr
          obtain ⟨o, h2, hr⟩ := hr
          rw [h2]
          cases o with
          | none =>
            have hk : (hdrCopy t).parser = .fields := by
              have hm := List.mem_of_find?_eq_some hf
              have hn : t.name = w := by simpa using List.find?_some hf
              refine Classical.byContradiction fun hk => ?_
              rcases special_tmpls t hm hk with e | e <;> rw [hn] at e <;> subst e
              · exact hd (by simp)
              · exact hp (by simp)
            unfold runHdrParser at h2
            unfold hdrMsgs
            rw [hk] at h2 ⊢
            simp only at h2 ⊢
            rw [Out.bind_eq_ok] at h2
            obtain ⟨o, h3, h2⟩ := h2
            cases o with
            | some p => simp at h2
            | none =>
              unfold parseFields at h3
              intro e
              exact fieldsMsgs_ne h3 (List.append_eq_nil_iff.1 e).1
          | some p =>
            obtain ⟨n, h, pad, m⟩ := p
            simp only at hr ⊢
            intro e
            have hstack : ({ f' with stack := f.stack ++ [h], padding := pad, hasMask := m } : Frame) =
                { f with stack := f.stack ++ [h], padding := pad, hasMask := m } := by
              unfold pushHdr at h1
              split at h1
              · simp only [Out.ok.injEq] at h1
                subst h1
                rfl
              · simp at h1
            rw [hstack] at hr
            refine ih hr ?_ ?_ (List.append_eq_nil_iff.1 e).2
            · intro hm; exact hd (List.mem_cons_of_mem _ (List.mem_of_mem_drop hm))
            · intro hm; exact hp (List.mem_cons_of_mem _ (List.mem_of_mem_drop hm))

theorem argcFrameMsgs_ne {argv : List CStr} (hr : argcFrame argv = .ok none) (hd : c!"data" ∉ argv) (hp : c!"padding" ∉ argv) :
    argcFrameMsgs argv ≠ [] := by
  unfold argcFrame at hr
  unfold argcFrameMsgs
  split at hr
  · rw [if_pos ‹_›]; simp
  · rw [if_neg ‹_›]
    exact frameMsgs_ne hr hd hp

theorem argcCmdFrame_err {c : Cmd} {i : Nat} {argv : List CStr} (h : argcCmdFrame c i argv = .ok .err) : argcFrame argv = .ok none := by
  unfold argcCmdFrame at h
  rw [Out.bind_eq_ok] at h
  obtain ⟨o, ho, h⟩ := h
  cases o with
  | none => exact ho
  | some p =>
    obtain ⟨n, f⟩ := p
    simp only at h
    split at h
    · split at h <;> simp at h
    · rw [Out.bind_eq_ok] at h
      obtain ⟨⟨f', b⟩, h1, h⟩ := h
      simp only at h
      split at h
      · rw [Out.bind_eq_ok] at h
        obtain ⟨m, h1, h⟩ := h
        simp at h
      · simp at h

theorem argcCmdRest_err {c : Cmd} {i : Nat} {argv : List CStr} (h : argcCmdRest c i argv = .ok .err) :
    argcFrame argv = .ok none ∧ cmdRestMsgs c.type argv = argcFrameMsgs argv := by
  unfold argcCmdRest at h
  unfold cmdRestMsgs
  split at h
  · simp only
    split at h
    · simp at h
    · rw [if_neg ‹_›]; exact ⟨argcCmdFrame_err h, rfl⟩
  · refine ⟨argcCmdFrame_err h, ?_⟩
    rename_i hne
    split
    · exact absurd rfl (hne _ _ _)
    · rfl

theorem cmdMsgs_ne {hp : Bool} {argv : List CStr} (h : argcCmd hp argv = .ok .err) (hd : c!"data" ∉ argv) (hpad : c!"padding" ∉ argv) :
    cmdMsgs hp argv ≠ [] := by
  have key : ∀ {c : Cmd} {i : Nat} {ws : List CStr}, argcCmdRest c i ws = .ok .err → ws ⊆ argv → cmdRestMsgs c.type ws ≠ [] := by
    intro c i ws h hs
    obtain ⟨h1, h2⟩ := argcCmdRest_err h
    rw [h2]
    exact argcFrameMsgs_ne h1 (fun hm => hd (hs hm)) (fun hm => hpad (hs hm))
  unfold argcCmd at h
  unfold cmdMsgs
  cases argv with
  | nil => simp at h
  | cons w rest =>
    simp only at h ⊢
    cases hw : cmdWord hp w with
    | help => simp
    | other => rw [hw] at h; simp at h
    | cmd t =>
      rw [hw] at h
      simp only at h ⊢
      cases rest with
      | nil => simp at h
      | cons a rest' =>
        simp only at h ⊢
        cases t with
        | name => exact key h (by intro x; simp +contextual)
        | hex => exact key h (by intro x; simp +contextual)
        | pcap => exact key h (by intro x; simp +contextual)
        | rx => exact key h (by intro x; simp +contextual)
        | tx =>
          simp only at h ⊢
          cases rest' with
          | nil => simp at h
          | cons r rest2 =>
            simp only at h ⊢
            split at h
            · rw [if_pos ‹_›]
              cases rest2 with
              | nil => simp at h
              | cons n rest3 => exact key h (by intro x; simp +contextual)
            · rw [if_neg ‹_›]
              exact key h (by intro x; simp +contextual)

theorem cmdsMsgs_ne {hp : Bool} {argc slots k : Nat} {argv : List CStr}
    (h : argcCmdsLoop hp slots argv = .ok none ∨ ∃ cs rest, argcCmdsLoop hp slots argv = .ok (some (cs, rest)) ∧ rest ≠ [])
    (hd : c!"data" ∉ argv) (hpad : c!"padding" ∉ argv) : cmdsMsgs hp argc slots k argv ≠ [] := by
  induction slots generalizing k argv with
  | zero =>
    rw [cmdsMsgs]
    simp only [argcCmdsLoop, Out.ok.injEq, Option.some.injEq, Prod.mk.injEq, reduceCtorEq, false_or] at h
    obtain ⟨cs, rest, ⟨_, rfl⟩, hne⟩ := h
    rw [if_neg hne]
    simp
  | succ slots ih =>
    rw [argcCmdsLoop] at h
    by_cases hne : argv = []
    · rw [if_pos hne] at h
      simp only [Out.ok.injEq, Option.some.injEq, Prod.mk.injEq, reduceCtorEq, false_or] at h
      obtain ⟨cs, rest, ⟨_, rfl⟩, hne'⟩ := h
      exact absurd hne hne'
    · rw [if_neg hne] at h
      have : ∃ r, argcCmd hp argv = .ok r := by
        rcases h with h | ⟨cs, rest, h, _⟩ <;> (rw [Out.bind_eq_ok] at h; obtain ⟨r, hr, _⟩ := h; exact ⟨r, hr⟩)
      obtain ⟨r, hr⟩ := this
      simp only [hr, Out.ok_bind] at h
      cases r with
      | err => rw [cmdsMsgs_err hne hr]; exact cmdMsgs_ne hr hd hpad
      | stop => rw [cmdsMsgs_stop hne hr]; simp
      | cmd c used =>
        rw [cmdsMsgs_cmd hne hr]
        simp only at h
        intro e
        refine ih ?_ (fun hm => hd (List.mem_of_mem_drop hm)) (fun hm => hpad (List.mem_of_mem_drop hm)) (List.append_eq_nil_iff.1 e).2
        rcases h with h | ⟨cs, rest, h, hr⟩
        · rw [Out.bind_eq_ok] at h
          obtain ⟨o, ho, h⟩ := h
          cases o with
          | none => exact Or.inl ho
          | some p => simp at h
        · rw [Out.bind_eq_ok] at h
          obtain ⟨o, ho, h⟩ := h
          cases o with
          | none => simp at h
          | some p =>
            obtain ⟨cs', rest'⟩ := p
            simp only [Out.ok.injEq, Option.some.injEq, Prod.mk.injEq] at h
            obtain ⟨_, rfl⟩ := h
            exact Or.inr ⟨cs', rest', ho, hr⟩

theorem parseMsgs_ne {hp : Bool} {argv : List CStr} (h : parseCmds hp argv = .ok none) (hd : c!"data" ∉ argv)
    (hpad : c!"padding" ∉ argv) : parseMsgs hp argv ≠ [] := by
  unfold parseCmds at h
  rw [Out.bind_eq_ok] at h
  obtain ⟨o, ho, h⟩ := h
  refine cmdsMsgs_ne ?_ hd hpad
  cases o with
  | none => exact Or.inl ho
  | some p =>
    obtain ⟨cs, rest⟩ := p
    simp only at h
    split at h
    · simp at h
    · exact Or.inr ⟨cs, rest, ho, ‹_›⟩

end Ef
