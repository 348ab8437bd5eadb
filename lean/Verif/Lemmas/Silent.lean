import Verif.Spec.Silent
import Verif.Lemmas.Messages
import Verif.Lemmas.MsgValues
import Verif.Lemmas.NoCrash
import Verif.Lemmas.ValueText

/-!
# Lemmas about words that are rejected without a message
-/

namespace Ef

open Spec Props

theorem uint32_cases (s : CStr) : (parseUint32 s = .ok none ∧ ¬ ∃ v, Value 4 s v) ∨ ((∃ n, parseUint32 s = .ok (some n)) ∧ ∃ v, Value 4 s v) := by
  obtain ⟨r, hr⟩ := parseUint32_ends s
  have hr' := hr
  unfold parseUint32 at hr'
  rw [Out.bind_eq_ok] at hr'
  obtain ⟨o, ho, hr'⟩ := hr'
  cases o with
  | none =>
    simp only [Out.ok.injEq] at hr'
    subst hr'
    refine Or.inl ⟨hr, ?_⟩
    rintro ⟨v, hv⟩
    rw [parseBytes_value hv] at ho
    simp at ho
  | some b =>
    refine Or.inr ⟨?_, b, (parseBytes_iff s 4 b).1 ho⟩
    simp only at hr'
    split at hr'
    · exact ⟨_, by rw [hr, ← Out.ok.inj hr']⟩
    · simp at hr'

theorem uint8_cases (s : CStr) : (parseUint8 s = .ok none ∧ ¬ ∃ v, Value 1 s v) ∨ ((∃ n, parseUint8 s = .ok (some n)) ∧ ∃ v, Value 1 s v) := by
  obtain ⟨r, hr⟩ := parseUint8_ends s
  have hr' := hr
  unfold parseUint8 at hr'
  rw [Out.bind_eq_ok] at hr'
  obtain ⟨o, ho, hr'⟩ := hr'
  cases o with
  | none =>
    simp only [Out.ok.injEq] at hr'
    subst hr'
    refine Or.inl ⟨hr, ?_⟩
    rintro ⟨v, hv⟩
    rw [parseBytes_value hv] at ho
    simp at ho
  | some b =>
    refine Or.inr ⟨?_, b, (parseBytes_iff s 1 b).1 ho⟩
    simp only at hr'
    split at hr'
    · exact ⟨_, by rw [hr, ← Out.ok.inj hr']⟩
    · simp at hr'

theorem msgs4_nil {s : CStr} (h : ¬ ∃ v, Value 4 s v) : parseBytesMsgs s 4 = [] ↔ ¬ AddressLike 4 s := by
  have := parseBytesMsgs_iff s 4
  have hn : parseBytes s 4 = .ok none := by
    obtain ⟨r, hr⟩ := parseBytes_ends (s := s) (n := 4) (Or.inl (by omega))
    cases r with
    | none => exact hr
    | some v => exact absurd ⟨v, (parseBytes_iff s 4 v).1 hr⟩ h
  have hl : ¬ LongLiteral 4 s := fun h => absurd h.1 (by decide)
  constructor
  · intro e ha
    exact this.2 ⟨hn, Or.inl ha⟩ e
  · intro ha
    refine Classical.byContradiction fun e => ?_
    rcases (this.1 e).2 with h | h
    · exact ha h
    · exact hl h

theorem msgs4_value {s : CStr} (h : ∃ v, Value 4 s v) : parseBytesMsgs s 4 = [] := by
  refine Classical.byContradiction fun e => ?_
  obtain ⟨v, hv⟩ := h
  have := ((parseBytesMsgs_iff s 4).1 e).1
  rw [parseBytes_value hv] at this
  simp at this

theorem msgs1_nil (s : CStr) : parseBytesMsgs s 1 = [] := by
  refine Classical.byContradiction fun e => ?_
  rcases ((parseBytesMsgs_iff s 1).1 e).2 with h | h
  · rcases h.2 with h | h | h <;> exact absurd h.1 (by decide)
  · exact absurd h.1 (by decide)

theorem hexMsgs_ne {s : CStr} {n : Nat} (h : parseVarBytesHex s n = .ok none) : hexMsgs s ≠ [] := by
  unfold parseVarBytesHex at h
  unfold hexMsgs
  simp only at h ⊢
  split at h
  · rw [if_pos ‹_›]; simp
  · rw [if_neg ‹_›]
    split at h
    · rw [if_pos ‹_›]; simp
    · rw [Out.bind_eq_ok] at h
      obtain ⟨b, _, h⟩ := h
      simp at h

/-- A segment that is rejected without a message. -/
theorem segment_mute {argv : List CStr} (h : parseVarBytes1 argv = .ok .err) (hm : varBytes1Msgs argv = []) : MuteSegment argv := by
  unfold parseVarBytes1 at h
  unfold varBytes1Msgs at hm
  cases argv with
  | nil => simp at h
  | cons w rest =>
    simp only at h hm
    split at h
    · rw [if_pos ‹_›] at hm; simp at hm
    rw [if_neg ‹_›] at hm
    split at h
    · rw [if_pos ‹_›] at hm
      cases rest with
      | nil => exact .missing1 (Or.inl ‹_›)
      | cons a ws =>
        simp only at h hm
        rw [Out.bind_eq_ok] at h
        obtain ⟨o, ho, h⟩ := h
        cases o with
        | some b => simp [Seg.ofOpt] at h
        | none => exact absurd hm (hexMsgs_ne ho)
    rw [if_neg ‹_›] at hm
    split at h
    · cases rest with
      | nil => exact .missing1 (Or.inr (Or.inl ‹_›))
      | cons a ws => simp at h
    split at h
    · cases rest with
      | nil => exact .missing1 (Or.inr (Or.inr ‹_›))
      | cons a ws => simp at h
    split at h
    · rename_i hw
      rw [if_pos hw] at hm
      match rest with
      | [] => exact .missing2 (Or.inl hw) (by simp)
      | [a] => exact .missing2 (Or.inl hw) (by simp)
      | cnt :: val :: ws =>
        subst hw
        simp only at h hm
        rcases uint32_cases cnt with ⟨e, hn⟩ | ⟨⟨n, e⟩, hv⟩
        · rw [e] at hm
          exact .count ⟨hn, (msgs4_nil hn).1 hm⟩
        · rcases uint8_cases val with ⟨e2, hn2⟩ | ⟨⟨v, e2⟩, hv2⟩
          · exact .value hv hn2
          · simp [parseVarBytesRepeat, e, e2, Out.ok_bind, Seg.ofOpt] at h
    rw [if_neg ‹_›] at hm
    split at h
    · rename_i hw
      rw [if_pos hw] at hm
      match rest with
      | [] => exact .missing2 (Or.inr hw) (by simp)
      | [a] => exact .missing2 (Or.inr hw) (by simp)
      | pat :: len :: ws =>
        subst hw
        simp only at h hm
        rcases uint32_cases len with ⟨e, hn⟩ | ⟨⟨n, e⟩, hv⟩
        · exact .length ⟨hn, (msgs4_nil hn).1 hm⟩
        · unfold parseVarBytesPattern at h
          rw [e] at h
          simp only [Out.ok_bind] at h
          refine .pattern hv ?_ ?_ ?_ <;> (rintro rfl; simp [Out.ok_bind, Seg.ofOpt] at h)
    · simp at h

theorem payload_mute {fuel : Nat} {argv : List CStr} {i : Nat} {acc : Option Buf} (h : parseVarBytesLoop fuel argv i acc = .ok none)
    (hm : varBytesMsgs fuel argv = []) : ∃ ws tail, argv = ws ++ tail ∧ MuteSegment tail := by
  induction fuel generalizing argv i acc with
  | zero => simp [parseVarBytesLoop] at h
  | succ fuel ih =>
    rw [parseVarBytesLoop] at h
    rw [varBytesMsgs] at hm
    split at h
    · simp at h
    · rw [if_neg ‹_›] at hm
      rw [Out.bind_eq_ok] at h
      obtain ⟨r, hr, h⟩ := h
      rw [hr] at hm
      cases r with
      | err => exact ⟨[], argv, rfl, segment_mute hr (List.append_eq_nil_iff.1 hm).1⟩
      | stop => simp at h
      | seg b used =>
        simp only at h hm
        obtain ⟨ws, tail, e, ht⟩ := ih h (List.append_eq_nil_iff.1 hm).2
        refine ⟨argv.take used ++ ws, tail, ?_, ht⟩
        rw [List.append_assoc, ← e, List.take_append_drop]

theorem parser_tmpls : ∀ t ∈ hdrTmpls, (t.parser = .payload → t.name = c!"data") ∧ (t.parser = .padding → t.name = c!"padding") := by
  decide +kernel

theorem frame_mute {cap fuel : Nat} {f : Frame} {i : Nat} {argv : List CStr}
    (hr : argcFrameLoop cap fuel f i argv = .ok none) (hm : frameMsgs fuel f argv = []) : ∃ ws tail, argv = ws ++ tail ∧ Mute tail := by
  induction fuel generalizing f i argv with
  | zero => simp [argcFrameLoop] at hr
  | succ fuel ih =>
    cases argv with
    | nil => simp [argcFrameLoop] at hr
    | cons w rest =>
      rw [argcFrameLoop.eq_def] at hr
      rw [frameMsgs.eq_def] at hm
      simp only at hr hm
      split at hr
      · rw [if_pos ‹_›] at hm; simp at hm
      · rw [if_neg ‹_›] at hm
        cases hf : findTmpl w with
        | none => rw [hf] at hr; simp at hr
        | some t =>
          rw [hf] at hr hm
          simp only at hr hm
          rw [Out.bind_eq_ok] at hr
          obtain ⟨f', h1, hr⟩ := hr
          rw [Out.bind_eq_ok] at hr
          obtain ⟨o, h2, hr⟩ := hr
          rw [h2] at hm
          have hmem := List.mem_of_find?_eq_some hf
          have hn : t.name = w := by simpa using List.find?_some hf
          obtain ⟨k1, k2⟩ := parser_tmpls t hmem
          cases o with
          | none =>
            have hm := (List.append_eq_nil_iff.1 hm).1
            unfold runHdrParser at h2
            unfold hdrMsgs at hm
            have hk : (hdrCopy t).parser = t.parser := rfl
            rw [hk] at h2 hm
            cases hp : t.parser with
            | fields =>
              rw [hp] at h2 hm
              simp only at h2 hm
              rw [Out.bind_eq_ok] at h2
              obtain ⟨o, h3, h2⟩ := h2
              cases o with
              | some p => simp at h2
              | none => exact absurd hm (fieldsMsgs_ne h3)
            | payload =>
              rw [hp] at h2 hm
              simp only at h2 hm
              rw [Out.bind_eq_ok] at h2
              obtain ⟨o, h3, h2⟩ := h2
              cases o with
              | some p => simp at h2
              | none =>
                unfold payloadParser at h3
                rw [Out.bind_eq_ok] at h3
                obtain ⟨o, h4, h3⟩ := h3
                cases o with
                | some p =>
                  obtain ⟨res, b⟩ := p
                  simp only at h3
                  split at h3
                  · simp at h3
                  · split at h3 <;> simp at h3
                | none =>
                  obtain ⟨ws, tail, e, ht⟩ := payload_mute h4 hm
                  refine ⟨[], w :: rest, rfl, ?_⟩
                  rw [← hn, k1 hp, e]
                  exact .data ht
            | padding =>
              rw [hp] at h2 hm
              simp only at h2 hm
              refine ⟨[], w :: rest, rfl, ?_⟩
              rw [← hn, k2 hp]
              cases rest with
              | nil => exact .missing
              | cons a ws =>
                simp only [paddingParser] at h2 hm
                rcases uint32_cases a with ⟨e, hv⟩ | ⟨⟨n, e⟩, hv⟩
                · exact .padding ⟨hv, (msgs4_nil hv).1 hm⟩
                · rw [e] at h2
                  simp [Out.ok_bind] at h2
          | some p =>
            obtain ⟨n, h, pad, m⟩ := p
            simp only at hr hm
            have hstack : ({ f' with stack := f.stack ++ [h], padding := pad, hasMask := m } : Frame) =
                { f with stack := f.stack ++ [h], padding := pad, hasMask := m } := by
              unfold pushHdr at h1
              split at h1
              · simp only [Out.ok.injEq] at h1
                subst h1
                rfl
              · simp at h1
            rw [hstack] at hr
            obtain ⟨ws, tail, e, ht⟩ := ih hr (List.append_eq_nil_iff.1 hm).2
            refine ⟨w :: (rest.take n ++ ws), tail, ?_, ht⟩
            rw [List.cons_append, List.append_assoc, ← e, List.take_append_drop]

theorem argcFrame_mute {argv : List CStr} (hr : argcFrame argv = .ok none) (hm : argcFrameMsgs argv = []) :
    ∃ ws tail, argv = ws ++ tail ∧ Mute tail := by
  unfold argcFrame at hr
  unfold argcFrameMsgs at hm
  split at hr
  · rw [if_pos ‹_›] at hm; simp at hm
  · rw [if_neg ‹_›] at hm
    exact frame_mute hr hm

theorem cmd_mute {hp : Bool} {argv : List CStr} (h : argcCmd hp argv = .ok .err) (hm : cmdMsgs hp argv = []) :
    ∃ ws tail, argv = ws ++ tail ∧ Mute tail := by
  have key : ∀ {c : Cmd} {i : Nat} {pre ws : List CStr}, argcCmdRest c i ws = .ok .err → cmdRestMsgs c.type ws = [] → argv = pre ++ ws →
      ∃ ws tail, argv = ws ++ tail ∧ Mute tail := by
    intro c i pre ws h hm e
    obtain ⟨h1, h2⟩ := argcCmdRest_err h
    rw [h2] at hm
    obtain ⟨ws', tail, e', ht⟩ := argcFrame_mute h1 hm
    exact ⟨pre ++ ws', tail, by rw [e, e', List.append_assoc], ht⟩
  unfold argcCmd at h
  unfold cmdMsgs at hm
  cases argv with
  | nil => simp at h
  | cons w rest =>
    simp only at h hm
    cases hw : cmdWord hp w with
    | help => rw [hw] at hm; simp at hm
    | other => rw [hw] at h; simp at h
    | cmd t =>
      rw [hw] at h hm
      simp only at h hm
      cases rest with
      | nil => simp at h
      | cons a rest' =>
        simp only at h hm
        cases t with
        | name => exact key (pre := [w, a]) h hm rfl
        | hex => exact key (pre := [w]) h hm rfl
        | pcap => exact key (pre := [w, a]) h hm rfl
        | rx => exact key (pre := [w, a]) h hm rfl
        | tx =>
          simp only at h hm
          cases rest' with
          | nil => simp at h
          | cons r rest2 =>
            simp only at h hm
            split at h
            · rw [if_pos ‹_›] at hm
              cases rest2 with
              | nil => simp at h
              | cons n rest3 => exact key (pre := [w, a, r, n]) h hm rfl
            · rw [if_neg ‹_›] at hm
              exact key (pre := [w, a]) h hm rfl

theorem cmds_mute {hp : Bool} {argc slots k : Nat} {argv : List CStr}
    (h : argcCmdsLoop hp slots argv = .ok none ∨ ∃ cs rest, argcCmdsLoop hp slots argv = .ok (some (cs, rest)) ∧ rest ≠ [])
    (hm : cmdsMsgs hp argc slots k argv = []) : ∃ ws tail, argv = ws ++ tail ∧ Mute tail := by
  induction slots generalizing k argv with
  | zero =>
    rw [cmdsMsgs] at hm
    simp only [argcCmdsLoop, Out.ok.injEq, Option.some.injEq, Prod.mk.injEq, reduceCtorEq, false_or] at h
    obtain ⟨cs, rest, ⟨_, rfl⟩, hne⟩ := h
    rw [if_neg hne] at hm
    simp at hm
  | succ slots ih =>
    rw [argcCmdsLoop] at h
    by_cases hne : argv = []
    · rw [if_pos hne] at h
      simp only [Out.ok.injEq, Option.some.injEq, Prod.mk.injEq, reduceCtorEq, false_or] at h
      obtain ⟨cs, rest, ⟨_, rfl⟩, hne'⟩ := h
      exact absurd hne hne'
    · rw [if_neg hne] at h
      have : ∃ r, argcCmd hp argv = .ok r := by
        rcases h with h | ⟨cs, rest, h, _⟩ <;> (rw [Out.bind_eq_ok] at h; obtain ⟨r, hr, _⟩ := h; exact ⟨r, hr⟩)
      obtain ⟨r, hr⟩ := this
      simp only [hr, Out.ok_bind] at h
      cases r with
      | err => rw [cmdsMsgs_err hne hr] at hm; exact cmd_mute hr hm
      | stop => rw [cmdsMsgs_stop hne hr] at hm; simp at hm
      | cmd c used =>
        rw [cmdsMsgs_cmd hne hr] at hm
        simp only at h
        obtain ⟨ws, tail, e, ht⟩ := ih (k := k + 1) (argv := argv.drop used) (by
          rcases h with h | ⟨cs, rest, h, hr⟩
          · rw [Out.bind_eq_ok] at h
            obtain ⟨o, ho, h⟩ := h
            cases o with
            | none => exact Or.inl ho
            | some p => simp at h
          · rw [Out.bind_eq_ok] at h
            obtain ⟨o, ho, h⟩ := h
            cases o with
            | none => simp at h
            | some p =>
              obtain ⟨cs', rest'⟩ := p
              simp only [Out.ok.injEq, Option.some.injEq, Prod.mk.injEq] at h
              obtain ⟨_, rfl⟩ := h
              exact Or.inr ⟨cs', rest', ho, hr⟩) (List.append_eq_nil_iff.1 hm).2
        exact ⟨argv.take used ++ ws, tail, by rw [List.append_assoc, ← e, List.take_append_drop], ht⟩

theorem parse_mute {hp : Bool} {argv : List CStr} (h : parseCmds hp argv = .ok none) (hm : parseMsgs hp argv = []) :
    ∃ ws tail, argv = ws ++ tail ∧ Mute tail := by
  unfold parseCmds at h
  rw [Out.bind_eq_ok] at h
  obtain ⟨o, ho, h⟩ := h
  refine cmds_mute (k := 0) ?_ hm
  cases o with
  | none => exact Or.inl ho
  | some p =>
    obtain ⟨cs, rest⟩ := p
    simp only at h
    split at h
    · simp at h
    · exact Or.inr ⟨cs, rest, ho, ‹_›⟩

/-! ## The other direction -/

theorem mute_segment {argv : List CStr} (h : MuteSegment argv) : parseVarBytes1 argv = .ok .err ∧ varBytes1Msgs argv = [] ∧ argv ≠ [] := by
  cases h with
  | missing1 hw => rcases hw with rfl | rfl | rfl <;> exact ⟨by decide, rfl, by simp⟩
  | missing2 hw hl =>
    rename_i w ws
    match ws, hl with
    | [], _ => rcases hw with rfl | rfl <;> exact ⟨by decide, rfl, by simp⟩
    | [a], _ => rcases hw with rfl | rfl <;> exact ⟨rfl, rfl, by simp⟩
  | count hc =>
    rename_i cnt val ws
    rcases uint32_cases cnt with ⟨e, hn⟩ | ⟨_, hv⟩
    · refine ⟨?_, ?_, by simp⟩
      · show (do Out.ok (Seg.ofOpt 3 (← parseVarBytesRepeat cnt val))) = _
        simp [parseVarBytesRepeat, e, Out.ok_bind, Seg.ofOpt]
      · show (match parseUint32 cnt with
          | .ok (some _) => parseBytesMsgs cnt 4 ++ parseBytesMsgs val 1
          | _ => parseBytesMsgs cnt 4) = []
        rw [e]
        exact (msgs4_nil hn).2 hc.2
    · exact absurd hv hc.1
  | value hc hn =>
    rename_i cnt val ws
    rcases uint32_cases cnt with ⟨_, hn⟩ | ⟨⟨n, e⟩, hv⟩
    · exact absurd hc hn
    · rcases uint8_cases val with ⟨e2, _⟩ | ⟨_, hv2⟩
      · refine ⟨?_, ?_, by simp⟩
        · show (do Out.ok (Seg.ofOpt 3 (← parseVarBytesRepeat cnt val))) = _
          simp [parseVarBytesRepeat, e, e2, Out.ok_bind, Seg.ofOpt]
        · show (match parseUint32 cnt with
            | .ok (some _) => parseBytesMsgs cnt 4 ++ parseBytesMsgs val 1
            | _ => parseBytesMsgs cnt 4) = []
          rw [e]
          simp only [msgs4_value hv, msgs1_nil, List.append_nil]
      · exact absurd hv2 hn
  | length hc =>
    rename_i pat len ws
    rcases uint32_cases len with ⟨e, hn⟩ | ⟨_, hv⟩
    · refine ⟨?_, ?_, by simp⟩
      · show (do Out.ok (Seg.ofOpt 3 (← parseVarBytesPattern pat len))) = _
        simp [parseVarBytesPattern, e, Out.ok_bind, Seg.ofOpt]
      · show parseBytesMsgs len 4 = []
        exact (msgs4_nil hn).2 hc.2
    · exact absurd hv hc.1
  | pattern hc h1 h2 h3 =>
    rename_i pat len ws
    rcases uint32_cases len with ⟨_, hn⟩ | ⟨⟨n, e⟩, hv⟩
    · exact absurd hc hn
    · refine ⟨?_, ?_, by simp⟩
      · show (do Out.ok (Seg.ofOpt 3 (← parseVarBytesPattern pat len))) = _
        simp [parseVarBytesPattern, e, Out.ok_bind, Seg.ofOpt, h1, h2, h3]
      · show parseBytesMsgs len 4 = []
        exact msgs4_value hv

end Ef
