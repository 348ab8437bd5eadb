import Verif.Model.UdpMemory
import Verif.Props.FillMemory

/-!
# UDP and TCP checksums when memory runs out (C138)
-/

namespace Ef.Props

open Ef Ef.Spec

/-- The full claim: without memory the length and the checksum are each the usual ones or left out. False. -/
def C138_statement : Prop :=
  ∀ (below above : List Hdr) (h h' : Hdr) (as as' : List Bool), fillUdpTcpA below h above as = .ok (h', as') →
    ∃ h1, ComputedOrLeft (fillUdpLen h above) h h1 as ∧ ComputedOrLeft (fillUdpChksum below h1 above) h1 h' as

theorem udpLen_fills (h h' : Hdr) (above : List Hdr) (as as' : List Bool) (hh : fillUdpLenA h above as = .ok (h', as')) :
    ComputedOrLeft (fillUdpLen h above) h h' as := by
  unfold fillUdpLenA at hh
  unfold ComputedOrLeft fillUdpLen
  cases hf : findField h c!"len" with
  | none => rw [hf] at hh; cases hh; exact Or.inl rfl
  | some f =>
    rw [hf] at hh
    simp only at hh ⊢
    cases hv : f.val.isSome with
    | true => rw [hv] at hh; cases hh; exact Or.inl rfl
    | false =>
      rw [hv] at hh
      simp only [Bool.false_eq_true, if_false] at hh ⊢
      exact ((fills_value c!"len" _ 2 (by omega) h f hf hv as).1 h' as' hh).2

/-- **C138** (partial): nothing but length and checksum changes. The length is computed as usual or left out, the latter only if a request is
refused. A checksum that was given stays. -/
theorem C138_only_partial (below above : List Hdr) (h h' : Hdr) (as as' : List Bool) (hh : fillUdpTcpA below h above as = .ok (h', as')) :
    ∃ h1 f, ComputedOrLeft (fillUdpLen h above) h h1 as ∧ findField h1 c!"chksum" = some f ∧
      (h' = h1 ∨ (f.val = none ∧ ∃ v, h' = setVal h1 c!"chksum" v)) := by
  obtain ⟨⟨h1, a1⟩, e1, hh⟩ := Out.bind_eq_ok.mp hh
  obtain ⟨f, e2, hh⟩ := Out.bind_eq_ok.mp hh
  have hf : findField h1 c!"chksum" = some f := by
    unfold getField at e2
    simp only at e2
    split at e2
    · cases e2; assumption
    · cases e2
  refine ⟨h1, f, udpLen_fills h h1 above as a1 e1, hf, ?_⟩
  split at hh
  · cases hh; exact Or.inl rfl
  · rename_i hv
    have hv' : f.val = none := by cases h : f.val <;> simp_all
    split at hh
    · cases hh; exact Or.inl rfl
    · split at hh
      · cases hh; exact Or.inl rfl
      · split at hh
        · cases hh
        · obtain ⟨v, -, hh⟩ := Out.bind_eq_ok.mp hh
          cases hh
          exact Or.inr ⟨hv', v.1, rfl⟩

theorem parseBytesA_nil (s : CStr) (n : Nat) : parseBytesA s n [] = (parseBytes s n >>= fun v => .ok (v, [])) := by
  have h1 : ∀ o : Out (Option Buf), checkedA o [] = (o >>= fun v => .ok (v, [])) := by
    intro o
    unfold checkedA
    congr 1
    funext v
    cases v <;> rfl
  have h2 : ∀ o : Out (Option Buf), uncheckedA o [] = (o >>= fun v => .ok (v, [])) := by
    intro o
    unfold uncheckedA
    cases o with
    | ok v => cases v <;> rfl
    | _ => rfl
  unfold parseBytesA
  rw [h1, h2]
  split
  · rfl
  · split <;> rfl

theorem bcloneA_nil (o : Option Buf) : bcloneA o [] = (bclone o, []) := by cases o <;> rfl

theorem fieldsCopyA_nil (fs : List Field) : fieldsCopyA fs [] = (fs, []) := by
  induction fs with
  | nil => rfl
  | cons f fs ih =>
    rw [fieldsCopyA, bcloneA_nil]
    simp only [bcloneA_nil, ih]
    cases f with
    | mk _ _ _ _ d v _ _ => cases d <;> cases v <;> simp [bclone]

theorem hdrCloneA_nil (h : Hdr) : hdrCloneA h [] = (some h, []) := by
  unfold hdrCloneA
  simp [grant, fieldsCopyA_nil]

/-- **C138**: with enough memory length and checksum are the usual ones. -/
theorem C138_enough (below above : List Hdr) (h : Hdr) :
    fillUdpTcpA below h above [] = (fillUdpTcp below h above >>= fun h' => .ok (h', [])) := by
  have bind_assoc : ∀ {α β γ : Type} (o : Out α) (p : α → Out β) (q : β → Out γ), (o >>= p >>= q) = (o >>= fun x => p x >>= q) := by
    intro α β γ o p q
    cases o <;> rfl
  have e1 : fillUdpLenA h above [] = (fillUdpLen h above >>= fun h' => .ok (h', [])) := by
    unfold fillUdpLenA fillUdpLen
    cases findField h c!"len" with
    | none => rfl
    | some f =>
      cases hv : f.val.isSome with
      | true => simp only [hv, if_true, Out.ok_bind]
      | false => simp only [hv, Bool.false_eq_true, if_false, parseBytesA_nil, bind_assoc, Out.ok_bind]
  have e2 : ∀ (p ll : Hdr) (t : CStr) (n : Nat), fillPseudoA p ll t n [] = (fillPseudo p ll t n >>= fun p => .ok (p, [])) := by
    intro p ll t n
    unfold fillPseudoA fillPseudo
    simp only [bcloneA_nil, parseBytesA_nil, bind_assoc, Out.ok_bind]
  have e3 : ∀ h, fillUdpChksumA below h above [] = (fillUdpChksum below h above >>= fun h' => .ok (h', [])) := by
    intro h
    unfold fillUdpChksumA fillUdpChksum
    rw [bind_assoc]
    congr 1
    funext f
    cases hv : f.val.isSome with
    | true => simp only [if_true, Out.ok_bind]
    | false =>
      simp only [Bool.false_eq_true, if_false]
      cases below.getLast? with
      | none => rfl
      | some ll =>
        simp only
        cases pseudoFor ll with
        | none => rfl
        | some ps =>
          simp only [hdrCloneA_nil, udpSumA, e2, grant, if_true, parseBytesA_nil, bind_assoc, Out.ok_bind]
  unfold fillUdpTcpA fillUdpTcp
  rw [e1, bind_assoc, bind_assoc]
  congr 1
  funext h1
  exact e3 h1

/-- The checksum of an empty UDP datagram from 1.2.3.4 over IPv4, with the given answers: nothing if NULL is used. -/
def udpChecksum (as : List Bool) : Option (Option Buf) :=
  match fillUdpTcpA [setVal HDR_IPV4 c!"sip" (some [1#8, 2#8, 3#8, 4#8])] HDR_UDP [] as with
  | .ok (h, _) => some ((findField h c!"chksum").bind (·.val))
  | _ => none

/-- **C138**, instances: with one request refused. The requests are those for the length, the pseudo header and its fields, the address, the
protocol and the length in the pseudo header, the buffer for the sum, and the checksum. -/
theorem C138_examples :
    udpChecksum [] = some (some [0xfb#8, 0xd8#8]) ∧
    (List.range 9).map (fun k => udpChecksum (List.replicate k true ++ [false])) =
      [some (some [0xfb#8, 0xe0#8]), none, none, some (some [0xff#8, 0xde#8]), some (some [0xfb#8, 0xe9#8]),
        some (some [0xfb#8, 0xe0#8]), none, some none, some (some [0xfb#8, 0xd8#8])] := by
  decide +kernel

/-- The usual checksum after the length has been computed or left out. -/
def usualChecksum (h : Hdr) : Option (Option Buf) :=
  match fillUdpChksum [setVal HDR_IPV4 c!"sip" (some [1#8, 2#8, 3#8, 4#8])] h [] with
  | .ok h => some ((findField h c!"chksum").bind (·.val))
  | _ => none

/-- The usual checksum with the usual length, and the checksum before. -/
def usualAfterLen : Option (Option (Option Buf) × Option Buf) :=
  match fillUdpLen HDR_UDP [] with
  | .ok h => some (usualChecksum h, (findField h c!"chksum").bind (·.val))
  | _ => none

/-- **C138**, refuted: without memory for the copy of the source address a wrong checksum is sent. -/
theorem C138_false : ¬ C138_statement := by
  intro hs
  have h3 : udpChecksum [true, true, true, false] = some (some [0xff#8, 0xde#8]) := by decide +kernel
  unfold udpChecksum at h3
  split at h3
  · rename_i h' as' e
    obtain ⟨h1, c1, c2⟩ := hs _ _ _ _ _ _ e
    have hc : (findField h' c!"chksum").bind (·.val) = some [0xff#8, 0xde#8] := Option.some.inj h3
    have hl : usualChecksum HDR_UDP = some (some [0xfb#8, 0xe0#8]) := by decide +kernel
    have hu : usualAfterLen = some (some (some [0xfb#8, 0xd8#8]), none) := by decide +kernel
    have hn : (findField HDR_UDP c!"chksum").bind (·.val) = none := by decide +kernel
    have key : ∀ v, usualChecksum h1 = some (some v) → v ≠ [0xff#8, 0xde#8] →
        (findField h1 c!"chksum").bind (·.val) = none → False := by
      intro v hv hne hno
      rcases c2 with c2 | ⟨c2, -⟩
      · unfold usualChecksum at hv
        rw [c2] at hv
        simp only [hc, Option.some.injEq] at hv
        exact hne hv.symm
      · rw [c2, hno] at hc
        cases hc
    rcases c1 with c1 | ⟨c1, -⟩
    · unfold usualAfterLen at hu
      rw [c1] at hu
      have hu := Prod.mk.inj (Option.some.inj hu)
      exact key _ hu.1 (by decide) hu.2
    · subst c1
      exact key _ hl (by decide) hn
  · cases h3

end Ef.Props
