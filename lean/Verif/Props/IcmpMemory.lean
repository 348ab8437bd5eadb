import Verif.Model.IcmpMemory
import Verif.Props.UdpMemory

/-!
# ICMP and IGMP checksums when memory runs out (C139)
-/

namespace Ef.Props

open Ef Ef.Spec

theorem plainSum_fills (text : Nat → CStr) (h h' : Hdr) (above : List Hdr) (f : Field) (hf : findField h c!"chksum" = some f)
    (hv : f.val.isSome = false) (as as' : List Bool) (hh : plainSumA text h above as = .ok (h', as')) :
    ComputedOrLeft (do
      let b ← copyHdrs false (h :: above) 0 (balloc (sumSizes (h :: above)))
      let v ← parseBytes (text (inetChksum 0 b)) 2
      .ok (setVal h c!"chksum" v)) h h' as := by
  unfold plainSumA at hh
  split at hh
  · obtain ⟨b, eb, hh⟩ := Out.bind_eq_ok.mp hh
    unfold ComputedOrLeft
    rw [eb]
    exact ((fills_value c!"chksum" _ 2 (by omega) h f hf hv (grant as).2).1 h' as' hh).2.imp id
      (fun ⟨e, m⟩ => ⟨e, (grant_mem as).1 _ m⟩)
  · cases hh

theorem getField_some {h : Hdr} {n : CStr} {f : Field} (e : getField h n = .ok f) : findField h n = some f := by
  unfold getField at e
  split at e
  · cases e; assumption
  · cases e

/-- **C139**: the checksum of an ICMP header that is not carried by IPv6 is the usual one or left out, the latter only if a request is
refused. Nothing else changes. -/
theorem C139_icmp (below above : List Hdr) (h h' : Hdr) (as as' : List Bool) (hb : ipv6Below below = none)
    (hh : fillIcmpA below h above as = .ok (h', as')) : ComputedOrLeft (fillIcmp below h above) h h' as := by
  obtain ⟨f, e, hh⟩ := Out.bind_eq_ok.mp hh
  have hf := getField_some e
  unfold fillIcmp
  rw [e, Out.ok_bind]
  cases hv : f.val.isSome with
  | true =>
    simp only [hv, if_true] at hh ⊢
    cases hh
    exact Or.inl rfl
  | false =>
    simp only [hv, Bool.false_eq_true, if_false, hb] at hh ⊢
    exact plainSum_fills decStr h h' above f hf hv as as' hh

/-- **C139**: likewise the checksum of an IGMP header, whatever carries it; the header has the usual shape. -/
theorem C139_igmp (above : List Hdr) (h h' : Hdr) (as as' : List Bool) (hh : fillIgmpA h above as = .ok (h', as')) :
    ∃ h1, (adjustQuery h >>= adjustReportIgmp) = .ok h1 ∧ ComputedOrLeft (fillIgmpChksum h1 above) h1 h' as := by
  obtain ⟨h0, e0, hh⟩ := Out.bind_eq_ok.mp hh
  obtain ⟨h1, e1, hh⟩ := Out.bind_eq_ok.mp hh
  refine ⟨h1, by rw [e0]; exact e1, ?_⟩
  obtain ⟨f, e, hh⟩ := Out.bind_eq_ok.mp hh
  have hf := getField_some e
  unfold fillIgmpChksum
  rw [e, Out.ok_bind]
  cases hv : f.val.isSome with
  | true =>
    simp only [hv, if_true] at hh ⊢
    cases hh
    exact Or.inl rfl
  | false =>
    simp only [hv, Bool.false_eq_true, if_false] at hh ⊢
    exact plainSum_fills hexStr h1 h' above f hf hv as as' hh

theorem out_assoc {α β γ : Type} (o : Out α) (p : α → Out β) (q : β → Out γ) : (o >>= p >>= q) = (o >>= fun x => p x >>= q) := by
  cases o <;> rfl

theorem fillPseudoA_nil (p ll : Hdr) (t : CStr) (n : Nat) : fillPseudoA p ll t n [] = (fillPseudo p ll t n >>= fun p => .ok (p, [])) := by
  unfold fillPseudoA fillPseudo
  simp only [bcloneA_nil, parseBytesA_nil, out_assoc, Out.ok_bind]

/-- **C139**: with enough memory the ICMP checksum is the usual one, over IPv6 too. -/
theorem C139_icmp_enough (below above : List Hdr) (h : Hdr) :
    fillIcmpA below h above [] = (fillIcmp below h above >>= fun h' => .ok (h', [])) := by
  unfold fillIcmpA fillIcmp plainSumA
  rw [out_assoc]
  congr 1
  funext f
  cases hv : f.val.isSome with
  | true => simp only [if_true, Out.ok_bind]
  | false =>
    simp only [Bool.false_eq_true, if_false]
    cases ipv6Below below with
    | none => simp only [grant, if_true, parseBytesA_nil, out_assoc, Out.ok_bind]
    | some ll => simp only [hdrCloneA_nil, fillPseudoA_nil, grant, if_true, parseBytesA_nil, out_assoc, Out.ok_bind]

/-- **C139**: with enough memory the IGMP checksum is the usual one. -/
theorem C139_igmp_enough (above : List Hdr) (h : Hdr) :
    fillIgmpA h above [] = (fillIgmp h above >>= fun h' => .ok (h', [])) := by
  unfold fillIgmpA fillIgmp fillIgmpChksumA fillIgmpChksum plainSumA
  simp only [out_assoc]
  congr 1
  funext h0
  congr 1
  funext h1
  congr 1
  funext f
  cases hv : f.val.isSome with
  | true => simp only [if_true, Out.ok_bind]
  | false => simp only [Bool.false_eq_true, if_false, grant, if_true, parseBytesA_nil, out_assoc, Out.ok_bind]

/-- The checksum stored by a fill function, nothing if NULL is used. -/
def storedSum (o : Out (Hdr × List Bool)) : Option (Option Buf) :=
  match o with
  | .ok (h, _) => some ((findField h c!"chksum").bind (·.val))
  | _ => none

/-- An IPv6 header with source address 1::. -/
def sixFrom1 : Hdr := setVal HDR_IPV6 c!"sip" (some [0#8, 1#8, 0#8, 0#8, 0#8, 0#8, 0#8, 0#8, 0#8, 0#8, 0#8, 0#8, 0#8, 0#8, 0#8, 0#8])

/-- **C139**, instances: with one request refused; over IPv6, which C139_icmp leaves out, the checksum may be wrong as in C138. -/
theorem C139_examples :
    (List.range 3).map (fun k => storedSum (fillIcmpA [HDR_IPV4] (setVal HDR_ICMP c!"type" (some [8#8])) [] (List.replicate k true ++ [false]))) =
      [none, some none, some (some [0xf7#8, 0xff#8])] ∧
    (List.range 3).map (fun k => storedSum (fillIgmpA (setVal HDR_IGMP c!"type" (some [0x11#8])) [] (List.replicate k true ++ [false]))) =
      [none, some none, some (some [0xee#8, 0xff#8])] ∧
    (List.range 8).map (fun k => storedSum (fillIcmpA [sixFrom1] HDR_ICMP [] (List.replicate k true ++ [false]))) =
      [none, none, some (some [0xff#8, 0xbd#8]), some (some [0xff#8, 0xf6#8]), some (some [0xff#8, 0xc4#8]), none, some none,
        some (some [0xff#8, 0xbc#8])] := by
  decide +kernel

end Ef.Props
