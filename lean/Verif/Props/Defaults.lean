import Verif.Props.Help
import Verif.Props.Presets

/-!
# Property C83: the defaults announced in the help
-/

namespace Ef.Props

open Ef Spec

/-- `statedDefault`, quicker. -/
def statedQuick : CStr → Option Nat
  | [] => none
  | c :: cs =>
    if c.toNat = 101 then
      match (after c!"efaults to " (c :: cs)).or (after c!"efault " (c :: cs)) with
      | some r => readValue (r.takeWhile (fun c => c != ch!" " && c != ch!"," && c != ch!")"))
      | none => statedQuick cs
    else statedQuick cs

theorem stated_quick (s : CStr) : statedDefault s = statedQuick s := by
  induction s with
  | nil => rfl
  | cons c cs ih =>
    unfold statedDefault statedQuick
    by_cases hc : c.toNat = 101
    · rw [if_pos hc, ih]; rfl
    · rw [if_neg hc]
      have hc : c ≠ 101#8 := fun e => hc (by rw [e]; rfl)
      have h1 : after c!"efaults to " (c :: cs) = none := by
        unfold after
        rw [if_neg]
        intro e
        exact hc (List.cons.inj e).1
      have h2 : after c!"efault " (c :: cs) = none := by
        unfold after
        rw [if_neg]
        intro e
        exact hc (List.cons.inj e).1
      rw [h1, h2]
      exact ih

/-- The line announces a default for a field that is sent with it. -/
def statedOk (t : Hdr) (l : CStr) : Bool :=
  match statedQuick l with
  | none => true
  | some N =>
    match (after c!"  " l).bind readField with
    | none => true
    | some q =>
    decide (t.name ≠ c!"coap-parms") && decide (¬ Reshapes t.fill) && disjB t && decide (q.name ∉ fillNames t.fill) &&
      (match findField t q.name with
        | some ft => decide (ft.offset = q.bit) && decide (ft.width = q.bits) && decide (ft.offset + ft.width ≤ 8 * t.size) &&
            decide (numOf ft none = N)
        | none => false)

theorem stated_all : ∀ t ∈ hdrTmpls, t.parser = .fields →
    (linesOf (hdrHelpText 0 true t (findHelp t.name))).all (statedOk t) = true := by
  decide +kernel

/-- **C83**: if the help of a header announces a default for a field, and the field is not given, the value announced is sent in the
place that the help announces. (The header must have the size it has in the help, which only the data of `profinet-rtc` can change;
and for the default 0, the headers in front must keep inside their own bytes, see C16.) -/
theorem C83_announced_defaults {hp : Bool} {hd : List CStr} (hl : LeadWords hp hd) (file : CStr) {t : Hdr} (ht : t ∈ hdrTmpls)
    (hk : t.parser = .fields) {l : CStr} (hline : l ∈ linesOf (printed hp file (hd ++ [t.name, c!"help"]))) {n : CStr} {off bits N : Nat}
    (hread : (after c!"  " l).bind readField = some ⟨n, off, bits⟩) (hdef : statedDefault l = some N)
    {argv : List CStr} {f f' : Frame} {b : Buf} (h : Sent argv f f' b) {pre post pre' post' : List Hdr} {x x' : Hdr}
    (ha : At f f' pre x post pre' x' post') (hn : x.name = t.name) (hsz : x'.size = t.size) (hg : given x n = none)
    (hz : N = 0 → ∀ y ∈ pre, Tame y) :
    numAt b (8 * totalSize pre' + off) bits = N := by
  obtain ⟨m1, m2, m3⟩ := hdr_help_msgs t ht hk
  have e : printed hp file (hd ++ [t.name, c!"help"]) = hdrHelpText 0 true t (findHelp t.name) := by
    unfold printed
    rw [(parseMsgs_rejected hl m1 m2).2, m3]
    simp [msgText]
  rw [e] at hline
  have hs := List.all_eq_true.1 (stated_all t ht hk) l hline
  unfold statedOk at hs
  rw [← stated_quick, hdef] at hs
  simp only [hread] at hs
  simp only [Bool.and_eq_true, decide_eq_true_eq] at hs
  obtain ⟨⟨⟨⟨hnp, hr⟩, hdj⟩, hfn⟩, hs⟩ := hs
  split at hs
  case h_2 => simp at hs
  rename_i ft hft
  simp only [Bool.and_eq_true, decide_eq_true_eq] at hs
  obtain ⟨⟨⟨q1, q2⟩, q3⟩, q4⟩ := hs
  obtain ⟨l1, l2, hsep⟩ := sep_of_disj hdj hft
  have hp' := h.place ha
  have hinst : Inst t x := by
    obtain ⟨u, hu, u', hv, hi, hty⟩ := hp'.inst
    have hnm : u.name = t.name := by rw [← variant_name hv, ← hi.name]; exact hn
    have : u = t := tmpl_name_inj u hu t ht hnm
    subst this
    have hr0 : ¬ Reshapes x.fill := by
      rw [hi.fill]
      cases hv <;> exact hr
    have hlay : lay x' = lay x := fillHdr_lay hr0 x' hp'.filled
    have hxs : x'.size = u'.size := by rw [← hi.size]; exact (congrArg (fun q => q.2.1) hlay)
    rw [hsz] at hxs
    cases hv with
    | same => exact hi
    | coap k =>
      have : k = 0 := by have : (4 : Nat) = 4 + k := hxs; omega
      subst this
      rw [coap_shape]; exact hi
    | pnet k =>
      have : k = 40 := by have : (46 : Nat) = k + 6 := hxs; omega
      subst this
      rw [pnet_shape]; exact hi
    | opt => exact absurd hr (by decide)
    | parms => exact absurd rfl hnp
    | data => exact absurd hk (by decide)
  have hr0 : ¬ Reshapes x.fill := by rw [hinst.fill]; exact hr
  have hw := field_on_wire h ha hinst hr0 hsep q3 (fun _ hd => hz (by rw [← q4]; unfold numOf; rw [hd]; rfl))
  have hg' : given x' n = none := by
    rw [← hg]
    exact fillHdr_other hr0 (by rw [hinst.fill]; exact hfn) x' hp'.filled
  rw [hg', q4, q1, q2] at hw
  exact hw

/-- The defaults announced in the help of `t`. -/
def announced (t : Hdr) : List (CStr × Nat) :=
  (linesOf (hdrHelpText 0 true t (findHelp t.name))).filterMap (fun l => do
    let N ← statedDefault l
    let q ← (after c!"  " l).bind readField
    some (q.name, N))

-- What is announced for `lp-jr2` and `profinet-rtc`.
example : announced HDR_LP_JR2 = [(c!"dmac", 0xffffffffffff), (c!"smac", 0xffffffffffff), (c!"tpid", 0x8100), (c!"vid", 1),
      (c!"et", 0x8880), (c!"id", 9)] ∧
    announced HDR_PNET_RTC = [(c!"ignore", 0), (c!"reserved2", 0), (c!"station-ok", 1), (c!"provider-state-run", 1), (c!"reserved1", 0),
      (c!"data-valid", 1), (c!"redundancy", 0), (c!"primary", 1)] := by
  constructor <;> decide +kernel

-- A frame in which they are sent: the `id` of `lp-jr2` in bytes 18 and 19, the status byte of `profinet-rtc` at the end.
example : holdsAt [c!"lp-jr2", c!"profinet-rtc"] 0 (fun _ _ b _ x _ x' => decide (given x c!"id" = none ∧ x'.size = HDR_LP_JR2.size ∧
    numAt b (8 * 18) 16 = 9)) = true ∧
    holdsAt [c!"eth", c!"profinet-rtc"] 1 (fun _ _ b _ x _ x' => decide (given x c!"primary" = none ∧ x'.size = HDR_PNET_RTC.size ∧
    numAt b (8 * 58) 8 = 0x35)) = true := by
  constructor <;> decide +kernel

end Ef.Props
