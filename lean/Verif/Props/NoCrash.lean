import Verif.Lemmas.NoCrash
import Verif.Lemmas.NamedWords
import Verif.Props.Fill
import Verif.Props.MaskExact

/-!
# No command line crashes the tool (C50)
-/

namespace Ef.Props

open Ef Ef.Spec

/-! ## C50 -/

/-- **C50, full statement.** Parsing the commands and building the frames ends normally for every list of words. -/
def C50_statement : Prop := ∀ (hasPcap : Bool) (argv : List CStr), EndsWell (parseCmds hasPcap argv)

/-- What happens instead of a normal end. -/
def crash {α : Type} : Out α → Option (Option UB)
  | .ub u => some (some u)
  | .abort => some none
  | _ => none

theorem crash_ends {α : Type} {o : Out α} {c : Option UB} (h : crash o = some c) : ¬ EndsWell o := by
  rintro (⟨a, rfl⟩ | ⟨a, rfl⟩) <;> simp [crash] at h

/-- The mask of a header that shrinks is written behind the end of the frame. -/
def maskWords : List CStr := [c!"hex", c!"eth", c!"ign", c!"data", c!"pattern", c!"zero", c!"46", c!"igmp"]

/-- **The ways to crash the tool**: a null pointer after `tx IF` and `tx IF rep`, a write outside a buffer by a long
literal, an uninitialised pointer after malformed CoAP payload, failed assertions by a last TLV of a supervision header, by
an MLD message that is query and report, and by the mask of a header that shrinks. -/
theorem C50_crashes :
    (∀ p a, crash (parseCmds p [c!"tx", a]) = some (some .nullDeref)) ∧
    (∀ p a, crash (parseCmds p [c!"tx", a, c!"rep"]) = some (some .nullDeref)) ∧
    crash (parseCmds false [c!"hex", c!"ipv6", c!"sip", c!"0x0102030405060708090a0b0c0d0e0f101112"]) = some (some .oobWrite) ∧
    crash (parseCmds false [c!"hex", c!"coap-parms", c!"par", c!"hex", c!"xy"]) = some (some .uninit) ∧
    crash (parseCmds false [c!"hex", c!"data", c!"pattern", c!"zero", c!"46", c!"sv", c!"tlv0_type", c!"1"]) = some none ∧
    crash (parseCmds false [c!"hex", c!"ipv6", c!"sip", c!"::1", c!"dip", c!"::2", c!"mld", c!"qqic", c!"1", c!"ng", c!"1"]) =
      some none ∧
    crash (parseCmds false maskWords) = some none := by
  refine ⟨fun p a => ?_, fun p a => ?_, by decide +kernel, by decide +kernel, by decide +kernel, by decide +kernel, by decide +kernel⟩
  · cases p <;> rfl
  · cases p <;> rfl

/-- **C50 does not hold.** -/
theorem C50_false : ¬ C50_statement := fun h => crash_ends (C50_crashes.1 true c!"eth0") (h _ _)

theorem ends_bind {α β : Type} {x : Out α} {f : α → Out β} (h : EndsWell x) (hf : ∀ a, x = .ok a → EndsWell (f a)) : EndsWell (x >>= f) := by
  rcases h with ⟨a, rfl⟩ | ⟨c, rfl⟩
  · exact hf a rfl
  · exact Or.inr ⟨c, rfl⟩

/-- The frames of a sane command line have no header which ends up inconsistent. -/
theorem sane_tame {argv : List CStr} (hs : Sane argv) {n : Nat} {f : Frame} (h : argcFrame argv = .ok (some (n, f))) :
    ∀ x ∈ f.stack, Tame x := by
  obtain ⟨h1, _⟩ := argcFrame_named h
  intro x hx
  obtain ⟨g1, g2⟩ := h1 x hx
  refine ⟨fun hn ⟨k, hk, hu⟩ => ?_, fun hn ⟨⟨k, hk, hu⟩, ⟨l, hl, hv⟩⟩ => ?_⟩
  · have hkm := g2 (by rw [hn]; decide) (by rw [hn]; decide) k hu
    rw [hn] at g1
    obtain ⟨q1, q2⟩ := hs.sv g1
    simp only [List.mem_cons, List.not_mem_nil, or_false] at hk
    rcases hk with rfl | rfl
    · exact absurd hkm q1
    · exact absurd hkm q2
  · have hkm := g2 (by rw [hn]; decide) (by rw [hn]; decide) k hu
    have hlm := g2 (by rw [hn]; decide) (by rw [hn]; decide) l hv
    rw [hn] at g1
    rcases hs.mld g1 with q | q
    · exact q k hk hkm
    · exact q l hl hlm

theorem sane_frame_ends {argv : List CStr} (hs : Sane argv) {n : Nat} {f : Frame} (h : argcFrame argv = .ok (some (n, f))) :
    (∃ f' b, frameToBuf f = .ok (f', b) ∧ (f'.hasMask = true → ∃ m, frameMaskToBuf f' = .ok m)) ∨ frameToBuf f = .exit (-1) := by
  have hl := argcFrame_len h
  have ht := sane_tame hs h
  obtain ⟨n1, n2⟩ := argcFrame_named h
  rcases fillStack_good (below := []) (hs := f.stack) (by simp)
    (fun x hx => ⟨argcFrame_inst hs.short h x hx, ht x hx⟩) (by omega) with ⟨hs', e1, e2, e3, e4⟩ | ⟨e1, e2⟩
  · left
    rcases C16_own_bytes_partial argv n f hs.short h ht with ⟨f', b, hb, _⟩ | ⟨hb, _⟩
    · refine ⟨f', b, hb, fun hm => ?_⟩
      have hf' : f' = { f with stack := hs' } := by
        unfold frameToBuf at hb
        rw [e1, Out.ok_bind, Out.bind_eq_ok] at hb
        obtain ⟨b', _, hb⟩ := hb
        simp only [Out.ok.injEq, Prod.mk.injEq] at hb
        exact hb.1.symm
      subst hf'
      have hfit : ∀ x ∈ hs', HdrFitsMask x := by
        intro y hy
        obtain ⟨i, hi, rfl⟩ := List.mem_iff_getElem.mp hy
        have hi2 : i < f.stack.length := by omega
        have hr := e4 i f.stack[i] hs'[i] (List.getElem?_eq_getElem hi2) (List.getElem?_eq_getElem hi)
        have hnm := (n1 f.stack[i] (List.getElem_mem hi2)).1
        obtain ⟨m1, m2, m3⟩ := hs.mask (n2 hm)
        exact hr.mask (fun e => m1 (e ▸ hnm)) (fun e => m2 (e ▸ hnm)) (fun e => m3 (e ▸ hnm))
      have key := copyHdrs_ok true hs' [] (List.replicate (frameSize hs' - sumSizes hs') 0xff#8) (fun x hx => (hfit x hx).fits)
      simp only [List.nil_append, List.length_nil] at key
      unfold frameMaskToBuf
      exact ⟨_, key⟩
    · unfold frameToBuf at hb
      rw [e1, Out.ok_bind] at hb
      cases hc : copyHdrs false hs' 0 (balloc (frameSize hs')) with
      | ok b => rw [hc] at hb; cases hb
      | ub u => rw [hc] at hb; cases hb
      | abort => rw [hc] at hb; cases hb
      | exit c =>
        exfalso
        have hfit : ∀ x ∈ hs', HdrFits x := e2.2
        have key := copyHdrs_ok false hs' [] (zeros (60 - sumSizes hs')) (fun x hx => (hfit x hx).fits)
        have hz : balloc (frameSize hs') = zeros (sumSizes hs') ++ zeros (60 - sumSizes hs') := by
          rw [← zeros_append]; unfold balloc frameSize zeros; split <;> (congr 1; omega)
        simp only [List.nil_append, List.length_nil] at key
        rw [hz, key] at hc
        cases hc
  · right
    unfold frameToBuf
    rw [e1, Out.exit_bind]

/-- A literal a field has room for is not too long. -/
theorem roomFor_not_tooLong {v : CStr} {w : Nat} (h : 64 < w → RoomFor v w) : ¬ TooLong v (bitToByte w) := by
  rintro ⟨h8, hd⟩
  have hw : 64 < w := by unfold bitToByte at h8; omega
  have hb : w ≤ 8 * bitToByte w := by unfold bitToByte; omega
  obtain ⟨r1, r2⟩ := h hw
  rcases hd with ⟨d, _, _, e, _, hl⟩ | ⟨d, _, _, e, _, hl⟩
  · have := r1 d e; omega
  · have := r2 d e; omega

theorem sane_words {argv : List CStr} (hs : Sane argv) : SafeWords argv where
  short := hs.short
  literals := fun n v rest hn t ht f hf he hp => roomFor_not_tooLong fun hw => hs.literals n v rest hn t ht f hf he hp hw
  parms := hs.parms

/-- The conditions on the words alone are enough. -/
theorem C50_sane (argv : List CStr) (hs : Sane argv) : Safe argv where
  words := sane_words hs
  tx := hs.tx
  rep := hs.rep
  tame := fun ws hw n f h => sane_tame (hs.suffix hw) h
  mask := fun ws hw n f h f' b hb hm => by
    have hs' := hs.suffix hw
    refine Classical.byContradiction fun hc => ?_
    have ha := (C20_parsed ws n f f' b hs'.short h hb).2 hc
    rcases sane_frame_ends hs' h with ⟨f2, b2, e1, e2⟩ | e1
    · rw [e1] at hb
      simp only [Out.ok.injEq, Prod.mk.injEq] at hb
      obtain ⟨rfl, rfl⟩ := hb
      obtain ⟨m, hm⟩ := e2 hm
      rw [hm] at ha
      cases ha
    · rw [e1] at hb
      cases hb

theorem frame_ends {argv : List CStr} (hs : Safe argv) {n : Nat} {f : Frame} (h : argcFrame argv = .ok (some (n, f))) :
    (∃ f' b, frameToBuf f = .ok (f', b) ∧ (f'.hasMask = true → ∃ m, frameMaskToBuf f' = .ok m)) ∨ frameToBuf f = .exit (-1) := by
  rcases C16_own_bytes_partial argv n f hs.words.short h (hs.tame argv List.suffix_rfl n f h) with ⟨f', b, hb, _⟩ | ⟨hb, _⟩
  · refine .inl ⟨f', b, hb, fun hm => ?_⟩
    obtain ⟨m, e, _⟩ := (C20_parsed argv n f f' b hs.words.short h hb).1 (hs.mask argv List.suffix_rfl n f h f' b hb hm)
    exact ⟨m, e⟩
  · exact .inr hb

theorem argcCmdFrame_ends {c : Cmd} {i : Nat} {argv : List CStr} (hs : Safe argv) : EndsWell (argcCmdFrame c i argv) := by
  unfold argcCmdFrame
  refine ends_bind (Or.inl (argcFrame_ends hs.words)) fun r hr => ?_
  cases r with
  | none => exact Or.inl ⟨_, rfl⟩
  | some p =>
    obtain ⟨n, f⟩ := p
    simp only
    split
    · split <;> exact Or.inl ⟨_, rfl⟩
    · rcases frame_ends hs hr with ⟨f', b, h1, h2⟩ | h1
      · rw [h1, Out.ok_bind]
        simp only
        split
        · rename_i hm
          obtain ⟨m, hm⟩ := h2 hm
          rw [hm]
          exact Or.inl ⟨_, rfl⟩
        · exact Or.inl ⟨_, rfl⟩
      · rw [h1]
        exact Or.inr ⟨_, rfl⟩

theorem argcCmdRest_ends {c : Cmd} {i : Nat} {argv : List CStr} (hs : Safe argv) : EndsWell (argcCmdRest c i argv) := by
  unfold argcCmdRest
  split
  · split
    · exact Or.inl ⟨_, rfl⟩
    · exact argcCmdFrame_ends hs
  · exact argcCmdFrame_ends hs

theorem cmdWord_tx {p : Bool} {w : CStr} (h : cmdWord p w = .cmd .tx) : w = c!"tx" := by
  unfold cmdWord at h
  repeat' split at h
  all_goals simp_all

theorem argcCmd_ends (p : Bool) {argv : List CStr} (hs : Safe argv) : EndsWell (argcCmd p argv) := by
  unfold argcCmd
  split
  · exact Or.inl ⟨_, rfl⟩
  · rename_i w rest
    have s1 : Safe rest := hs.suffix (List.suffix_cons _ _)
    split
    · exact Or.inl ⟨_, rfl⟩
    · exact Or.inl ⟨_, rfl⟩
    · rename_i t hw
      split
      · exact Or.inl ⟨_, rfl⟩
      · rename_i a rest'
        have s2 : Safe rest' := s1.suffix (List.suffix_cons _ _)
        split
        · exact argcCmdRest_ends s2
        · exact argcCmdRest_ends s1
        · exact argcCmdRest_ends s2
        · exact argcCmdRest_ends s2
        · have := cmdWord_tx hw
          subst this
          split
          · exact absurd List.suffix_rfl (hs.tx a)
          · rename_i r rest''
            have s3 : Safe rest'' := s2.suffix (List.suffix_cons _ _)
            split
            · rename_i hr
              split
              · exact absurd List.suffix_rfl (hs.rep a r hr)
              · exact argcCmdRest_ends (s3.suffix (List.suffix_cons _ _))
            · exact argcCmdRest_ends s2

/-- **C50, the part that holds.** On every command line without the seven situations of `C50_crashes`, parsing the commands
and building the frames ends normally: no failed assertion, no access outside a buffer, no null or uninitialised pointer.
By `C50_sane` conditions on the words alone are enough. -/
theorem C50_no_crash_partial (hasPcap : Bool) (argv : List CStr) (hs : Safe argv) : EndsWell (parseCmds hasPcap argv) := by
  have loop : ∀ (k : Nat) (argv : List CStr), Safe argv → EndsWell (argcCmdsLoop hasPcap k argv) := by
    intro k
    induction k with
    | zero => intro argv _; exact Or.inl ⟨_, rfl⟩
    | succ k ih =>
      intro argv hs
      unfold argcCmdsLoop
      split
      · exact Or.inl ⟨_, rfl⟩
      · refine ends_bind (argcCmd_ends hasPcap hs) fun r _ => ?_
        cases r with
        | err => exact Or.inl ⟨_, rfl⟩
        | stop => exact Or.inl ⟨_, rfl⟩
        | cmd c used =>
          refine ends_bind (ih _ (hs.suffix (List.drop_suffix _ _))) fun r _ => ?_
          cases r <;> exact Or.inl ⟨_, rfl⟩
  unfold parseCmds
  refine ends_bind (loop 100 argv hs) fun r _ => ?_
  cases r with
  | none => exact Or.inl ⟨_, rfl⟩
  | some p =>
    simp only
    split <;> exact Or.inl ⟨_, rfl⟩

/-- **C50**: the condition on masks cannot be weakened. A frame for which it does not hold makes the tool abort. -/
theorem C50_mask (c : Cmd) (i : Nat) (argv : List CStr) (n : Nat) (f f' : Frame) (b : Buf) (hs : ShortWords argv)
    (h1 : argcFrame argv = .ok (some (n, f))) (hn : n ≠ 0) (h2 : frameToBuf f = .ok (f', b)) (hm : f'.hasMask = true) :
    (ComparedInside f'.stack → EndsWell (argcCmdFrame c i argv)) ∧
    (¬ ComparedInside f'.stack → argcCmdFrame c i argv = .abort) := by
  obtain ⟨k1, k2⟩ := C20_parsed argv n f f' b hs h1 h2
  unfold argcCmdFrame
  rw [h1, Out.ok_bind]
  simp only
  rw [if_neg hn, h2, Out.ok_bind]
  simp only [hm, if_true]
  refine ⟨fun h => ?_, fun h => ?_⟩
  · obtain ⟨m, e, _⟩ := k1 h
    rw [e]
    exact .inl ⟨_, rfl⟩
  · rw [k2 h]
    rfl

/-- A sane command line with two commands, an IPv6 address and a mask: two commands result. -/
def saneWords : List CStr :=
  [c!"rx", c!"eth0", c!"eth", c!"dmac", c!"ign", c!"ipv6", c!"sip", c!"::1", c!"tx", c!"eth1", c!"eth", c!"data", c!"hex", c!"0102"]

example : Sane saneWords ∧ (match parseCmds false saneWords with | .ok (some cs) => cs.length | _ => 0) = 2 := by
  refine ⟨⟨by unfold ShortWords; decide +kernel, fun n v rest hs _ _ _ _ _ _ _ => ?_, fun rest hs => ?_, fun a hs => ?_,
    fun a r hr hs => ?_, by decide +kernel, by decide +kernel, by decide +kernel⟩, by decide +kernel⟩
  · have hv : v ∈ saneWords := hs.subset (by simp)
    have k : ∀ v ∈ saneWords, v.take 2 ≠ c!"0x" ∧ v.take 2 ≠ c!"0b" := by decide +kernel
    exact ⟨fun d hd => absurd (by rw [hd]; rfl) (k v hv).1, fun d hd => absurd (by rw [hd]; rfl) (k v hv).2⟩
  · exact absurd (hs.subset (List.mem_cons_self ..)) (by decide +kernel)
  · have := List.suffix_iff_eq_drop.mp hs
    revert this
    simp [saneWords]
  · have := List.suffix_iff_eq_drop.mp hs
    revert this
    simp [saneWords]

/-- A line that is not sane, since `ign` is used with a header that shrinks: only the size of the frame matters. -/
example : ¬ Sane [c!"hex", c!"eth", c!"ign", c!"igmp"] ∧
    crash (parseCmds false [c!"hex", c!"eth", c!"ign", c!"igmp"]) = none ∧
    (match argcFrame [c!"eth", c!"ign", c!"igmp"] with
      | .ok (some (_, f)) => match frameToBuf f with
        | .ok (f', _) => decide (f'.hasMask = true ∧ ComparedInside f'.stack)
        | _ => false
      | _ => false) = true ∧
    (match argcFrame (maskWords.drop 1) with
      | .ok (some (_, f)) => match frameToBuf f with
        | .ok (f', _) => decide (f'.hasMask = true ∧ ¬ ComparedInside f'.stack)
        | _ => false
      | _ => false) = true := by
  refine ⟨fun h => (h.mask (.inl (by decide))).1 (by decide), by decide +kernel, by decide +kernel, by decide +kernel⟩

end Ef.Props
