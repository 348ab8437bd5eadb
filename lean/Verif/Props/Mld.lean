import Verif.Lemmas.MldMsgs
import Verif.Props.Defined

/-!
# C120: an MLD message without its IPv6 addresses
-/

namespace Ef.Props

open Ef Ef.Spec

/-- **C120** (reason): building a frame calls `exit` only with -1, and only because an `mld` header without explicit checksum
has no IPv6 header before it, or its first IPv6 header has no source or no destination address. Exactly one line is
printed then; it tells what the last such header lacks. Building a frame prints nothing otherwise. -/
theorem C120_reason (nil : CStr) (argv : List CStr) (n : Nat) (f : Frame) (hs : ShortWords argv)
    (h1 : argcFrame argv = .ok (some (n, f))) :
    (∀ c, frameToBuf f = .exit c → c = -1 ∧ ∃ r, LastStuck f.stack r ∧ (buildMsgs f).map (mldText nil) = [lackText nil r]) ∧
    ((∀ c, frameToBuf f ≠ .exit c) → buildMsgs f = []) := by
  have hl := argcFrame_len h1
  unfold buildMsgs
  rcases fillStack_exact (below := []) (by simp) (fun x hx => argcFrame_inst hs h1 x hx) (by omega) with
    ⟨pre, x, post, r, e, s1, s2, f1, f2⟩ | ⟨f2, f1⟩ | ⟨f2, ⟨hs', f1⟩, s2⟩
  · have hf : frameToBuf f = .exit (-1) := by
      unfold frameToBuf
      rw [f1, Out.exit_bind]
    refine ⟨fun c hc => ?_, fun h => absurd hf (h _)⟩
    rw [hf] at hc
    cases hc
    refine ⟨rfl, r, ⟨pre, x, post, e, by simpa using s1, by simpa using s2⟩, ?_⟩
    rw [f2]
    simp [lackMsg_text]
  · refine ⟨fun c hc => ?_, fun _ => f2⟩
    unfold frameToBuf at hc
    rw [f1] at hc
    cases hc
  · refine ⟨fun c hc => ?_, fun _ => f2⟩
    obtain ⟨k1, k2⟩ := C16_exactly argv n f hs' hs h1 f1
    by_cases hw : WrittenInside hs'
    · obtain ⟨b, e, _⟩ := k1 hw
      rw [e] at hc; cases hc
    · rw [k2 hw] at hc; cases hc

/-- **C120** (needs): a frame with such a header has no bytes: the program ends with `exit(-1)`, or before that with a
failed assertion; the latter only if there is a supervision or `mld` header whose fields do not fit together. -/
theorem C120_needs (argv : List CStr) (n : Nat) (f : Frame) (hs : ShortWords argv)
    (h1 : argcFrame argv = .ok (some (n, f))) (pre post : List Hdr) (x : Hdr) (r : Lack) (h2 : f.stack = pre ++ x :: post)
    (h3 : Stuck pre x r) :
    (frameToBuf f = .exit (-1) ∨ frameToBuf f = .abort) ∧ ((∀ x ∈ f.stack, Tame x) → frameToBuf f = .exit (-1)) := by
  have hl := argcFrame_len h1
  rcases fillStack_exact (below := []) (by simp) (fun x hx => argcFrame_inst hs h1 x hx) (by omega) with
    ⟨pre, x, post, r, e, s1, s2, f1, f2⟩ | ⟨f2, f1⟩ | ⟨f2, ⟨hs', f1⟩, s2⟩
  · have hf : frameToBuf f = .exit (-1) := by
      unfold frameToBuf
      rw [f1, Out.exit_bind]
    exact ⟨.inl hf, fun _ => hf⟩
  · have hf : frameToBuf f = .abort := by
      unfold frameToBuf
      rw [f1]; rfl
    refine ⟨.inr hf, fun ht => ?_⟩
    rcases C16_own_bytes_partial argv n f hs h1 ht with ⟨f', b, h, _⟩ | ⟨h, _⟩
    · rw [h] at hf; cases hf
    · rw [h] at hf; cases hf
  · exact absurd (by simpa using h3) (s2 pre x post r h2)

/-- The end of the program while the commands are read. -/
def Explained {α : Type} (argv : List CStr) (o : Out α) : Prop :=
  ∀ c, o = .exit c → c = -1 ∧ ∃ ws n f r, ws <:+ argv ∧ argcFrame ws = .ok (some (n, f)) ∧ LastStuck f.stack r

theorem Explained.ok {α : Type} {argv : List CStr} (a : α) : Explained argv (.ok a) := fun c h => by cases h

theorem Explained.abort {α : Type} {argv : List CStr} : Explained argv (.abort : Out α) := fun c h => by cases h

theorem Explained.ub {α : Type} {argv : List CStr} (u : UB) : Explained argv (.ub u : Out α) := fun c h => by cases h

theorem Explained.bind {α β : Type} {argv : List CStr} {x : Out α} {g : α → Out β} (h : Explained argv x)
    (hg : ∀ a, x = .ok a → Explained argv (g a)) : Explained argv (x >>= g) := by
  cases x with
  | ok a => exact hg a rfl
  | ub u => exact Explained.ub u
  | abort => exact Explained.abort
  | exit c =>
    intro d hd
    obtain ⟨h1, h2⟩ := h c rfl
    rw [Out.exit_bind] at hd
    cases hd
    exact ⟨h1, h2⟩

theorem Explained.longer {α : Type} {a b : List CStr} {o : Out α} (h : Explained a o) (hs : a <:+ b) : Explained b o := by
  intro c hc
  obtain ⟨h1, ws, n, f, r, h2, h3⟩ := h c hc
  exact ⟨h1, ws, n, f, r, h2.trans hs, h3⟩

theorem argcCmdFrame_explained {c : Cmd} {i : Nat} {argv : List CStr} (hs : Plain argv) : Explained argv (argcCmdFrame c i argv) := by
  unfold argcCmdFrame
  obtain ⟨r, hr⟩ := argcFrame_ends hs.words
  rw [hr, Out.ok_bind]
  cases r with
  | none => exact Explained.ok _
  | some p =>
    obtain ⟨n, f⟩ := p
    simp only
    split
    · split <;> exact Explained.ok _
    · have key : Explained argv (frameToBuf f) := by
        intro d hd
        obtain ⟨h1, r, h2, _⟩ := (C120_reason [] argv n f hs.words.short hr).1 d hd
        exact ⟨h1, argv, n, f, r, List.suffix_rfl, hr, h2⟩
      refine key.bind fun p hp => ?_
      rcases C119_frames argv n f hs.words.short hr with ⟨f', b, h1, h2⟩ | h1 | ⟨h1, _⟩
      · rw [h1] at hp
        cases hp
        simp only
        split
        · rcases h2 with ⟨m, h2⟩ | h2
          · rw [h2]; exact Explained.ok _
          · rw [h2]; exact Explained.abort
        · exact Explained.ok _
      · rw [h1] at hp; cases hp
      · rw [h1] at hp; cases hp

theorem argcCmdRest_explained {c : Cmd} {i : Nat} {argv : List CStr} (hs : Plain argv) : Explained argv (argcCmdRest c i argv) := by
  unfold argcCmdRest
  split
  · split
    · exact Explained.ok _
    · exact argcCmdFrame_explained hs
  · exact argcCmdFrame_explained hs

theorem argcCmd_explained (p : Bool) {argv : List CStr} (hs : Plain argv) : Explained argv (argcCmd p argv) := by
  unfold argcCmd
  split
  · exact Explained.ok _
  · rename_i w rest
    have u1 : rest <:+ w :: rest := List.suffix_cons _ _
    have s1 : Plain rest := hs.suffix u1
    split
    · exact Explained.ok _
    · exact Explained.ok _
    · rename_i t hw
      split
      · exact Explained.ok _
      · rename_i a rest'
        have u2 : rest' <:+ w :: a :: rest' := (List.suffix_cons _ _).trans u1
        have s2 : Plain rest' := hs.suffix u2
        split
        · exact (argcCmdRest_explained s2).longer u2
        · exact (argcCmdRest_explained s1).longer u1
        · exact (argcCmdRest_explained s2).longer u2
        · exact (argcCmdRest_explained s2).longer u2
        · have := cmdWord_tx hw
          subst this
          split
          · exact absurd List.suffix_rfl (hs.tx a)
          · rename_i r rest''
            have u3 : rest'' <:+ c!"tx" :: a :: r :: rest'' := (List.suffix_cons _ _).trans u2
            have s3 : Plain rest'' := hs.suffix u3
            split
            · rename_i hr
              split
              · exact absurd List.suffix_rfl (hs.rep a r hr)
              · have u4 := (List.suffix_cons _ _).trans u3
                exact (argcCmdRest_explained (hs.suffix u4)).longer u4
            · exact (argcCmdRest_explained s2).longer u2

/-- **C120** for whole command lines: reading the commands calls `exit` only because of a frame with such a header. -/
theorem C120_lines (hasPcap : Bool) (argv : List CStr) (hs : Plain argv) (c : Int) (h : parseCmds hasPcap argv = .exit c) :
    c = -1 ∧ ∃ ws n f r, ws <:+ argv ∧ argcFrame ws = .ok (some (n, f)) ∧ LastStuck f.stack r := by
  have loop : ∀ (k : Nat) (argv : List CStr), Plain argv → Explained argv (argcCmdsLoop hasPcap k argv) := by
    intro k
    induction k with
    | zero => intro argv _; exact Explained.ok _
    | succ k ih =>
      intro argv hs
      unfold argcCmdsLoop
      split
      · exact Explained.ok _
      · refine (argcCmd_explained hasPcap hs).bind fun r _ => ?_
        cases r with
        | err => exact Explained.ok _
        | stop => exact Explained.ok _
        | cmd c used =>
          refine ((ih _ (hs.suffix (List.drop_suffix _ _))).longer (List.drop_suffix _ _)).bind fun r _ => ?_
          cases r <;> exact Explained.ok _
  have : Explained argv (parseCmds hasPcap argv) := by
    unfold parseCmds
    refine (loop 100 argv hs).bind fun r _ => ?_
    cases r with
    | none => exact Explained.ok _
    | some p =>
      simp only
      split <;> exact Explained.ok _
  exact this c h

/-- What building the frame of these words prints, and whether it ends the program. -/
def mldRun (argv : List CStr) : Option (Bool × List CStr) :=
  match argcFrame argv with
  | .ok (some (_, f)) =>
    some (match frameToBuf f with | .exit _ => true | _ => false, (buildMsgs f).map (mldText c!"(nil)"))
  | _ => none

/-- Non-vacuity: no IPv6 header, no source, no destination, and a complete frame; an explicit checksum needs nothing. -/
example : mldRun [c!"eth", c!"mld"] =
      some (true, [c!"Error: MLD fields must be preceded by an IPv6 header (sip = (nil), dip = (nil))\n"]) ∧
    mldRun [c!"eth", c!"ipv6", c!"mld"] = some (true, [c!"Error: IPv6 header's SIP is not set or its size is not 16 bytes\n"]) ∧
    mldRun [c!"ipv6", c!"sip", c!"::1", c!"mld"] =
      some (true, [c!"Error: IPv6 header's DIP is not set or its size is not 16 bytes\n"]) ∧
    mldRun [c!"ipv6", c!"sip", c!"::1", c!"dip", c!"::2", c!"mld"] = some (false, []) ∧
    mldRun [c!"mld", c!"chksum", c!"1"] = some (false, []) := by decide +kernel

/-- A later IPv6 header does not help: the first one counts. -/
example : mldRun [c!"ipv6", c!"ipv6", c!"sip", c!"::1", c!"dip", c!"::2", c!"mld"] =
    some (true, [c!"Error: IPv6 header's SIP is not set or its size is not 16 bytes\n"]) := by decide +kernel

end Ef.Props
