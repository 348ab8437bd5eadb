import Verif.Props.Capture
import Verif.Spec.Shell

/-!
# What tcpdump is started with (C107)
-/

namespace Ef.Props

open Ef Ef.Spec

theorem pieces_word (w : CStr) (h : ∀ c ∈ w, blankChar c = false) : pieces w = [w] := by
  induction w with
  | nil => rfl
  | cons c w ih =>
    rw [pieces, if_neg (by rw [h c List.mem_cons_self]; simp), ih (fun x hx => h x (List.mem_cons_of_mem _ hx))]

theorem pieces_append (w t : CStr) (h : ∀ c ∈ w, blankChar c = false) :
    pieces (w ++ ch!" " :: t) = w :: pieces t := by
  induction w with
  | nil => rw [List.nil_append, pieces, if_pos (by decide)]
  | cons c w ih =>
    rw [List.cons_append, pieces, if_neg (by rw [h c List.mem_cons_self]; simp),
      ih (fun x hx => h x (List.mem_cons_of_mem _ hx))]

theorem pieces_clean (s : CStr) : ∀ w ∈ pieces s, ∀ c ∈ w, blankChar c = false := by
  induction s with
  | nil => intro w hw; simp only [pieces, List.mem_singleton] at hw; subst hw; simp
  | cons d s ih =>
    intro w hw c hc
    rw [pieces] at hw
    split at hw
    · rcases List.mem_cons.mp hw with rfl | hw
      · simp at hc
      · exact ih w hw c hc
    · rename_i hd
      have hd' : blankChar d = false := by simpa using hd
      split at hw
      · simp only [List.mem_singleton] at hw; subst hw
        simp only [List.mem_singleton] at hc; subst hc; exact hd'
      · rename_i v vs hv
        rw [hv] at ih
        rcases List.mem_cons.mp hw with rfl | hw
        · rcases List.mem_cons.mp hc with rfl | hc
          · exact hd'
          · exact ih v List.mem_cons_self c hc
        · exact ih w (List.mem_cons_of_mem _ hw) c hc

/-- Words put together with blanks are found again exactly if they are not empty and without blanks. -/
theorem shellWords_join (ws : List CStr) :
    shellWords (joinWith ch!" " ws) = ws ↔ ∀ w ∈ ws, w ≠ [] ∧ ∀ c ∈ w, blankChar c = false := by
  constructor
  · intro h w hw
    rw [← h] at hw
    unfold shellWords at hw
    rw [List.mem_filter] at hw
    exact ⟨by simpa using hw.2, pieces_clean _ w hw.1⟩
  · intro h
    unfold shellWords
    have key : ∀ ws : List CStr, ws ≠ [] → (∀ w ∈ ws, ∀ c ∈ w, blankChar c = false) → pieces (joinWith ch!" " ws) = ws := by
      intro ws
      induction ws with
      | nil => intro h0; exact absurd rfl h0
      | cons w ws ih =>
        intro _ hc
        cases ws with
        | nil => exact pieces_word w (hc w List.mem_cons_self)
        | cons v vs =>
          have : joinWith ch!" " (w :: v :: vs) = w ++ ch!" " :: joinWith ch!" " (v :: vs) := rfl
          rw [this, pieces_append w _ (hc w List.mem_cons_self), ih (by simp) (fun x hx => hc x (List.mem_cons_of_mem _ hx))]
    by_cases h0 : ws = []
    · subst h0; rfl
    · rw [key ws h0 (fun w hw => (h w hw).2), List.filter_eq_self]
      intro w hw
      simpa using (h w hw).1

/-! ## C107 -/

/-- **C107, full statement**: tcpdump is started with the documented arguments, and it writes to the file that was
deleted before. -/
def C107_statement : Prop :=
  ∀ es : List CStr, es ≠ [] → (∀ e ∈ es, ch!"," ∉ e) → (∀ e ∈ es, SimpleLine e) →
    shellWords (captureCmd (joinWith ch!"," es)) = tcpdumpWords es

/-- The elements that are used. -/
def usedElems (es : List CStr) : List CStr := es.take 5

theorem elemOf_mem {es : List CStr} {i : Nat} (hi : i < 5) {x : CStr} (h : elemOf es i = some x) :
    x ∈ usedElems es ∧ x ≠ [] := by
  unfold elemOf at h
  rw [Option.filter_eq_some_iff] at h
  refine ⟨?_, by simpa using h.2⟩
  unfold usedElems
  rw [List.mem_iff_getElem?]
  exact ⟨i, by rw [List.getElem?_take_of_lt hi]; exact h.1⟩

/-- **C107, exactly when it holds**: if the interface is not empty and no used element has a blank. -/
theorem C107_exactly (es : List CStr) (hne : es ≠ []) (hc : ∀ e ∈ es, ch!"," ∉ e) :
    shellWords (captureCmd (joinWith ch!"," es)) = tcpdumpWords es ↔
      es.headD [] ≠ [] ∧ ∀ e ∈ usedElems es, ∀ c ∈ e, blankChar c = false := by
  rw [(C68_capture_command es hne hc).1, shellWords_join]
  have hfile : ∀ w, w = fileOf es → w ≠ [] := by
    rintro w rfl
    unfold fileOf
    cases h3 : elemOf es 3 with
    | none => simp
    | some f => simpa using (elemOf_mem (by decide) h3).2
  constructor
  · intro h
    have hm : ∀ w, w ∈ tcpdumpWords es → w ≠ [] ∧ ∀ c ∈ w, blankChar c = false := h
    have h0 := hm (es.headD []) (by unfold tcpdumpWords; simp)
    refine ⟨h0.1, fun e he c hce => ?_⟩
    unfold usedElems at he
    obtain ⟨i, hi⟩ := List.mem_iff_getElem?.mp he
    have hi5 : i < 5 := by
      have := (List.getElem?_eq_some_iff.mp hi).1
      rw [List.length_take] at this
      omega
    rw [List.getElem?_take_of_lt hi5] at hi
    by_cases he0 : e = []
    · subst he0; simp at hce
    · have hel : elemOf es i = some e := by
        unfold elemOf
        rw [hi]
        simp [Option.filter, he0]
      have hcases : i = 0 ∨ i = 1 ∨ i = 2 ∨ i = 3 ∨ i = 4 := by omega
      rcases hcases with rfl | rfl | rfl | rfl | rfl
      · have : es.headD [] = e := by cases es <;> simp_all
        exact h0.2 c (this ▸ hce)
      · exact (hm e (by unfold tcpdumpWords; simp [hel])).2 c hce
      · exact (hm e (by unfold tcpdumpWords; simp [hel])).2 c hce
      · exact (hm e (by unfold tcpdumpWords fileOf; simp [hel])).2 c hce
      · exact (hm e (by unfold tcpdumpWords; simp [hel])).2 c hce
  · rintro ⟨h0, hb⟩ w hw
    have hhead : ∀ c ∈ es.headD [], blankChar c = false := by
      cases es with
      | nil => exact absurd rfl hne
      | cons e es => exact hb e (by simp [usedElems])
    have hopt : ∀ i, i < 5 → ∀ x, elemOf es i = some x → x ≠ [] ∧ ∀ c ∈ x, blankChar c = false := by
      intro i hi x hx
      obtain ⟨h1, h2⟩ := elemOf_mem hi hx
      exact ⟨h2, hb x h1⟩
    have hfileb : ∀ c ∈ fileOf es, blankChar c = false := by
      unfold fileOf
      cases h3 : elemOf es 3 with
      | none =>
        intro c hcm
        simp only [Option.getD_none, List.mem_append] at hcm
        rcases hcm with hcm | hcm
        · exact hhead c hcm
        · revert c; decide
      | some f => exact (hopt 3 (by decide) f h3).2
    have word : ∀ v ∈ [c!"tcpdump", c!"-i", c!"-s", c!"-j", c!"-w", c!"-c"], v ≠ [] ∧ ∀ c ∈ v, blankChar c = false := by
      decide
    have opt : ∀ i, i < 5 → ∀ o ∈ [c!"tcpdump", c!"-i", c!"-s", c!"-j", c!"-w", c!"-c"],
        w ∈ ((elemOf es i).map (fun v => [o, v])).getD [] → w ≠ [] ∧ ∀ c ∈ w, blankChar c = false := by
      intro i hi o ho hm
      cases hx : elemOf es i with
      | none => rw [hx] at hm; simp at hm
      | some x =>
        rw [hx] at hm
        simp only [Option.map_some, Option.getD_some, List.mem_cons, List.not_mem_nil, or_false] at hm
        rcases hm with rfl | rfl
        · exact word _ ho
        · exact hopt i hi _ hx
    unfold tcpdumpWords at hw
    simp only [List.mem_append] at hw
    rcases hw with (((hw | hw) | hw) | hw) | hw
    · simp only [List.mem_cons, List.not_mem_nil, or_false] at hw
      rcases hw with rfl | rfl | rfl
      · exact word _ (by simp)
      · exact word _ (by simp)
      · exact ⟨h0, hhead⟩
    · exact opt 1 (by decide) _ (by simp) hw
    · exact opt 2 (by decide) _ (by simp) hw
    · simp only [List.mem_cons, List.not_mem_nil, or_false] at hw
      rcases hw with rfl | rfl
      · exact word _ (by simp)
      · exact ⟨hfile _ rfl, hfileb⟩
    · exact opt 4 (by decide) _ (by simp) hw

/-- **C107, the part that holds**: a plain interface and plain elements. Missing: an empty interface and elements with
blanks (false, see `C107_false`; exactly these by `C107_exactly`). -/
theorem C107_arguments_partial (es : List CStr) (hc : ∀ e ∈ es, ch!"," ∉ e)
    (h0 : es.headD [] ≠ []) (hp : ∀ e ∈ es, ∀ c ∈ e, plainChar c = true) :
    SimpleLine (captureCmd (joinWith ch!"," es)) ∧
    shellWords (captureCmd (joinWith ch!"," es)) = tcpdumpWords es ∧
    captureFile (joinWith ch!"," es) = fileOf es := by
  have hne : es ≠ [] := by rintro rfl; exact h0 rfl
  have hnb : ∀ c : Byte, plainChar c = true → blankChar c = false := by decide +kernel
  have hw := (C107_exactly es hne hc).mpr ⟨h0, fun e he c hce => hnb c (hp e (List.mem_of_mem_take he) c hce)⟩
  refine ⟨?_, hw, (C68_capture_command es hne hc).2⟩
  rw [(C68_capture_command es hne hc).1]
  have hword : ∀ w ∈ tcpdumpWords es, ∀ c ∈ w, plainChar c = true := by
    have hhead : ∀ c ∈ es.headD [], plainChar c = true := by
      cases es with
      | nil => exact absurd rfl hne
      | cons e es => exact hp e List.mem_cons_self
    have hel : ∀ i x, elemOf es i = some x → ∀ c ∈ x, plainChar c = true := by
      intro i x hx
      unfold elemOf at hx
      rw [Option.filter_eq_some_iff] at hx
      exact hp x (List.mem_of_getElem? hx.1)
    have word : ∀ v ∈ [c!"tcpdump", c!"-i", c!"-s", c!"-j", c!"-w", c!"-c", c!".pcap"], ∀ c ∈ v, plainChar c = true := by
      decide +kernel
    have opt : ∀ w i, ∀ o ∈ [c!"tcpdump", c!"-i", c!"-s", c!"-j", c!"-w", c!"-c", c!".pcap"],
        w ∈ ((elemOf es i).map (fun v => [o, v])).getD [] → ∀ c ∈ w, plainChar c = true := by
      intro w i o ho hm
      cases hx : elemOf es i with
      | none => rw [hx] at hm; simp at hm
      | some x =>
        rw [hx] at hm
        simp only [Option.map_some, Option.getD_some, List.mem_cons, List.not_mem_nil, or_false] at hm
        rcases hm with rfl | rfl
        · exact word _ ho
        · exact hel i _ hx
    intro w hw
    unfold tcpdumpWords at hw
    simp only [List.mem_append] at hw
    rcases hw with (((hw | hw) | hw) | hw) | hw
    · simp only [List.mem_cons, List.not_mem_nil, or_false] at hw
      rcases hw with rfl | rfl | rfl
      · exact word _ (by simp)
      · exact word _ (by simp)
      · exact hhead
    · exact opt w 1 _ (by simp) hw
    · exact opt w 2 _ (by simp) hw
    · simp only [List.mem_cons, List.not_mem_nil, or_false] at hw
      rcases hw with rfl | rfl
      · exact word _ (by simp)
      · unfold fileOf
        cases h3 : elemOf es 3 with
        | none =>
          intro c hcm
          simp only [Option.getD_none, List.mem_append] at hcm
          rcases hcm with hcm | hcm
          · exact hhead c hcm
          · exact word c!".pcap" (by simp) c hcm
        | some f => exact hel 3 f h3
    · exact opt w 4 _ (by simp) hw
  have join : ∀ ws : List CStr, (∀ w ∈ ws, ∀ c ∈ w, plainChar c = true) → SimpleLine (joinWith ch!" " ws) := by
    intro ws
    induction ws with
    | nil => intro _ c hcm; simp [joinWith] at hcm
    | cons w ws ih =>
      intro h
      cases ws with
      | nil => exact fun c hcm => .inl (h w List.mem_cons_self c hcm)
      | cons v vs =>
        intro c hcm
        have e : joinWith ch!" " (w :: v :: vs) = w ++ ch!" " :: joinWith ch!" " (v :: vs) := rfl
        rw [e, List.mem_append, List.mem_cons] at hcm
        rcases hcm with hcm | rfl | hcm
        · exact .inl (h w List.mem_cons_self c hcm)
        · exact .inr (by decide)
        · exact ih (fun x hx => h x (List.mem_cons_of_mem _ hx)) c hcm
  exact join _ hword

/-- **C107 does not hold** for an empty interface (`-c ,64`): the words move up, and tcpdump listens on an interface
called `-s`. -/
theorem C107_false : ¬ C107_statement := by
  intro h
  have := h [[], c!"64"] (by simp) (by decide) (by unfold SimpleLine; decide +kernel)
  revert this
  decide +kernel

/-- **C107 does not hold** for a file name with a blank: the file `my file` is deleted, but tcpdump writes to `my`. -/
theorem C107_blank : captureFile c!"eth0,,,my file" = c!"my file" ∧
    shellWords (captureCmd c!"eth0,,,my file") = [c!"tcpdump", c!"-i", c!"eth0", c!"-w", c!"my", c!"file"] := by
  decide +kernel

/-- Non-vacuity of `C107_arguments_partial`. -/
example : let es := [c!"eth0", c!"64", [], c!"/tmp/a.pcap", c!"9"]
    (∀ e ∈ es, ch!"," ∉ e) ∧ es.headD [] ≠ [] ∧ (∀ e ∈ es, ∀ c ∈ e, plainChar c = true) ∧
    shellWords (captureCmd (joinWith ch!"," es)) =
      [c!"tcpdump", c!"-i", c!"eth0", c!"-s", c!"64", c!"-w", c!"/tmp/a.pcap", c!"-c", c!"9"] := by decide +kernel

end Ef.Props
