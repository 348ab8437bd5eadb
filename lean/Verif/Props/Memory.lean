import Verif.Lemmas.MemLoss
import Verif.Props.Commands

/-!
# The memory of a run

C93: no block is used or released after its release, whatever the command line and the environment.
C94: what is not released at the end of a run.
-/

namespace Ef.Props

open Ef Ef.Spec

/-- C93. Whatever the command line, the frames that arrive and the answers of the system: no block of memory is used
or released when it is not allocated (any more), also when the run is aborted or does not end; and keeping the data in
blocks of memory makes no difference to the outcome. -/
theorem C93_memory_safety (w : World) (argv : List CStr) :
    (processM w argv {}).2.bad = false ∧ (processM w argv {}).1 = main_ w argv :=
  ⟨(process_tri w argv).2.1, (process_tri w argv).1⟩

/-- C93 is about runs that allocate and release. -/
example : (processM quiet [c!"hex", c!"eth"] {}).2.next > 100 := by decide +kernel

/-- The test can fail: a block that is released twice, a block that is used after its release. -/
example : ((do let p ← alloc; free p; free p : Mem Unit) {}).2.bad = true ∧
    ((do let p ← alloc; free p; use p : Mem Unit) {}).2.bad = true := by decide

/-- C94 as one would like to have it: a run that has returned has released all its memory. -/
def C94_statement : Prop :=
  ∀ w argv r, (processM w argv {}).1 = .ok r → r.ret.isSome → (processM w argv {}).2.live = []

/-- A run that has returned has kept at least the eight default values of `oam-lb`, `oam-lt` and `oam-raps`. -/
theorem C94_never_all (w : World) (argv : List CStr) (r : RunRes) (hr : (processM w argv {}).1 = .ok r)
    (hs : r.ret.isSome) : 8 ≤ (processM w argv {}).2.live.length := by
  obtain ⟨h1, h2⟩ := process_left (K := fun c => c = .refused) w argv (.inl rfl) hr
  obtain ⟨new, old, e, l, _, _⟩ := h1 hs
  rw [h2, e, List.length_append]
  omega

/-- C94 does not hold. -/
theorem C94_false : ¬ C94_statement := by
  intro h
  have key : (match main_ quiet [c!"hex", c!"eth"] with | .ok r => r.ret.isSome | _ => false) = true := by decide +kernel
  generalize hm : main_ quiet [c!"hex", c!"eth"] = o at key
  cases o with
  | ub u => simp at key
  | abort => simp at key
  | exit c => simp at key
  | ok r =>
    have hr : (processM quiet [c!"hex", c!"eth"] {}).1 = .ok r := by rw [(C93_memory_safety _ _).2, hm]
    have h1 := h quiet _ _ hr key
    have h2 := C94_never_all _ _ _ hr key
    rw [h1] at h2
    simp at h2

/-- C94 up to a constant: a run that accepts its command line (and is not asked for its version) ends with exactly
eight blocks allocated, however many commands, frames and captures there are, whatever happens on the network, unless
a value of `token` or `meg_id` is longer than the field. -/
theorem C94_released_partial (w : World) (argv : List CStr) (r : RunRes) (hr : main_ w argv = .ok r)
    (hs : r.ret.isSome) (hacc : r.ret ≠ some (-1)) (hv : r.version = false) (hh : r.help = false)
    (hw : ShortHex (getopt w.posix argv).2) : (processM w argv {}).2.live.length = 8 := by
  rw [← (C93_memory_safety w argv).2] at hr
  obtain ⟨h1, h2⟩ := process_left (K := fun _ => False) w argv (.inr hw) hr
  obtain ⟨new, old, e, l, _, k⟩ := h1 hs
  have : old = [] := by
    cases old with
    | nil => rfl
    | cons x xs =>
      rcases k x (by simp) with h | h | h | h
      · exact h.elim
      · exact absurd h.2 hacc
      · rw [h.2] at hs; simp at hs
      · rcases h.2 with h | h
        · rw [hv] at h; simp at h
        · rw [hh] at h; simp at h
  rw [h2, e, this, List.append_nil, l]

/-- The words play no part beyond that. -/
example : (processM quiet [c!"-c", c!"e0", c!"name", c!"a", c!"eth", c!"ipv4", c!"udp", c!"hex", c!"coap", c!"token",
    c!"0011223344556677"] {}).2.live.length = 8 := by decide +kernel

/-- The restriction is needed: the value of a token that is too long is not released. -/
example : (processM quiet [c!"hex", c!"coap", c!"token", c!"001122334455667788"] {}).2.live.length = 9 ∧
    (processM quiet [c!"hex", c!"eth", c!"bogus"] {}).2.live.length > 8 ∧
    (processM quiet [c!"-c", c!"e0", c!"-v"] {}).2.live.length > 8 := by decide +kernel

end Ef.Props
