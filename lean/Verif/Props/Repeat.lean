import Verif.Props.Loopback
import Verif.Props.Options

/-!
# Properties of the number of repetitions (C92)
-/

namespace Ef.Props

open Ef Ef.Spec

/-! ## C92: `tx IF rep N FRAME` -/

/-- The words before the frame that request `n` transmissions on interface `a`. -/
inductive TxWords (a : CStr) : List CStr → Nat → Prop
  | once : TxWords a [c!"tx", a] 1
  | rep {w k : CStr} {n : Nat} : w = c!"rep" ∨ w = c!"repeat" → Numeral 10 k n → n < 2 ^ 31 → TxWords a [c!"tx", a, w, k] n

theorem TxWords.head {a : CStr} {hd : List CStr} {n : Nat} (h : TxWords a hd n) (hp : Bool) :
    Head hp hd { type := .tx, arg0 := some a, rep := n } := by
  cases h with
  | once => exact .tx a
  | @rep w k n hw hk hn =>
    have := Head.txRep (hasPcap := hp) a w k hw
    rw [atoi_numeral hk hn] at this
    have e : ((n : Int) % 2 ^ 32).toNat = n := by omega
    rw [e] at this
    exact this

/-- **C92.** `tx IF rep N FRAME` transmits the frame exactly `N` times, for every decimal number `N` from 1 to 2^31 - 1,
and `tx IF FRAME` once, provided that no transmission fails and the interface is ready for transmission at least once
before the deadline; the tool reports no errors. -/
theorem C92_repetitions (w : World) (ms : Int) (caps : List CStr) (a : CStr) (hd ws : List CStr) (f : Frame) (b : Buf)
    (m : Option Buf) (n : Nat) (r : RunRes) (k : Int) (ht : TxWords a hd n) (hn : 1 ≤ n) (hf : FrameWords ws f b m)
    (hlen : (hd ++ ws).length ≤ 101) (ho : w.env.canOpen a = true) (h : argcCmds w ms caps (hd ++ ws) = .ok r)
    (hk : r.ret = some k) (hs : ∀ e ∈ r.events, ifaceOf e = some a → sendOk e = true) (hch : 1 ≤ chances w ms) :
    r.events.filterMap (sentOn a) = List.replicate n b ∧ k = 0 := by
  let c : Cmd := { type := .tx, arg0 := some a, rep := n, frame := some f, buf := some b, mask := m }
  have hn31 : n < 2 ^ 31 := by
    cases ht with
    | once => decide
    | rep _ _ h => exact h
  have hparse : ∀ hp, parseCmds hp (hd ++ ws) = .ok (some [c]) := by
    intro hp
    have hc : Command hp (hd ++ ws) c := Command.frame (ht.head hp) hf
    have := C52_commands_partial hp [(hd ++ ws, c)] (by simpa using hc) trivial (by simpa [allWords] using hlen)
    simpa [allWords] using this
  unfold argcCmds at h
  rw [hparse] at h
  simp only [Out.ok_bind, Out.bind_eq_ok] at h
  obtain ⟨r0, h0, h⟩ := h
  simp only [Out.ok.injEq] at h
  subst h
  simp only at hk hs ⊢
  have hif : ifaces [c] = [a] := by
    simp [ifaces, ioIface, firsts, c]
  have hr : Ready [c] := by
    refine ⟨?_, ?_, by rw [hif]; simp⟩
    · intro x hx
      rw [List.mem_singleton] at hx; subst hx; rfl
    · intro x hx _
      rw [List.mem_singleton] at hx; subst hx; rfl
  have hres := resolve_framed (all := [c]) (c := c) rfl
  have hu : ∀ x ∈ [c], unresolved [c] x = false := by
    intro x hx
    rw [List.mem_singleton] at hx; subst hx; exact hres.2
  have hon : onSocket a [c] = [c] := by
    unfold onSocket
    rw [List.map_singleton, hres.1]
    simp [cmdsOn, ioIface, c]
  have hopen : ∀ x ∈ ifaces [c], w.env.canOpen x = true := by
    rw [hif]
    intro x hx
    rw [List.mem_singleton] at hx; subst hx; exact ho
  obtain ⟨hnf, hfin⟩ := C57_error_count { w.env with timeoutMs := ms } _ r0 hr hu hopen h0
  have hst : r0.status = .finished := by
    by_cases hs : r0.status = .finished
    · exact hs
    · rw [hnf hs] at hk
      simp at hk
  have hrx : ∀ x ∈ onSocket a [c], x.type ≠ .rx := by
    rw [hon]
    intro x hx
    rw [List.mem_singleton] at hx; subst hx; exact CmdType.noConfusion
  constructor
  · have := (C89_sent_in_time { w.env with timeoutMs := ms } _ r0 0 a hr ?_ hu hopen h0
      (by rw [hst]; exact LoopEnd.noConfusion) (by rw [hif]; rfl) hs ?_).2 hrx
    · rw [this, hon]
      simp [requested, c]
    · intro x hx _
      rw [List.mem_singleton] at hx; subst hx
      exact ⟨hn, by show n < 2 ^ 32; omega⟩
    · rw [hon]
      exact hch
  · obtain ⟨_, l, out, _, hcred, hsum⟩ := hfin hst
    have hc0 := hcred 0 a (by rw [hif]; rfl)
    have hout : out 0 = [] := by
      have := hc0.len
      unfold heard at this
      rw [if_neg (by
        rw [List.any_eq_true]
        rintro ⟨x, hx, hxt⟩
        exact hrx x hx (by simpa using hxt))] at this
      exact List.length_eq_zero_iff.mp this
    have hs2 : some k = some ((((ifaces [c]).zipIdx.map (fun p => (out p.2).count none +
        (uncredited (onSocket p.1 [c]) (out p.2)).length)).sum : Nat) : Int) := hk.symm.trans hsum
    rw [Option.some.inj hs2, hif]
    simp only [List.zipIdx_cons, List.zipIdx_nil, List.map_cons, List.map_nil, List.sum_cons, List.sum_nil, hon, hout]
    simp [uncredited, c]

/-- Non-vacuity: `tx a rep 3 eth` and `tx a repeat 007 eth`. -/
example : let r := fun l => toolResult (cable []) l
    (argcCmds (cable []) 100 [] [c!"tx", c!"a", c!"rep", c!"3", c!"eth"]).get?.isSome = true ∧
    (r [c!"tx", c!"a", c!"rep", c!"3", c!"eth"]).events.filterMap (sentOn c!"a") = List.replicate 3 ethBytes ∧
    (r [c!"tx", c!"a", c!"rep", c!"3", c!"eth"]).ret = some 0 ∧ chances (cable []) 100 = 1 ∧
    (∀ e ∈ (r [c!"tx", c!"a", c!"rep", c!"3", c!"eth"]).events, ifaceOf e = some c!"a" → sendOk e = true) ∧
    (r [c!"tx", c!"a", c!"repeat", c!"007", c!"eth"]).events.filterMap (sentOn c!"a") = List.replicate 7 ethBytes := by
  decide +kernel

example : TxWords c!"a" [c!"tx", c!"a", c!"rep", c!"10"] 10 :=
  .rep (.inl rfl) (.snoc c!"1" 1 _ 0 (.snoc [] 0 _ 1 .nil (.dec 1 (by decide)) (by decide)) (.dec 0 (by decide)) (by decide))
    (by decide)

end Ef.Props
