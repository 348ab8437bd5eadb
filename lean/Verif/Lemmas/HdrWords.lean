import Verif.Lemmas.Values

/-! # The header parsed from the words behind its name -/

namespace Ef

open Spec Props

theorem header_of_words {pre rest : List CStr} {f0 f : Frame} {t h : Hdr} {n k : Nat} {pad : Int} {m : Bool}
    (hpre : argcFrame pre = .ok (some (pre.length, f0))) (ht : t ∈ hdrTmpls) (hend : NotField f0 t.name)
    (hrun : runHdrParser t f0.padding f0.hasMask rest = .ok (some (n, h, pad, m)))
    (hf : argcFrame (pre ++ t.name :: rest) = .ok (some (k, f))) : f.stack[f0.stack.length]? = some h := by
  unfold argcFrame at hpre hf
  split at hf
  · simp at hf
  split at hpre
  · simp at hpre
  rename_i hlen _
  rw [afl_cont (cap := frameStackMax) (r := t.name :: rest) hpre (by omega) (by omega)
    (by simp only [List.length_append]; omega) ?_] at hf
  · obtain ⟨hh, _, _, _⟩ := tmpl_words t ht
    rw [List.length_cons, afl_step, if_neg hh, findTmpl_all t ht] at hf
    simp only at hf
    rw [Out.bind_eq_ok] at hf
    obtain ⟨_, _, hf⟩ := hf
    rw [hrun, Out.ok_bind] at hf
    simp only at hf
    obtain ⟨_, _, _, _, hs, q, _⟩ := afl_mono hf
    rw [q]; simp
  · intro w tl e
    cases e
    exact endsLast_tmpl ht hend

end Ef
