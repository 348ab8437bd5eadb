import Verif.Lemmas.Defined
import Verif.Model.MldMsgs
import Verif.Spec.Mld

/-! # When and why `mld` ends the program -/

namespace Ef

open Spec

/-- The text for what is missing. -/
def lackMsg : Lack → MldMsg
  | .header => .noIpv6
  | .source => .sipNotSet
  | .destination => .dipNotSet

theorem lackMsg_text (nil : CStr) (r : Lack) : mldText nil (lackMsg r) = lackText nil r := by
  cases r with
  | header =>
    simp only [lackMsg, mldText, lackText, List.append_assoc]
    rfl
  | source => rfl
  | destination => rfl

theorem find_ipv6 (below : List Hdr) :
    below.find? (fun y => y.name == c!"ipv6") = below.find? (fun y => decide (y.name = c!"ipv6")) := by
  congr 1
  funext y
  by_cases h : y.name = c!"ipv6" <;> simp [h]

/-- A result or a failed assertion. -/
theorem Ends.noExit {α : Type} {x : Out α} (h : Ends False x) : (∃ a, x = .ok a) ∨ x = .abort := by
  rcases h with h | h | ⟨_, h⟩
  · exact Or.inl h
  · exact Or.inr h
  · exact h.elim

/-- The value of an address of an IPv6 header, seen by the test in `mld_fill_defaults`. -/
theorem mldUnset_eq {ip : Hdr} (hi : Inst HDR_IPV6 ip) (n : CStr) (hn : n = c!"sip" ∨ n = c!"dip") :
    ∃ g, findField ip n = some g ∧ mldUnset g = decide (given ip n = none) := by
  have hl : (findField HDR_IPV6 n).isSome = true ∧ (findField HDR_IPV6 n).map (·.width) = some 128 := by
    rcases hn with rfl | rfl <;> decide +kernel
  obtain ⟨ft, hft⟩ := look HDR_IPV6 n hl.1
  have w := width_of hft hl.2
  obtain ⟨g, _, h2, h3, h4⟩ := hi.getField hft
  refine ⟨g, h2, ?_⟩
  unfold mldUnset
  rw [h4]
  cases hv : given ip n with
  | none => simp
  | some a =>
    have hlen := h3.len a (by rw [h4, hv])
    rw [w] at hlen
    have hl16 : a.length = 16 := by omega
    simp [hl16]

theorem fillMld_exact {x : Hdr} (hi : Inst HDR_MLD x) (below above : List Hdr) (hb : ∀ y ∈ below, IsInst y)
    (hr : ∀ y ∈ above, Roomy y) :
    (∃ r, Stuck below x r ∧ fillMld below x above = .exit (-1) ∧ fillHdrMsgs below x = [lackMsg r]) ∨
    ((∀ r, ¬ Stuck below x r) ∧ fillHdrMsgs below x = [] ∧ Ends False (fillMld below x above)) := by
  obtain ⟨a1, a2, a3⟩ := mldAdj_inst hi
  have hname : x.name = c!"mld" := by rw [hi.name]; decide +kernel
  have hfill : x.fill = .mld := by rw [hi.fill]; decide +kernel
  have hchk : ∀ q r : Bool, (findField (mldShape q r) c!"chksum").map (·.width) = some 16 := by decide +kernel
  obtain ⟨fc, hfc, wfc⟩ := Option.map_eq_some_iff.mp (hchk (queryGiven x) (reportGiven x))
  obtain ⟨g, e1, e2, _, v1⟩ := a2.getField hfc
  have hm : fillHdrMsgs below x = mldChksumMsgs below (mldAdj x) := by
    unfold fillHdrMsgs
    rw [hfill]
    simp only
    rw [a1]
  have hf : fillMld below x above = fillMldChksum below (mldAdj x) above := by
    unfold fillMld
    have : (adjustQuery x >>= fun h => adjustReportMld h >>= fun h => fillMldChksum below h above) =
        ((adjustQuery x >>= adjustReportMld) >>= fun h => fillMldChksum below h above) := by rw [bind_assoc]
    rw [this, a1, Out.ok_bind]
  rw [hm, hf]
  unfold mldChksumMsgs fillMldChksum Stuck lack
  rw [e1, e2, Out.ok_bind]
  simp only
  rw [v1, a3]
  cases hc : given x c!"chksum" with
  | some v =>
    right
    refine ⟨fun r h => ?_, rfl, Ends.ok _⟩
    exact absurd h.2.1 (by simp)
  | none =>
    simp only [Option.isSome_none, Bool.false_eq_true, if_false]
    rw [find_ipv6]
    cases hl : below.find? (fun y => decide (y.name = c!"ipv6")) with
    | none =>
      left
      exact ⟨.header, ⟨hname, by simp⟩, rfl, rfl⟩
    | some ip =>
      have hmem := List.mem_of_find?_eq_some hl
      have hn : ip.name = c!"ipv6" := by simpa using List.find?_some hl
      have hip := (inst_ipv6 (hb ip hmem) hn).1
      obtain ⟨gs, s1, s2⟩ := mldUnset_eq hip c!"sip" (Or.inl rfl)
      obtain ⟨gd, d1, d2⟩ := mldUnset_eq hip c!"dip" (Or.inr rfl)
      simp only
      rw [mldAddr_eq (o := 8) hip c!"sip" (Or.inl ⟨rfl, rfl⟩), mldAddr_eq (o := 24) hip c!"dip" (Or.inr ⟨rfl, rfl⟩), s1, d1]
      simp only
      rw [s2, d2]
      cases hs : given ip c!"sip" with
      | none =>
        left
        refine ⟨.source, ⟨hname, by simp⟩, by simp, by simp [lackMsg]⟩
      | some sv =>
        cases hd : given ip c!"dip" with
        | none =>
          left
          refine ⟨.destination, ⟨hname, by simp⟩, by simp, by simp [lackMsg]⟩
        | some dv =>
          right
          refine ⟨fun r h => ?_, by simp, ?_⟩
          · have := h.2.2
            simp at this
          · simp only [Option.isSome_some, if_true]
            rw [Out.ok_bind, Out.ok_bind]
            refine (copyHdrs_ends False ?_ (by simp [balloc])).bind fun b2 _ => (hexChk _ _ _).bind fun v _ => Ends.ok _
            intro y hy
            rcases List.mem_cons.mp hy with rfl | hy
            · exact a2.roomy (mld_narrow _ _) (mld_room _ _)
            · exact hr y hy

/-- One header: it ends the program exactly if it is stuck, and then one text tells what is missing. -/
theorem fillHdr_exact {below above : List Hdr} {x : Hdr} (hb : ∀ y ∈ below, IsInst y) (ha : Goods above)
    (hr : ∀ y ∈ above, Roomy y) (hx : IsInst x) :
    (∃ r, Stuck below x r ∧ fillHdr below x above = .exit (-1) ∧ fillHdrMsgs below x = [lackMsg r]) ∨
    ((∀ r, ¬ Stuck below x r) ∧ fillHdrMsgs below x = [] ∧ Ends False (fillHdr below x above)) := by
  by_cases hn : x.name = c!"mld"
  · have hi := (inst_mld hx hn).1
    have hfill : x.fill = .mld := by rw [hi.fill]; decide +kernel
    have := fillMld_exact hi below above hb hr
    have e : fillHdr below x above = fillMld below x above := by
      unfold fillHdr
      rw [hfill]
    rw [e]; exact this
  · right
    refine ⟨fun r h => hn h.1, ?_, (fillHdr_ends hb ha hr hx).mono hn⟩
    unfold fillHdrMsgs
    split
    · rename_i hf
      obtain ⟨h3, _⟩ := tmpl_of_fill hx .mld HDR_MLD hf (by decide) (by decide +kernel)
      exact absurd (by rw [h3.name]; decide +kernel) hn
    · rfl

/-- All headers: the last stuck header ends the program with its text, unless an assertion fails behind it. -/
theorem fillStack_exact {below hs : List Hdr} (hb : ∀ y ∈ below, IsInst y) (hx : ∀ x ∈ hs, IsInst x) (hl : hs.length ≤ 1000) :
    (∃ pre x post r, hs = pre ++ x :: post ∧ Stuck (below ++ pre) x r ∧
      (∀ p y q s, post = p ++ y :: q → ¬ Stuck (below ++ pre ++ x :: p) y s) ∧
      fillStack below hs = .exit (-1) ∧ fillStackMsgs below hs = [lackMsg r]) ∨
    (fillStackMsgs below hs = [] ∧ fillStack below hs = .abort) ∨
    (fillStackMsgs below hs = [] ∧ (∃ hs', fillStack below hs = .ok hs') ∧
      ∀ pre x post r, hs = pre ++ x :: post → ¬ Stuck (below ++ pre) x r) := by
  induction hs generalizing below with
  | nil =>
    right; right
    exact ⟨rfl, ⟨[], rfl⟩, fun pre x post r h => by simp at h⟩
  | cons x hs ih =>
    have hx0 := hx x (by simp)
    have hb' : ∀ y ∈ below ++ [x], IsInst y := by
      intro y hy
      rcases List.mem_append.mp hy with h | h
      · exact hb y h
      · rw [List.mem_singleton] at h; subst h; exact hx0
    simp only [List.length_cons] at hl
    have hxs : ∀ y ∈ hs, IsInst y := fun y hy => hx y (by simp [hy])
    unfold fillStack fillStackMsgs
    rcases ih hb' hxs (by omega) with ⟨pre, z, post, r, e, s1, s2, f1, f2⟩ | ⟨f2, f1⟩ | ⟨f2, ⟨hs', f1⟩, s2⟩
    · left
      refine ⟨x :: pre, z, post, r, by rw [e]; rfl, ?_, ?_, ?_, ?_⟩
      · simpa using s1
      · intro p y q s hp
        have := s2 p y q s hp
        simpa using this
      · rw [f1]; rfl
      · rw [f1, f2]; rfl
    · right; left
      rw [f1, f2]
      exact ⟨rfl, rfl⟩
    · obtain ⟨e2, _, _⟩ := fillStack_any hb' hxs (by omega) f1
      rw [f1, f2, Out.ok_bind]
      simp only [List.nil_append]
      rcases fillHdr_exact hb e2 (fillStack_roomy hb' hxs (by omega) f1) hx0 with ⟨r, g1, g2, g3⟩ | ⟨g1, g2, g3⟩
      · left
        refine ⟨[], x, hs, r, rfl, by simpa using g1, ?_, by rw [g2]; rfl, g3⟩
        intro p y q s hp
        have := s2 p y q s hp
        simpa using this
      · rcases g3.noExit with ⟨y, g3⟩ | g3
        · right; right
          refine ⟨g2, ⟨y :: hs', by rw [g3]; rfl⟩, ?_⟩
          intro pre z post r e
          cases pre with
          | nil =>
            simp only [List.nil_append, List.cons.injEq] at e
            obtain ⟨rfl, rfl⟩ := e
            simpa using g1 r
          | cons w pre =>
            simp only [List.cons_append, List.cons.injEq] at e
            obtain ⟨rfl, e⟩ := e
            have := s2 pre z post r e
            simpa using this
        · right; left
          exact ⟨g2, by rw [g3]; rfl⟩

end Ef
