import Verif.Lemmas.FillStack
import Verif.Lemmas.HdrWords
import Verif.Lemmas.ParseSize

/-! # A `padding` header at the end of the stack -/

namespace Ef

open Spec Props

theorem pad_sum (hs : List Hdr) : sumSizes (hs ++ [HDR_PADDING]) = sumSizes hs := by
  induction hs with
  | nil => rfl
  | cons h hs ih => simp only [List.cons_append, sumSizes, ih]

theorem pad_copy (m : Bool) (hs : List Hdr) : ∀ (off : Nat) (b : Buf),
    copyHdrs m (hs ++ [HDR_PADDING]) off b = copyHdrs m hs off b := by
  induction hs with
  | nil => intro off b; rfl
  | cons h hs ih =>
    intro off b
    simp only [List.cons_append, copyHdrs]
    congr 1
    funext b'
    exact ih _ _

theorem pad_sum' (h : Hdr) (hs : List Hdr) : sumSizes (h :: (hs ++ [HDR_PADDING])) = sumSizes (h :: hs) := pad_sum (h :: hs)

theorem pad_copy' (m : Bool) (h : Hdr) (hs : List Hdr) (off : Nat) (b : Buf) :
    copyHdrs m (h :: (hs ++ [HDR_PADDING])) off b = copyHdrs m (h :: hs) off b := pad_copy m (h :: hs) off b

/-- The header does not compute the announcement of the header behind it. -/
def Quiet (x : Hdr) : Prop :=
  (x.fill = .etherType → given x c!"et" ≠ none) ∧ (x.fill = .ipv4 → given x c!"proto" ≠ none) ∧
    (x.fill = .ipv6 → given x c!"next" ≠ none)

theorem get_given {x : Hdr} {n : CStr} {f : Field} (h : getField x n = .ok f) (hg : given x n ≠ none) :
    f.val.isSome = true := by
  rw [getField_given h] at hg
  cases e : f.val with
  | none => exact absurd e hg
  | some v => rfl

theorem getField_or (x : Hdr) (n : CStr) : (∃ f, getField x n = .ok f) ∨ ∃ u, getField x n = .ub u := by
  unfold getField
  split
  · exact Or.inl ⟨_, rfl⟩
  · exact Or.inr ⟨_, rfl⟩

theorem pad_etherType {x : Hdr} {hs : List Hdr} (hq : hs ≠ [] ∨ given x c!"et" ≠ none) :
    fillEtherType x (hs ++ [HDR_PADDING]) = fillEtherType x hs := by
  unfold fillEtherType
  rcases hq with h | h
  · obtain ⟨y, ys, rfl⟩ := List.exists_cons_of_ne_nil h
    rfl
  · rcases getField_or x c!"et" with ⟨f, e⟩ | ⟨u, e⟩
    · rw [e]
      simp only [Out.ok_bind, if_pos (get_given e h)]
    · rw [e]; rfl

theorem pad_proto4 {x : Hdr} {hs : List Hdr} (hq : hs ≠ [] ∨ given x c!"proto" ≠ none) :
    fillIpv4Proto x (hs ++ [HDR_PADDING]) = fillIpv4Proto x hs := by
  unfold fillIpv4Proto
  rcases hq with h | h
  · obtain ⟨y, ys, rfl⟩ := List.exists_cons_of_ne_nil h
    rfl
  · rcases getField_or x c!"proto" with ⟨f, e⟩ | ⟨u, e⟩
    · rw [e]
      simp only [Out.ok_bind, if_pos (get_given e h)]
    · rw [e]; rfl

theorem pad_next6 {x : Hdr} {hs : List Hdr} (hq : hs ≠ [] ∨ given x c!"next" ≠ none) :
    fillIpv6Next x (hs ++ [HDR_PADDING]) = fillIpv6Next x hs := by
  unfold fillIpv6Next
  rcases hq with h | h
  · obtain ⟨y, ys, rfl⟩ := List.exists_cons_of_ne_nil h
    rfl
  · rcases getField_or x c!"next" with ⟨f, e⟩ | ⟨u, e⟩
    · rw [e]
      simp only [Out.ok_bind, if_pos (get_given e h)]
    · rw [e]; rfl

theorem pad_fillHdr {below : List Hdr} {x : Hdr} {hs : List Hdr} (hq : hs ≠ [] ∨ Quiet x) :
    fillHdr below x (hs ++ [HDR_PADDING]) = fillHdr below x hs := by
  unfold fillHdr
  cases hf : x.fill with
  | none => rfl
  | etherType => exact pad_etherType (hq.imp id fun h => h.1 hf)
  | ipv4 =>
    simp only [fillIpv4, pad_proto4 (hq.imp id fun h => h.2.1 hf), fillIpv4Len, pad_sum']
  | ipv6 =>
    simp only [fillIpv6, pad_next6 (hq.imp id fun h => h.2.2 hf), fillIpv6Len, pad_sum]
  | udpTcp => simp only [fillUdpTcp, fillUdpLen, fillUdpChksum, pad_sum', pad_copy']
  | icmp => simp only [fillIcmp, pad_sum', pad_copy']
  | igmp => simp only [fillIgmp, fillIgmpChksum, pad_sum', pad_copy']
  | mld => simp only [fillMld, fillMldChksum, pad_sum', pad_copy']
  | sv => rfl
  | coap => rfl
  | coapOpt => rfl
  | ptp => simp only [fillPtp, pad_sum']
  | ptpTlv => simp only [fillPtpTlv, pad_sum']

theorem pad_fillStack (hs : List Hdr) : ∀ {below hs' : List Hdr}, (∀ x, hs.getLast? = some x → Quiet x) →
    fillStack below hs = .ok hs' → fillStack below (hs ++ [HDR_PADDING]) = .ok (hs' ++ [HDR_PADDING]) := by
  induction hs with
  | nil =>
    intro below hs' _ h
    cases h
    rfl
  | cons x hs ih =>
    intro below hs' hq h
    unfold fillStack at h
    rw [Out.bind_eq_ok] at h
    obtain ⟨hs1, h1, h⟩ := h
    rw [Out.bind_eq_ok] at h
    obtain ⟨y, h2, h⟩ := h
    cases h
    rw [List.cons_append]
    unfold fillStack
    have hlast : hs ≠ [] → (x :: hs).getLast? = hs.getLast? := by
      intro hne
      obtain ⟨z, zs, rfl⟩ := List.exists_cons_of_ne_nil hne
      simp
    have hne1 : hs ≠ [] → hs1 ≠ [] := by
      rintro hne rfl
      obtain ⟨z, zs, rfl⟩ := List.exists_cons_of_ne_nil hne
      unfold fillStack at h1
      rw [Out.bind_eq_ok] at h1; obtain ⟨_, _, h1⟩ := h1
      rw [Out.bind_eq_ok] at h1; obtain ⟨_, _, h1⟩ := h1
      cases h1
    rw [ih (fun z hz => by
      by_cases hne : hs = []
      · subst hne; simp at hz
      · exact hq z (by rw [hlast hne]; exact hz)) h1, Out.ok_bind, pad_fillHdr ?_, h2]
    · rfl
    · by_cases hne : hs = []
      · exact Or.inr (hq x (by rw [hne]; rfl))
      · exact Or.inl (hne1 hne)

/-- The words `padding N` behind a frame. -/
theorem pad_words {ws : List CStr} {f0 : Frame} {s : CStr} {n : Nat} (hpre : argcFrame ws = .ok (some (ws.length, f0)))
    (hend : NotField f0 c!"padding") (hs : Literal s n) (hn : n < 2 ^ 32) (hl : ws.length + 2 ≤ frameStackMax) :
    argcFrame (ws ++ [c!"padding", s]) =
      .ok (some (ws.length + 2, ⟨f0.stack ++ [HDR_PADDING], u32ToInt n, f0.hasMask⟩)) := by
  have ht : HDR_PADDING ∈ hdrTmpls := by decide +kernel
  have hname : HDR_PADDING.name = c!"padding" := by decide +kernel
  unfold argcFrame at hpre ⊢
  rw [if_neg (by omega)] at hpre
  rw [if_neg (by simp only [List.length_append, List.length_cons, List.length_nil]; omega)]
  have hstk : f0.stack.length ≤ ws.length := by
    obtain ⟨_, _, _, _, l, e1, e2⟩ := afl_mono hpre
    rw [e1]
    simp only [List.nil_append]
    omega
  rw [afl_cont (cap := frameStackMax) (r := [c!"padding", s]) hpre (by omega) (by omega)
    (by simp only [List.length_append]; omega) ?_]
  · obtain ⟨hh, _, _, _⟩ := tmpl_words _ ht
    have hf := findTmpl_all _ ht
    rw [hname] at hh hf
    rw [List.length_cons, afl_step, if_neg hh, hf]
    simp only
    unfold pushHdr
    rw [if_pos (by omega), Out.ok_bind]
    have hr : runHdrParser (hdrCopy HDR_PADDING) f0.padding f0.hasMask [s] =
        .ok (some (1, HDR_PADDING, u32ToInt n, f0.hasMask)) := by
      unfold runHdrParser
      have : (hdrCopy HDR_PADDING).parser = .padding := rfl
      rw [this]
      simp only [paddingParser, parseUint32_literal hs hn, Out.ok_bind]
      rfl
    have hc : hdrCopy HDR_PADDING = HDR_PADDING := by decide +kernel
    rw [hc] at hr
    rw [hr, Out.ok_bind]
    simp only [List.drop_succ_cons, List.drop_zero]
    rw [afl_nil]
  · intro w tl e
    cases e
    have := endsLast_tmpl ht (f0 := f0) (by rw [hname]; exact hend)
    rw [hname] at this
    exact this

end Ef
