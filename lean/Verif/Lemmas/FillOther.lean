import Verif.Lemmas.FillLayout
import Verif.Lemmas.Values
import Verif.Lemmas.Placed

/-! # Fields the default computation leaves alone, and their bits in the frame -/

namespace Ef

open Spec Props

/-- Names of the fields a default computation may set. -/
def fillNames : Fill → List CStr
  | .none => []
  | .etherType => [c!"et"]
  | .ipv4 => [c!"proto", c!"len", c!"chksum"]
  | .ipv6 => [c!"next", c!"len"]
  | .udpTcp => [c!"len", c!"chksum"]
  | .icmp => [c!"chksum"]
  | .igmp => [c!"chksum"]
  | .mld => [c!"chksum"]
  | .sv => []
  | .coap => [c!"tkl"]
  | .coapOpt => [c!"num"]
  | .ptp => [c!"hdr-messageLength"]
  | .ptpTlv => [c!"tlv-length"]

/-- Results have the value of `h` in the field `n`. -/
def SameAt (n : CStr) (h : Hdr) (x : Out Hdr) : Prop := ∀ y, x = .ok y → given y n = given h n

theorem SameAt.pure {n : CStr} {h y : Hdr} (e : given y n = given h n) : SameAt n h (.ok y) := by
  intro z hz; cases hz; exact e

theorem SameAt.bind {α : Type} {n : CStr} {h : Hdr} {x : Out α} {k : α → Out Hdr} (hk : ∀ a, SameAt n h (k a)) : SameAt n h (x >>= k) := by
  intro y hy
  rw [Out.bind_eq_ok] at hy
  obtain ⟨a, _, h2⟩ := hy
  exact hk a y h2

theorem SameAt.seq {n : CStr} {h : Hdr} {x : Out Hdr} {k : Hdr → Out Hdr} (hx : SameAt n h x) (hk : ∀ a, SameAt n a (k a)) :
    SameAt n h (x >>= k) := by
  intro y hy
  rw [Out.bind_eq_ok] at hy
  obtain ⟨a, h1, h2⟩ := hy
  rw [hk a y h2, hx a h1]

theorem SameAt.ite {n : CStr} {h : Hdr} {c : Prop} [Decidable c] {x y : Out Hdr} (hx : SameAt n h x) (hy : SameAt n h y) :
    SameAt n h (if c then x else y) := by
  split
  · exact hx
  · exact hy

theorem SameAt.set {n m : CStr} (hnm : n ≠ m) {h : Hdr} {v : Option Buf} : SameAt n h (.ok (setVal h m v)) :=
  SameAt.pure (given_setVal_other _ _ hnm)

theorem SameAt.same {n : CStr} {h : Hdr} : SameAt n h (.ok h) := SameAt.pure rfl

theorem fillHdr_other {below above : List Hdr} {x : Hdr} (hr : ¬ Reshapes x.fill) {n : CStr} (hn : n ∉ fillNames x.fill) :
    SameAt n x (fillHdr below x above) := by
  unfold Reshapes at hr
  unfold fillHdr
  split
  · exact SameAt.same
  · rename_i e
    rw [e] at hn
    simp only [fillNames, List.mem_cons, List.not_mem_nil, or_false, not_or] at hn
    unfold fillEtherType
    refine SameAt.bind fun _ => SameAt.ite SameAt.same ?_
    split
    · exact SameAt.bind fun _ => SameAt.set hn
    · exact SameAt.same
  · rename_i e
    rw [e] at hn
    simp only [fillNames, List.mem_cons, List.not_mem_nil, or_false, not_or] at hn
    unfold fillIpv4
    refine SameAt.seq ?_ fun a => SameAt.seq ?_ fun a => ?_
    · exact SameAt.bind fun _ => SameAt.ite SameAt.same (SameAt.bind fun _ => SameAt.set hn.1)
    · exact SameAt.bind fun _ => SameAt.ite SameAt.same (SameAt.bind fun _ => SameAt.set hn.2.1)
    · exact SameAt.bind fun _ => SameAt.ite SameAt.same (SameAt.bind fun _ => SameAt.bind fun _ => SameAt.set hn.2.2)
  · rename_i e
    rw [e] at hn
    simp only [fillNames, List.mem_cons, List.not_mem_nil, or_false, not_or] at hn
    unfold fillIpv6
    refine SameAt.seq ?_ fun a => ?_
    · exact SameAt.bind fun _ => SameAt.ite SameAt.same (SameAt.bind fun _ => SameAt.set hn.1)
    · exact SameAt.bind fun _ => SameAt.ite SameAt.same (SameAt.bind fun _ => SameAt.set hn.2)
  · rename_i e
    rw [e] at hn
    simp only [fillNames, List.mem_cons, List.not_mem_nil, or_false, not_or] at hn
    unfold fillUdpTcp
    refine SameAt.seq ?_ fun a => ?_
    · unfold fillUdpLen
      split
      · exact SameAt.same
      · exact SameAt.ite SameAt.same (SameAt.bind fun _ => SameAt.set hn.1)
    · refine SameAt.bind fun _ => SameAt.ite SameAt.same ?_
      split
      · exact SameAt.same
      · split
        · exact SameAt.same
        · exact SameAt.bind fun _ => SameAt.bind fun _ => SameAt.bind fun _ => SameAt.bind fun _ => SameAt.set hn.2
  · rename_i e
    rw [e] at hn
    simp only [fillNames, List.mem_cons, List.not_mem_nil, or_false, not_or] at hn
    unfold fillIcmp
    refine SameAt.bind fun _ => SameAt.ite SameAt.same ?_
    simp only
    split
    · exact SameAt.bind fun _ => SameAt.bind fun _ => SameAt.bind fun _ => SameAt.bind fun _ =>
        SameAt.pure (by rw [given_setVal_other _ _ hn]; rfl)
    · exact SameAt.bind fun _ => SameAt.bind fun _ => SameAt.set hn
  · rename_i h; simp [h] at hr
  · rename_i h; simp [h] at hr
  · rename_i h; simp [h] at hr
  · rename_i e
    rw [e] at hn
    simp only [fillNames, List.mem_cons, List.not_mem_nil, or_false, not_or] at hn
    unfold fillCoap
    refine SameAt.bind fun _ => SameAt.bind fun _ => SameAt.ite SameAt.same (SameAt.ite SameAt.same ?_)
    split
    · intro y hy; cases hy
    · exact SameAt.bind fun _ => SameAt.set hn
  · rename_i h; simp [h] at hr
  · rename_i e
    rw [e] at hn
    simp only [fillNames, List.mem_cons, List.not_mem_nil, or_false, not_or] at hn
    unfold fillPtp
    split
    · exact SameAt.same
    · exact SameAt.ite SameAt.same (SameAt.bind fun _ => SameAt.set hn)
  · rename_i e
    rw [e] at hn
    simp only [fillNames, List.mem_cons, List.not_mem_nil, or_false, not_or] at hn
    unfold fillPtpTlv
    split
    · exact SameAt.same
    · exact SameAt.ite SameAt.same (SameAt.bind fun _ => SameAt.set hn)

theorem core_of_inst {t x : Hdr} (hi : Inst t x) : SameCore t x := by
  unfold SameCore
  have : ∀ (ts hs : List Field), AllRel FieldInst ts hs → hs.map core = ts.map core := by
    intro ts hs h
    induction h with
    | nil => rfl
    | cons hr _ ih =>
      simp only [List.map_cons, ih, List.cons.injEq, and_true]
      rw [hr.eq]
      rfl
  exact this _ _ hi.fields

/-- The bits of a field of a header inside the frame, whatever its value. -/
theorem field_on_wire {argv : List CStr} {f f' : Frame} {b : Buf} (h : Sent argv f f' b) {pre post pre' post' : List Hdr} {x x' : Hdr}
    (ha : At f f' pre x post pre' x' post') {t : Hdr} (hi : Inst t x) (hfill : ¬ Reshapes x.fill) {n : CStr} {ft : Field}
    {l1 l2 : List Field} (hs : Sep t n ft l1 l2) (hin : ft.offset + ft.width ≤ 8 * t.size)
    (hz : given x' n = none → ft.dflt = none → ∀ y ∈ pre, Tame y) :
    numAt b (8 * totalSize pre' + ft.offset) ft.width = numOf ft (given x' n) := by
  have hp := h.place ha
  have hlay : lay x' = lay x := fillHdr_lay hfill x' hp.filled
  have hsz : x'.size = t.size := by rw [← hi.size]; exact congrArg (fun q => q.2.1) hlay
  have hcf : x'.fields.map core = t.fields.map core := by
    have := congrArg (fun q => q.2.2.2.2.map core) hlay
    simp only [lay, List.map_map] at this
    rw [show (core ∘ fun f : Field => { f with val := none }) = core from rfl] at this
    rw [this]; exact core_of_inst hi
  rw [hs.split, List.map_append, List.map_cons] at hcf
  obtain ⟨m1, m2', e1, e2, e3⟩ := List.map_eq_append_iff.mp hcf
  obtain ⟨g, m2, rfl, e4, e5⟩ := List.map_eq_cons_iff.mp e3
  have q1 : g.name = ft.name := by have := congrArg Field.name e4; exact this
  have q2 : g.offset = ft.offset := by have := congrArg Field.offset e4; exact this
  have q3 : g.width = ft.width := by have := congrArg Field.width e4; exact this
  have q4 : g.dflt = ft.dflt := by have := congrArg Field.dflt e4; exact this
  have hback : ∀ {ms ls : List Field}, ms.map core = ls.map core → ∀ k ∈ ms, ∃ k' ∈ ls, k'.name = k.name ∧ k'.offset = k.offset ∧
      k'.width = k.width := by
    intro ms ls e k hk
    have : core k ∈ ms.map core := List.mem_map.mpr ⟨k, hk, rfl⟩
    rw [e] at this
    obtain ⟨k', hk', ek⟩ := List.mem_map.mp this
    refine ⟨k', hk', ?_, ?_, ?_⟩
    · have := congrArg Field.name ek; exact this
    · have := congrArg Field.offset ek; exact this
    · have := congrArg Field.width ek; exact this
  have hfirst : findField x' n = some g := by
    unfold findField
    rw [e1]
    refine find_of_split (q1.trans hs.name) (fun k hk => ?_)
    obtain ⟨k', hk', en, _, _⟩ := hback e2 k hk
    rw [← en]; exact hs.fresh k' hk'
  have hgv : given x' n = g.val := by
    have : given x' n = (findField x' n).bind (·.val) := rfl
    rw [this, hfirst]; rfl
  have hafter : ∀ k ∈ m2, ∀ i, ¬ (covers g i ∧ covers k i) := by
    intro k hk i hcov
    obtain ⟨k', hk', _, eo, ew⟩ := hback e5 k hk
    have := hs.after k' hk'
    unfold covers at hcov
    omega
  have hbefore : ∀ k ∈ m1, ∀ i, ¬ (covers g i ∧ covers k i) := by
    intro k hk i hcov
    obtain ⟨k', hk', _, eo, ew⟩ := hback e2 k hk
    have := hs.before k' hk'
    unfold covers at hcov
    omega
  obtain ⟨c1, c2⟩ := C17_values_appear f f' b h.bytes pre' post' x' ha.after (hp.fits (tame_still hp.inst hfill)) m1 m2 g e1
  unfold numOf
  rw [hgv, ← q4, ← q2, ← q3]
  have hfv : fieldValue g = g.val.or g.dflt := by unfold fieldValue; cases g.val <;> rfl
  cases hv : g.val.or g.dflt with
  | some v => exact c1 v (by rw [hfv, hv]) (fun k hk _ => hafter k hk)
  | none =>
    by_cases hw : g.width = 0
    · rw [hw]; unfold numAt; rfl
    · have hnn : g.val = none ∧ g.dflt = none := by
        cases hq : g.val with
        | some v => rw [hq] at hv; simp at hv
        | none => rw [hq] at hv; exact ⟨rfl, by simpa using hv⟩
      refine c2 (h.fitsBefore ha (hz (by rw [hgv, hnn.1]) (by rw [← q4, hnn.2]))) (by rw [hfv, hv]) (by rw [q2, q3, hsz]; exact hin) (fun k hk hkv i hcov => ?_)
      rw [e1] at hk
      rcases List.mem_append.mp hk with hk | hk
      · exact hbefore k hk i hcov
      · rcases List.mem_cons.mp hk with rfl | hk
        · rw [hfv, hv] at hkv; simp at hkv
        · exact hafter k hk i hcov

end Ef
