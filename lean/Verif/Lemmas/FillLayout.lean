import Verif.Lemmas.Built

/-! # The default computation changes values only, except for igmp, mld, sv and coap-opt -/

namespace Ef

open Spec

/-- Everything but the values and the type number. -/
def lay (h : Hdr) : CStr × Nat × Fill × HdrParser × List Field :=
  (h.name, h.size, h.fill, h.parser, h.fields.map (fun f => { f with val := none }))

theorem lay_setVal (h : Hdr) (n : CStr) (v : Option Buf) : lay (setVal h n v) = lay h := by
  unfold lay setVal updField
  simp only [Prod.mk.injEq, true_and]
  induction h.fields with
  | nil => rfl
  | cons f fs ih =>
    unfold updFirst
    split
    · simp
    · simp [ih]

theorem lay_type (h : Hdr) (k : Nat) : lay { h with type := k } = lay h := rfl

/-- Results have the layout of `h`. -/
def KeepsLay (h : Hdr) (x : Out Hdr) : Prop := ∀ y, x = .ok y → lay y = lay h

theorem KeepsLay.pure {h y : Hdr} (e : lay y = lay h) : KeepsLay h (.ok y) := by
  intro z hz; cases hz; exact e

theorem KeepsLay.bind {α : Type} {h : Hdr} {x : Out α} {k : α → Out Hdr} (hk : ∀ a, KeepsLay h (k a)) : KeepsLay h (x >>= k) := by
  intro y hy
  rw [Out.bind_eq_ok] at hy
  obtain ⟨a, _, h2⟩ := hy
  exact hk a y h2

theorem KeepsLay.seq {h : Hdr} {x : Out Hdr} {k : Hdr → Out Hdr} (hx : KeepsLay h x) (hk : ∀ a, KeepsLay a (k a)) :
    KeepsLay h (x >>= k) := by
  intro y hy
  rw [Out.bind_eq_ok] at hy
  obtain ⟨a, h1, h2⟩ := hy
  rw [hk a y h2, hx a h1]

theorem KeepsLay.ite {h : Hdr} {c : Prop} [Decidable c] {x y : Out Hdr} (hx : KeepsLay h x) (hy : KeepsLay h y) :
    KeepsLay h (if c then x else y) := by
  split
  · exact hx
  · exact hy

theorem KeepsLay.set {h : Hdr} {n : CStr} {v : Option Buf} : KeepsLay h (.ok (setVal h n v)) :=
  KeepsLay.pure (lay_setVal _ _ _)

theorem KeepsLay.same {h : Hdr} : KeepsLay h (.ok h) := KeepsLay.pure rfl

/-- The default computation changes the layout. -/
def Reshapes (k : Fill) : Prop := k = .igmp ∨ k = .mld ∨ k = .sv ∨ k = .coapOpt

instance (k : Fill) : Decidable (Reshapes k) := inferInstanceAs (Decidable (_ ∨ _))

theorem tame_still {x : Hdr} (hx : IsInst x) (hfill : ¬ Reshapes x.fill) : Tame x :=
  tame_of_fill hx (fun h => hfill (by rw [h]; simp [Reshapes])) (fun h => hfill (by rw [h]; simp [Reshapes]))

theorem fillHdr_lay {below above : List Hdr} {x : Hdr} (hr : ¬ Reshapes x.fill) : KeepsLay x (fillHdr below x above) := by
  unfold Reshapes at hr
  unfold fillHdr
  split
  · exact KeepsLay.same
  · unfold fillEtherType
    refine KeepsLay.bind fun _ => KeepsLay.ite KeepsLay.same ?_
    split
    · exact KeepsLay.bind fun _ => KeepsLay.set
    · exact KeepsLay.same
  · unfold fillIpv4
    refine KeepsLay.seq ?_ fun a => KeepsLay.seq ?_ fun a => ?_
    · exact KeepsLay.bind fun _ => KeepsLay.ite KeepsLay.same (KeepsLay.bind fun _ => KeepsLay.set)
    · exact KeepsLay.bind fun _ => KeepsLay.ite KeepsLay.same (KeepsLay.bind fun _ => KeepsLay.set)
    · exact KeepsLay.bind fun _ => KeepsLay.ite KeepsLay.same (KeepsLay.bind fun _ => KeepsLay.bind fun _ => KeepsLay.set)
  · unfold fillIpv6
    refine KeepsLay.seq ?_ fun a => ?_
    · exact KeepsLay.bind fun _ => KeepsLay.ite KeepsLay.same (KeepsLay.bind fun _ => KeepsLay.set)
    · exact KeepsLay.bind fun _ => KeepsLay.ite KeepsLay.same (KeepsLay.bind fun _ => KeepsLay.set)
  · unfold fillUdpTcp
    refine KeepsLay.seq ?_ fun a => ?_
    · unfold fillUdpLen
      split
      · exact KeepsLay.same
      · exact KeepsLay.ite KeepsLay.same (KeepsLay.bind fun _ => KeepsLay.set)
    · refine KeepsLay.bind fun _ => KeepsLay.ite KeepsLay.same ?_
      split
      · exact KeepsLay.same
      · split
        · exact KeepsLay.same
        · exact KeepsLay.bind fun _ => KeepsLay.bind fun _ => KeepsLay.bind fun _ => KeepsLay.bind fun _ => KeepsLay.set
  · unfold fillIcmp
    refine KeepsLay.bind fun _ => KeepsLay.ite KeepsLay.same ?_
    simp only
    split
    · exact KeepsLay.bind fun _ => KeepsLay.bind fun _ => KeepsLay.bind fun _ => KeepsLay.bind fun _ =>
        KeepsLay.pure (by rw [lay_setVal, lay_type])
    · exact KeepsLay.bind fun _ => KeepsLay.bind fun _ => KeepsLay.set
  · rename_i h; simp [h] at hr
  · rename_i h; simp [h] at hr
  · rename_i h; simp [h] at hr
  · unfold fillCoap
    refine KeepsLay.bind fun _ => KeepsLay.bind fun _ => KeepsLay.ite KeepsLay.same (KeepsLay.ite KeepsLay.same ?_)
    split
    · intro y hy; cases hy
    · exact KeepsLay.bind fun _ => KeepsLay.set
  · rename_i h; simp [h] at hr
  · unfold fillPtp
    split
    · exact KeepsLay.same
    · exact KeepsLay.ite KeepsLay.same (KeepsLay.bind fun _ => KeepsLay.set)
  · unfold fillPtpTlv
    split
    · exact KeepsLay.same
    · exact KeepsLay.ite KeepsLay.same (KeepsLay.bind fun _ => KeepsLay.set)

end Ef
