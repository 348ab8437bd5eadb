import Verif.Lemmas.FillEach

/-! # Pseudo headers, UDP, TCP, ICMP -/

namespace Ef

open Spec

theorem ps4_tfits : TFits HDR_IPV4_PSEUDO := tfitsB_iff (by decide +kernel)
theorem ps6_tfits : TFits HDR_IPV6_PSEUDO := tfitsB_iff (by decide +kernel)
theorem ps4_disj : disjB HDR_IPV4_PSEUDO = true := by decide +kernel
theorem ps6_disj : disjB HDR_IPV6_PSEUDO = true := by decide +kernel
theorem ps4_inst : Inst HDR_IPV4_PSEUDO HDR_IPV4_PSEUDO := Inst.refl (by decide +kernel)
theorem ps6_inst : Inst HDR_IPV6_PSEUDO HDR_IPV6_PSEUDO := Inst.refl (by decide +kernel)

theorem Inst.setVal {t h : Hdr} {n : CStr} {ft : Field} (hi : Inst t h) (hf : findField t n = some ft)
    {v : Option Buf} (hv : ∀ x, v = some x → ft.width ≤ 8 * x.length ∧ 8 * x.length ≤ ft.width + 7 + 128 * (1 - ft.width - varLen ft)) :
    Inst t (Ef.setVal h n v) := by
  refine hi.updFind n _ (fun ft' g hg hgi => ?_)
  rw [hf] at hg
  cases hg
  exact hgi.setVal' v hv

/-- The bytes of one field of a header, by name. -/
theorem Inst.bytes {t x : Hdr} (hi : Inst t x) (ht : TFits t) (hd : disjB t = true) {n : CStr} {ft : Field}
    (hft : findField t n = some ft) (k m : Nat) (hk : ft.offset = 8 * k) (hm : ft.width = 8 * m) :
    slice (hdrBytes x) k m = beBytes m (numOf ft (given x n)) := by
  have hin : ft.offset + ft.width ≤ 8 * x.size := by
    rw [hi.size]; exact (ht.inside ft (find_mem hft).1).1
  unfold slice
  rw [slice_eq _ _ _ (by rw [Props.hdrBytes_length]; omega), ← hk, ← hm, hi.num ht hd hft]

theorem numOf_same {f g : Field} (h1 : f.width = g.width) (h2 : f.dflt = g.dflt) (v : Option Buf) : numOf f v = numOf g v := by
  unfold numOf; rw [h1, h2]

theorem dflt_of {t : Hdr} {n : CStr} {f : Field} {w : Option Buf} (hf : findField t n = some f)
    (h : (findField t n).map (·.dflt) = some w) : f.dflt = w := by
  rw [hf] at h; simpa using h

theorem slice_append (b : Buf) (k m l : Nat) : slice b k (m + l) = slice b k m ++ slice b (k + m) l := by
  unfold slice
  rw [List.take_add, List.drop_drop]

theorem slice_all (b : Buf) : slice b 0 b.length = b := by simp [slice]

theorem slice_length (b : Buf) (k m : Nat) (h : k + m ≤ b.length) : (slice b k m).length = m := by
  unfold slice; rw [List.length_take, List.length_drop]; omega

theorem beBytes_mod (k n : Nat) : beBytes k (n % 256 ^ k) = beBytes k n := by
  have h1 := beBytes_beNat (beBytes k n)
  rw [beBytes_length, beNat_beBytes] at h1
  exact h1

theorem numOf_bytes (f : Field) (k n : Nat) (hw : f.width = 8 * k) :
    beBytes k (numOf f (some (beBytes k n))) = beBytes k n := by
  unfold numOf
  simp only [Option.or]
  rw [beNat_beBytes, hw, Nat.pow_mul]
  simp only [show (2 : Nat) ^ 8 = 256 from rfl, Nat.mod_mod]
  exact beBytes_mod k n

theorem findField_updField_width {h : Hdr} {n m : CStr} {v : Option Buf} {f : Field}
    (hf : findField h m = some f) : ∃ g, findField (setVal h n v) m = some g ∧ g.width = f.width ∧ g.offset = f.offset ∧ g.dflt = f.dflt := by
  by_cases hnm : m = n
  · subst hnm; exact ⟨_, findField_setVal hf v, rfl, rfl, rfl⟩
  · exact ⟨f, by rw [findField_setVal_other v hnm]; exact hf, rfl, rfl, rfl⟩

/-- The pseudo header over IPv4. -/
theorem fillPseudo4 {ll : Hdr} (hi : Inst HDR_IPV4 ll) {proto : CStr} {pn : Nat} (len : Nat)
    (hp : parseBytes proto 1 = .ok (some (beBytes 1 pn))) (hl : len < 2 ^ 63) :
    ∃ p, fillPseudo HDR_IPV4_PSEUDO ll proto len = .ok p ∧ p.size = 12 ∧ HdrFits p ∧
      hdrBytes p = pseudo4 (slice (hdrBytes ll) 12 4) (slice (hdrBytes ll) 16 4) pn len := by
  obtain ⟨fs, hs⟩ := look HDR_IPV4 c!"sip" (by decide +kernel)
  obtain ⟨fd, hd⟩ := look HDR_IPV4 c!"dip" (by decide +kernel)
  obtain ⟨ps, hps⟩ := look HDR_IPV4_PSEUDO c!"sip" (by decide +kernel)
  obtain ⟨pd, hpd⟩ := look HDR_IPV4_PSEUDO c!"dip" (by decide +kernel)
  obtain ⟨pz, hpz⟩ := look HDR_IPV4_PSEUDO c!"zero" (by decide +kernel)
  obtain ⟨pp, hpp⟩ := look HDR_IPV4_PSEUDO c!"proto" (by decide +kernel)
  obtain ⟨pl, hpl⟩ := look HDR_IPV4_PSEUDO c!"len" (by decide +kernel)
  obtain ⟨gs, e1, _, i1, v1⟩ := hi.getField hs
  obtain ⟨gd, e2, _, i2, v2⟩ := hi.getField hd
  have ws : fs.width = 32 := width_of hs (by decide +kernel)
  have wd : fd.width = 32 := width_of hd (by decide +kernel)
  have wps : ps.width = 32 := width_of hps (by decide +kernel)
  have wpd : pd.width = 32 := width_of hpd (by decide +kernel)
  have wpz : pz.width = 8 := width_of hpz (by decide +kernel)
  have wpp : pp.width = 8 := width_of hpp (by decide +kernel)
  have wpl : pl.width = 16 := width_of hpl (by decide +kernel)
  have L1 : ∀ x, given ll c!"sip" = some x → ps.width ≤ 8 * x.length ∧ 8 * x.length ≤ ps.width + 7 + 128 * (1 - ps.width - varLen ps) := by
    intro x hx; have := i1.len x (by rw [v1, hx]); rw [ws] at this; rw [wps]; omega
  have L2 : ∀ x, given ll c!"dip" = some x → pd.width ≤ 8 * x.length ∧ 8 * x.length ≤ pd.width + 7 + 128 * (1 - pd.width - varLen pd) := by
    intro x hx; have := i2.len x (by rw [v2, hx]); rw [wd] at this; rw [wpd]; omega
  have I1 := ps4_inst.setVal hps (v := given ll c!"sip") L1
  have I2 := I1.setVal hpd (v := given ll c!"dip") L2
  have I3 := I2.setVal hpp (v := some (beBytes 1 pn)) (beBytes_len_ok (by rw [wpp]; omega))
  have I4 := I3.setVal hpl (v := some (beBytes 2 len)) (beBytes_len_ok (by rw [wpl]; omega))
  refine ⟨_, ?_, by rw [I4.size]; decide +kernel, I4.hdrFits ps4_tfits, ?_⟩
  · unfold fillPseudo
    rw [e1, Out.ok_bind, e2, Out.ok_bind, v1, v2, bclone_eq, bclone_eq]
    simp only
    rw [hp, Out.ok_bind]
    obtain ⟨gl, e3, _, i3, _⟩ := I3.getField hpl
    rw [e3, Out.ok_bind, i3.width, wpl, parseBytes_decStr len (16 / 8) (by omega) (by omega), Out.ok_bind]
  · have hlen : (hdrBytes (setVal (setVal (setVal (setVal HDR_IPV4_PSEUDO c!"sip" (given ll c!"sip")) c!"dip"
        (given ll c!"dip")) c!"proto" (some (beBytes 1 pn))) c!"len" (some (beBytes 2 len)))).length = 12 := by
      rw [Props.hdrBytes_length, I4.size]; decide +kernel
    rw [← slice_all (hdrBytes _), hlen, show (12 : Nat) = 4 + (4 + (1 + (1 + 2))) from rfl, slice_append, slice_append,
      slice_append, slice_append]
    simp only [Nat.reduceAdd]
    rw [I4.bytes ps4_tfits ps4_disj hps 0 4 (offset_of hps (by decide +kernel)) wps,
      I4.bytes ps4_tfits ps4_disj hpd 4 4 (offset_of hpd (by decide +kernel)) wpd,
      I4.bytes ps4_tfits ps4_disj hpz 8 1 (offset_of hpz (by decide +kernel)) wpz,
      I4.bytes ps4_tfits ps4_disj hpp 9 1 (offset_of hpp (by decide +kernel)) wpp,
      I4.bytes ps4_tfits ps4_disj hpl 10 2 (offset_of hpl (by decide +kernel)) wpl,
      hi.bytes ipv4_tfits ipv4_disj hs 12 4 (offset_of hs (by decide +kernel)) ws,
      hi.bytes ipv4_tfits ipv4_disj hd 16 4 (offset_of hd (by decide +kernel)) wd]
    have G1 : given (setVal (setVal (setVal (setVal HDR_IPV4_PSEUDO c!"sip" (given ll c!"sip")) c!"dip"
        (given ll c!"dip")) c!"proto" (some (beBytes 1 pn))) c!"len" (some (beBytes 2 len))) c!"sip" = given ll c!"sip" := by
      rw [given_setVal_other _ _ (by decide), given_setVal_other _ _ (by decide), given_setVal_other _ _ (by decide),
        given_setVal hps]
    have G2 : given (setVal (setVal (setVal (setVal HDR_IPV4_PSEUDO c!"sip" (given ll c!"sip")) c!"dip"
        (given ll c!"dip")) c!"proto" (some (beBytes 1 pn))) c!"len" (some (beBytes 2 len))) c!"dip" = given ll c!"dip" := by
      obtain ⟨g, hg, _⟩ := I1.find' hpd
      rw [given_setVal_other _ _ (by decide), given_setVal_other _ _ (by decide), given_setVal hg]
    have G3 : given (setVal (setVal (setVal (setVal HDR_IPV4_PSEUDO c!"sip" (given ll c!"sip")) c!"dip"
        (given ll c!"dip")) c!"proto" (some (beBytes 1 pn))) c!"len" (some (beBytes 2 len))) c!"zero" = none := by
      rw [given_setVal_other _ _ (by decide), given_setVal_other _ _ (by decide), given_setVal_other _ _ (by decide),
        given_setVal_other _ _ (by decide)]
      decide +kernel
    have G4 : given (setVal (setVal (setVal (setVal HDR_IPV4_PSEUDO c!"sip" (given ll c!"sip")) c!"dip"
        (given ll c!"dip")) c!"proto" (some (beBytes 1 pn))) c!"len" (some (beBytes 2 len))) c!"proto" = some (beBytes 1 pn) := by
      obtain ⟨g, hg, _⟩ := I2.find' hpp
      rw [given_setVal_other _ _ (by decide), given_setVal hg]
    have G5 : given (setVal (setVal (setVal (setVal HDR_IPV4_PSEUDO c!"sip" (given ll c!"sip")) c!"dip"
        (given ll c!"dip")) c!"proto" (some (beBytes 1 pn))) c!"len" (some (beBytes 2 len))) c!"len" = some (beBytes 2 len) := by
      obtain ⟨g, hg, _⟩ := I3.find' hpl
      rw [given_setVal hg]
    rw [G1, G2, G3, G4, G5, numOf_bytes pp 1 pn wpp, numOf_bytes pl 2 len wpl,
      numOf_same (f := ps) (g := fs) (by rw [wps, ws]) (by
        rw [dflt_of hps (w := none) (by decide +kernel), dflt_of hs (w := none) (by decide +kernel)]),
      numOf_same (f := pd) (g := fd) (by rw [wpd, wd]) (by
        rw [dflt_of hpd (w := none) (by decide +kernel), dflt_of hd (w := none) (by decide +kernel)])]
    have Z : numOf pz none = 0 := by
      unfold numOf; rw [dflt_of hpz (w := none) (by decide +kernel)]; rfl
    rw [Z]
    simp [pseudo4, beBytes]

/-- The pseudo header over IPv6. -/
theorem fillPseudo6 {ll : Hdr} (hi : Inst HDR_IPV6 ll) {proto : CStr} {pn : Nat} (len : Nat)
    (hp : parseBytes proto 1 = .ok (some (beBytes 1 pn))) (hl : len < 2 ^ 63) :
    ∃ p, fillPseudo HDR_IPV6_PSEUDO ll proto len = .ok p ∧ p.size = 40 ∧ HdrFits p ∧
      hdrBytes p = pseudo6 (slice (hdrBytes ll) 8 16) (slice (hdrBytes ll) 24 16) pn len := by
  obtain ⟨fs, hs⟩ := look HDR_IPV6 c!"sip" (by decide +kernel)
  obtain ⟨fd, hd⟩ := look HDR_IPV6 c!"dip" (by decide +kernel)
  obtain ⟨ps, hps⟩ := look HDR_IPV6_PSEUDO c!"sip" (by decide +kernel)
  obtain ⟨pd, hpd⟩ := look HDR_IPV6_PSEUDO c!"dip" (by decide +kernel)
  obtain ⟨pz, hpz⟩ := look HDR_IPV6_PSEUDO c!"zero" (by decide +kernel)
  obtain ⟨pp, hpp⟩ := look HDR_IPV6_PSEUDO c!"proto" (by decide +kernel)
  obtain ⟨pl, hpl⟩ := look HDR_IPV6_PSEUDO c!"len" (by decide +kernel)
  obtain ⟨gs, e1, _, i1, v1⟩ := hi.getField hs
  obtain ⟨gd, e2, _, i2, v2⟩ := hi.getField hd
  have ws : fs.width = 128 := width_of hs (by decide +kernel)
  have wd : fd.width = 128 := width_of hd (by decide +kernel)
  have wps : ps.width = 128 := width_of hps (by decide +kernel)
  have wpd : pd.width = 128 := width_of hpd (by decide +kernel)
  have wpz : pz.width = 24 := width_of hpz (by decide +kernel)
  have wpp : pp.width = 8 := width_of hpp (by decide +kernel)
  have wpl : pl.width = 32 := width_of hpl (by decide +kernel)
  have L1 : ∀ x, given ll c!"sip" = some x → ps.width ≤ 8 * x.length ∧ 8 * x.length ≤ ps.width + 7 + 128 * (1 - ps.width - varLen ps) := by
    intro x hx; have := i1.len x (by rw [v1, hx]); rw [ws] at this; rw [wps]; omega
  have L2 : ∀ x, given ll c!"dip" = some x → pd.width ≤ 8 * x.length ∧ 8 * x.length ≤ pd.width + 7 + 128 * (1 - pd.width - varLen pd) := by
    intro x hx; have := i2.len x (by rw [v2, hx]); rw [wd] at this; rw [wpd]; omega
  have I1 := ps6_inst.setVal hps (v := given ll c!"sip") L1
  have I2 := I1.setVal hpd (v := given ll c!"dip") L2
  have I3 := I2.setVal hpp (v := some (beBytes 1 pn)) (beBytes_len_ok (by rw [wpp]; omega))
  have I4 := I3.setVal hpl (v := some (beBytes 4 len)) (beBytes_len_ok (by rw [wpl]; omega))
  refine ⟨_, ?_, by rw [I4.size]; decide +kernel, I4.hdrFits ps6_tfits, ?_⟩
  · unfold fillPseudo
    rw [e1, Out.ok_bind, e2, Out.ok_bind, v1, v2, bclone_eq, bclone_eq]
    simp only
    rw [hp, Out.ok_bind]
    obtain ⟨gl, e3, _, i3, _⟩ := I3.getField hpl
    rw [e3, Out.ok_bind, i3.width, wpl, parseBytes_decStr len (32 / 8) (by omega) (by omega), Out.ok_bind]
  · have hlen : (hdrBytes (setVal (setVal (setVal (setVal HDR_IPV6_PSEUDO c!"sip" (given ll c!"sip")) c!"dip"
        (given ll c!"dip")) c!"proto" (some (beBytes 1 pn))) c!"len" (some (beBytes 4 len)))).length = 40 := by
      rw [Props.hdrBytes_length, I4.size]; decide +kernel
    rw [← slice_all (hdrBytes _), hlen, show (40 : Nat) = 16 + (16 + (4 + (3 + 1))) from rfl, slice_append, slice_append,
      slice_append, slice_append]
    simp only [Nat.reduceAdd]
    rw [I4.bytes ps6_tfits ps6_disj hps 0 16 (offset_of hps (by decide +kernel)) wps,
      I4.bytes ps6_tfits ps6_disj hpd 16 16 (offset_of hpd (by decide +kernel)) wpd,
      I4.bytes ps6_tfits ps6_disj hpl 32 4 (offset_of hpl (by decide +kernel)) wpl,
      I4.bytes ps6_tfits ps6_disj hpz 36 3 (offset_of hpz (by decide +kernel)) wpz,
      I4.bytes ps6_tfits ps6_disj hpp 39 1 (offset_of hpp (by decide +kernel)) wpp,
      hi.bytes ipv6_tfits ipv6_disj hs 8 16 (offset_of hs (by decide +kernel)) ws,
      hi.bytes ipv6_tfits ipv6_disj hd 24 16 (offset_of hd (by decide +kernel)) wd]
    have G1 : given (setVal (setVal (setVal (setVal HDR_IPV6_PSEUDO c!"sip" (given ll c!"sip")) c!"dip"
        (given ll c!"dip")) c!"proto" (some (beBytes 1 pn))) c!"len" (some (beBytes 4 len))) c!"sip" = given ll c!"sip" := by
      rw [given_setVal_other _ _ (by decide), given_setVal_other _ _ (by decide), given_setVal_other _ _ (by decide),
        given_setVal hps]
    have G2 : given (setVal (setVal (setVal (setVal HDR_IPV6_PSEUDO c!"sip" (given ll c!"sip")) c!"dip"
        (given ll c!"dip")) c!"proto" (some (beBytes 1 pn))) c!"len" (some (beBytes 4 len))) c!"dip" = given ll c!"dip" := by
      obtain ⟨g, hg, _⟩ := I1.find' hpd
      rw [given_setVal_other _ _ (by decide), given_setVal_other _ _ (by decide), given_setVal hg]
    have G3 : given (setVal (setVal (setVal (setVal HDR_IPV6_PSEUDO c!"sip" (given ll c!"sip")) c!"dip"
        (given ll c!"dip")) c!"proto" (some (beBytes 1 pn))) c!"len" (some (beBytes 4 len))) c!"zero" = none := by
      rw [given_setVal_other _ _ (by decide), given_setVal_other _ _ (by decide), given_setVal_other _ _ (by decide),
        given_setVal_other _ _ (by decide)]
      decide +kernel
    have G4 : given (setVal (setVal (setVal (setVal HDR_IPV6_PSEUDO c!"sip" (given ll c!"sip")) c!"dip"
        (given ll c!"dip")) c!"proto" (some (beBytes 1 pn))) c!"len" (some (beBytes 4 len))) c!"proto" = some (beBytes 1 pn) := by
      obtain ⟨g, hg, _⟩ := I2.find' hpp
      rw [given_setVal_other _ _ (by decide), given_setVal hg]
    have G5 : given (setVal (setVal (setVal (setVal HDR_IPV6_PSEUDO c!"sip" (given ll c!"sip")) c!"dip"
        (given ll c!"dip")) c!"proto" (some (beBytes 1 pn))) c!"len" (some (beBytes 4 len))) c!"len" = some (beBytes 4 len) := by
      obtain ⟨g, hg, _⟩ := I3.find' hpl
      rw [given_setVal hg]
    rw [G1, G2, G3, G4, G5, numOf_bytes pp 1 pn wpp, numOf_bytes pl 4 len wpl,
      numOf_same (f := ps) (g := fs) (by rw [wps, ws]) (by
        rw [dflt_of hps (w := none) (by decide +kernel), dflt_of hs (w := none) (by decide +kernel)]),
      numOf_same (f := pd) (g := fd) (by rw [wpd, wd]) (by
        rw [dflt_of hpd (w := none) (by decide +kernel), dflt_of hd (w := none) (by decide +kernel)])]
    have Z : numOf pz none = 0 := by
      unfold numOf; rw [dflt_of hpz (w := none) (by decide +kernel)]; rfl
    rw [Z]
    simp [pseudo6, beBytes]

/-! ## UDP and TCP -/

/-- UDP and TCP after the length has been filled in (TCP has no such field). -/
def lenFilled (x : Hdr) (above : List Hdr) : Hdr :=
  match findField x c!"len" with
  | none => x
  | some _ => setDefault x c!"len" (some (beBytes 2 (sumSizes (x :: above))))

/-- The pseudo header used, if any, from the bytes of the header directly below. -/
def pseudoBytes (below : List Hdr) (proto len : Nat) : Option Buf :=
  match below.getLast? with
  | none => none
  | some ll =>
    if ll.name = c!"ipv4" then
      some (pseudo4 (slice (hdrBytes ll) 12 4) (slice (hdrBytes ll) 16 4) proto len)
    else if ll.name = c!"ipv6" then
      some (pseudo6 (slice (hdrBytes ll) 8 16) (slice (hdrBytes ll) 24 16) proto len)
    else none

/-- UDP and TCP after the default computation. -/
def udpFilled (below : List Hdr) (x : Hdr) (above : List Hdr) : Hdr :=
  match pseudoBytes below x.type (sumSizes (x :: above)) with
  | none => lenFilled x above
  | some pb => setDefault (lenFilled x above) c!"chksum"
      (some (beBytes 2 (inetChksum 0 (pb ++ ((lenFilled x above :: above).map hdrBytes).flatten))))

theorem lenFilled_size (x : Hdr) (above : List Hdr) : (lenFilled x above).size = x.size := by
  unfold lenFilled; split
  · rfl
  · exact setDefault_size _ _ _

theorem lenFilled_type (x : Hdr) (above : List Hdr) : (lenFilled x above).type = x.type := by
  unfold lenFilled; split
  · rfl
  · exact setDefault_type _ _ _

theorem fillUdpLen_eq {t x : Hdr} (hi : Inst t x) (hw : ∀ ft, findField t c!"len" = some ft → ft.width = 16)
    (hsz : x.size < 2 ^ 51) (above : List Hdr) (ha : Goods above) :
    fillUdpLen x above = .ok (lenFilled x above) ∧ Inst t (lenFilled x above) := by
  unfold fillUdpLen lenFilled
  cases h1 : findField x c!"len" with
  | none => exact ⟨rfl, hi⟩
  | some f =>
    obtain ⟨ft, hft, hfi⟩ := hi.find h1
    constructor
    · simp only
      unfold setDefault
      rw [given_eq, h1]
      simp only [Option.bind_some]
      split
      · rfl
      · rw [parseBytes_decStr _ 2 (by omega) (by have := ha.sum' hsz; omega), Out.ok_bind]
    · exact hi.setDefault hft (beBytes_len_ok (by rw [hw ft hft]; omega))

theorem fillUdpChksum_eq {t x : Hdr} {fc : Field} (hi : Inst t x) (ht : TFits t) (hfc : findField t c!"chksum" = some fc)
    (below above : List Hdr) (hb : ∀ y ∈ below, IsInst y) (ha : Goods above) (hfa : ∀ y ∈ above, HdrFits y) (hsz : x.size < 2 ^ 51)
    (hty : x.type < 2 ^ 32) :
    fillUdpChksum below x above = .ok (match pseudoBytes below x.type (sumSizes (x :: above)) with
      | none => x
      | some pb => setDefault x c!"chksum"
          (some (beBytes 2 (inetChksum 0 (pb ++ ((x :: above).map hdrBytes).flatten))))) := by
  have hfits : ∀ y ∈ x :: above, HdrFits y := by
    intro y hy
    rcases List.mem_cons.mp hy with rfl | hy
    · exact hi.hdrFits ht
    · exact hfa y hy
  have hlen := ha.sum' hsz
  obtain ⟨g, e1, _, _, v1⟩ := hi.getField hfc
  unfold fillUdpChksum pseudoBytes
  rw [e1, Out.ok_bind, v1]
  cases hl : below.getLast? with
  | none => simp only [ite_self]
  | some ll =>
    have hll : IsInst ll := hb ll (List.mem_of_getLast? hl)
    simp only
    unfold pseudoFor
    by_cases h4 : ll.name = c!"ipv4"
    · rw [if_pos h4, if_pos h4]
      simp only
      obtain ⟨p, p1, p2, p3, p4⟩ := fillPseudo4 (inst_ipv4 hll h4).1 (pn := x.type) (sumSizes (x :: above))
        (parseBytes_decStr x.type 1 (by omega) (by omega)) hlen
      unfold setDefault
      split
      · rfl
      · rw [p1, Out.ok_bind]
        have := copyPseudo (hs := x :: above) p3 hfits
        rw [p4] at this
        rw [← bind_assoc, this, Out.ok_bind, parseBytes_decStr _ 2 (by omega) (by
          have := inetChksum_lt 0 (pseudo4 (slice (hdrBytes ll) 12 4) (slice (hdrBytes ll) 16 4) x.type (sumSizes (x :: above)) ++
            ((x :: above).map hdrBytes).flatten); omega), Out.ok_bind]
    · rw [if_neg h4, if_neg h4]
      by_cases h6 : ll.name = c!"ipv6"
      · rw [if_pos h6, if_pos h6]
        simp only
        obtain ⟨p, p1, p2, p3, p4⟩ := fillPseudo6 (inst_ipv6 hll h6).1 (pn := x.type) (sumSizes (x :: above))
          (parseBytes_decStr x.type 1 (by omega) (by omega)) hlen
        unfold setDefault
        split
        · rfl
        · rw [p1, Out.ok_bind]
          have := copyPseudo (hs := x :: above) p3 hfits
          rw [p4] at this
          rw [← bind_assoc, this, Out.ok_bind, parseBytes_decStr _ 2 (by omega) (by
            have := inetChksum_lt 0 (pseudo6 (slice (hdrBytes ll) 8 16) (slice (hdrBytes ll) 24 16) x.type (sumSizes (x :: above)) ++
              ((x :: above).map hdrBytes).flatten); omega), Out.ok_bind]
      · rw [if_neg h6, if_neg h6]
        simp only [ite_self]

theorem udp_tfits : TFits HDR_UDP := tmpls_fit _ (by decide +kernel)
theorem tcp_tfits : TFits HDR_TCP := tmpls_fit _ (by decide +kernel)
theorem icmp_tfits : TFits HDR_ICMP := tmpls_fit _ (by decide +kernel)
theorem udp_disj : disjB HDR_UDP = true := by decide +kernel
theorem tcp_disj : disjB HDR_TCP = true := by decide +kernel
theorem icmp_disj : disjB HDR_ICMP = true := by decide +kernel

theorem fillUdpTcp_eq {t x : Hdr} (ht : t = HDR_UDP ∨ t = HDR_TCP) (hi : Inst t x) (hty : x.type = t.type)
    (below above : List Hdr) (hb : ∀ y ∈ below, IsInst y) (ha : Goods above) (hfa : ∀ y ∈ above, HdrFits y) :
    fillUdpTcp below x above = .ok (udpFilled below x above) ∧ Inst t (udpFilled below x above) := by
  have hsz : x.size < 2 ^ 51 := by rw [hi.size]; rcases ht with rfl | rfl <;> decide +kernel
  have htl : x.type < 2 ^ 32 := by rw [hty]; rcases ht with rfl | rfl <;> decide +kernel
  have hw : ∀ ft, findField t c!"len" = some ft → ft.width = 16 := by
    intro ft hft
    rcases ht with rfl | rfl
    · exact width_of hft (by decide +kernel)
    · have : findField HDR_TCP c!"len" = none := by decide +kernel
      rw [this] at hft; simp at hft
  have htf : TFits t := by rcases ht with rfl | rfl <;> first | exact udp_tfits | exact tcp_tfits
  obtain ⟨fc, hfc⟩ := look t c!"chksum" (by rcases ht with rfl | rfl <;> decide +kernel)
  have wfc : fc.width = 16 := width_of hfc (by rcases ht with rfl | rfl <;> decide +kernel)
  obtain ⟨e1, e2⟩ := fillUdpLen_eq hi hw hsz above ha
  constructor
  · unfold fillUdpTcp
    rw [e1, Out.ok_bind, fillUdpChksum_eq e2 htf hfc below above hb ha hfa (by rw [lenFilled_size]; exact hsz)
      (by rw [lenFilled_type]; exact htl)]
    unfold udpFilled
    have : sumSizes (lenFilled x above :: above) = sumSizes (x :: above) := by simp only [sumSizes, lenFilled_size]
    rw [lenFilled_type, this]
  · unfold udpFilled
    split
    · exact e2
    · exact e2.setDefault hfc (beBytes_len_ok (by rw [wfc]; omega))

/-! ## ICMP -/

/-- ICMP after the default computation. -/
def icmpFilled (below : List Hdr) (x : Hdr) (above : List Hdr) : Hdr :=
  if (given x c!"chksum").isSome then x
  else
    match ipv6Below below with
    | some ll => setVal { x with type := 58 } c!"chksum" (some (beBytes 2 (inetChksum 0
        (pseudo6 (slice (hdrBytes ll) 8 16) (slice (hdrBytes ll) 24 16) 58 (sumSizes (x :: above)) ++
          ((x :: above).map hdrBytes).flatten))))
    | none => setVal x c!"chksum" (some (beBytes 2 (inetChksum 0 ((x :: above).map hdrBytes).flatten)))

theorem Inst.setType {t x : Hdr} (hi : Inst t x) (n : Nat) : Inst t { x with type := n } :=
  ⟨hi.name, hi.size, hi.fill, hi.parser, hi.fields⟩

theorem ipv6Below_some {below : List Hdr} {ll : Hdr} (h : ipv6Below below = some ll) :
    below.getLast? = some ll ∧ ll.name = c!"ipv6" := by
  unfold ipv6Below at h
  cases hl : below.getLast? with
  | none => rw [hl] at h; simp at h
  | some l =>
    rw [hl] at h
    simp only at h
    split at h
    · rename_i hn
      cases h
      exact ⟨rfl, hn⟩
    · simp at h

theorem fillIcmp_eq {x : Hdr} (hi : Inst HDR_ICMP x) (below above : List Hdr) (hb : ∀ y ∈ below, IsInst y)
    (ha : Goods above) (hfa : ∀ y ∈ above, HdrFits y) :
    fillIcmp below x above = .ok (icmpFilled below x above) ∧ Inst HDR_ICMP (icmpFilled below x above) := by
  have hsz : x.size < 2 ^ 51 := by rw [hi.size]; decide +kernel
  obtain ⟨fc, hfc⟩ := look HDR_ICMP c!"chksum" (by decide +kernel)
  have wfc : fc.width = 16 := width_of hfc (by decide +kernel)
  have hlen := ha.sum' hsz
  have hfits : ∀ y ∈ x :: above, HdrFits y := by
    intro y hy
    rcases List.mem_cons.mp hy with rfl | hy
    · exact hi.hdrFits icmp_tfits
    · exact hfa y hy
  constructor
  · obtain ⟨g, e1, _, _, v1⟩ := hi.getField hfc
    unfold fillIcmp icmpFilled
    rw [e1, Out.ok_bind, v1]
    split
    · rfl
    · cases hl : ipv6Below below with
      | none =>
        simp only
        rw [copyHdrs_bytes hfits, Out.ok_bind, parseBytes_decStr _ 2 (by omega) (by
          have := inetChksum_lt 0 ((x :: above).map hdrBytes).flatten; omega), Out.ok_bind]
      | some ll =>
        obtain ⟨hl1, hl2⟩ := ipv6Below_some hl
        have hll : IsInst ll := hb ll (List.mem_of_getLast? hl1)
        obtain ⟨p, p1, p2, p3, p4⟩ := fillPseudo6 (inst_ipv6 hll hl2).1 (proto := c!"58") (pn := 58) (sumSizes (x :: above))
          (by decide +kernel) hlen
        simp only
        rw [p1, Out.ok_bind]
        have hfits' : ∀ y ∈ { x with type := 58 } :: above, HdrFits y := by
          intro y hy
          rcases List.mem_cons.mp hy with rfl | hy
          · exact (hi.setType 58).hdrFits icmp_tfits
          · exact hfa y hy
        have := copyPseudo (hs := { x with type := 58 } :: above) p3 hfits'
        have e : sumSizes ({ x with type := 58 } :: above) = sumSizes (x :: above) := rfl
        rw [p4, e] at this
        rw [← bind_assoc, this, Out.ok_bind, parseBytes_decStr _ 2 (by omega) (by
            have := inetChksum_lt 0 (pseudo6 (slice (hdrBytes ll) 8 16) (slice (hdrBytes ll) 24 16) 58 (sumSizes (x :: above)) ++
              (({ x with type := 58 } :: above).map hdrBytes).flatten); omega), Out.ok_bind]
        rfl
  · unfold icmpFilled
    split
    · exact hi
    · split
      · exact (hi.setType 58).setVal hfc (beBytes_len_ok (by rw [wfc]; omega))
      · exact hi.setVal hfc (beBytes_len_ok (by rw [wfc]; omega))

end Ef
