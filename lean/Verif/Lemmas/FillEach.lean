import Verif.Lemmas.HdrNum
import Verif.Lemmas.Chksum

/-! # What each default computation does to an instance of its template -/

namespace Ef

open Spec

/-- A header of sane size and type number. -/
structure Good (h : Hdr) : Prop where
  small : h.size < 2 ^ 51
  type : h.type < 2 ^ 32

/-- Not too many headers of sane size. -/
structure Goods (hs : List Hdr) : Prop where
  good : ∀ h ∈ hs, Good h
  len : hs.length ≤ 1000

theorem sumSizes_le {hs : List Hdr} (h : ∀ x ∈ hs, x.size < 2 ^ 51) : sumSizes hs ≤ hs.length * 2 ^ 51 := by
  induction hs with
  | nil => simp [sumSizes]
  | cons x hs ih =>
    have h1 := h x (by simp)
    have h2 := ih (fun y hy => h y (by simp [hy]))
    simp only [sumSizes, List.length_cons]
    omega

theorem Goods.sum {hs : List Hdr} (h : Goods hs) : sumSizes hs < 2 ^ 62 := by
  have := sumSizes_le (fun x hx => (h.good x hx).small)
  have := h.len
  omega

theorem Goods.sum' {x : Hdr} {hs : List Hdr} (h : Goods hs) (hx : x.size < 2 ^ 51) : sumSizes (x :: hs) < 2 ^ 63 := by
  have := h.sum
  simp only [sumSizes]
  omega

/-! ## Which template -/

theorem inst_of_fill {x : Hdr} (hx : IsInst x) (hf : x.fill ≠ .coap ∧ x.fill ≠ .coapOpt ∧ x.fill ≠ .none) :
    ∃ t ∈ hdrTmpls, t.fill = x.fill ∧ Inst t x ∧ x.type = t.type := by
  obtain ⟨t, ht, t', hv, hi, hty⟩ := hx
  have := hi.fill
  cases hv with
  | same => exact ⟨t, ht, this.symm, hi, hty⟩
  | coap => rw [this] at hf; simp [coapShape] at hf
  | pnet => rw [this] at hf; simp [pnetShape] at hf
  | opt => rw [this] at hf; simp [optShape] at hf
  | parms => rw [this] at hf; simp [parmsShape] at hf
  | data => rw [this] at hf; simp [dataShape] at hf

theorem inst_fits {x : Hdr} (hx : IsInst x) : HdrFits x ∧ HdrFitsMask x := by
  obtain ⟨t, ht, t', hv, hi, hty⟩ := hx
  exact ⟨hi.hdrFits (hv.fits ht), hi.hdrFitsMask (hv.fits ht)⟩

theorem tmpls_small : ∀ t ∈ hdrTmpls, t.size < 2 ^ 51 ∧ t.type < 2 ^ 32 := by decide +kernel

theorem inst_small {x : Hdr} (hx : IsInst x) : x.size < 2 ^ 51 ∧ x.type < 2 ^ 32 := by
  obtain ⟨t, ht, t', hv, hi, hty⟩ := hx
  have hs := tmpls_small t ht
  rw [hi.size, hty]
  refine ⟨?_, hs.2⟩
  cases hv with
  | same => exact hs.1
  | coap k h => simp only [coapShape]; omega
  | pnet k h => unfold maxVar at h; simp only [pnetShape]; omega
  | opt k m h1 h2 h3 => simp only [optShape]; omega
  | parms k h => unfold maxVar at h; simp only [parmsShape]; omega
  | data k h => unfold maxVar at h; simp only [dataShape]; omega

theorem inst_good {x : Hdr} (hx : IsInst x) : Good x := ⟨(inst_small hx).1, (inst_small hx).2⟩

theorem tmpl_by_name (n : CStr) (T : Hdr) (hn : ∀ t ∈ hdrTmpls, t.name = n → t = T)
    (hv : n ∉ [c!"coap", c!"profinet-rtc", c!"coap-opt", c!"coap-parms", c!"data"]) {x : Hdr} (hx : IsInst x)
    (h : x.name = n) : Inst T x ∧ x.type = T.type := by
  obtain ⟨t, ht, t', hv', hi, hty⟩ := hx
  have hnm := hi.name
  rw [h] at hnm
  cases hv' with
  | same => have := hn t ht hnm.symm; subst this; exact ⟨hi, hty⟩
  | coap => rw [hnm] at hv; simp [coapShape] at hv
  | pnet => rw [hnm] at hv; simp [pnetShape] at hv
  | opt => rw [hnm] at hv; simp [optShape] at hv
  | parms => rw [hnm] at hv; simp [parmsShape] at hv
  | data => rw [hnm] at hv; simp [dataShape] at hv

theorem inst_ipv4 {x : Hdr} (hx : IsInst x) (h : x.name = c!"ipv4") : Inst HDR_IPV4 x ∧ x.type = HDR_IPV4.type :=
  tmpl_by_name _ _ (by decide +kernel) (by decide +kernel) hx h

theorem inst_ipv6 {x : Hdr} (hx : IsInst x) (h : x.name = c!"ipv6") : Inst HDR_IPV6 x ∧ x.type = HDR_IPV6.type :=
  tmpl_by_name _ _ (by decide +kernel) (by decide +kernel) hx h

theorem inst_udp {x : Hdr} (hx : IsInst x) (h : x.name = c!"udp") : Inst HDR_UDP x ∧ x.type = HDR_UDP.type :=
  tmpl_by_name _ _ (by decide +kernel) (by decide +kernel) hx h

theorem inst_tcp {x : Hdr} (hx : IsInst x) (h : x.name = c!"tcp") : Inst HDR_TCP x ∧ x.type = HDR_TCP.type :=
  tmpl_by_name _ _ (by decide +kernel) (by decide +kernel) hx h

theorem inst_icmp {x : Hdr} (hx : IsInst x) (h : x.name = c!"icmp") : Inst HDR_ICMP x ∧ x.type = HDR_ICMP.type :=
  tmpl_by_name _ _ (by decide +kernel) (by decide +kernel) hx h

theorem inst_igmp {x : Hdr} (hx : IsInst x) (h : x.name = c!"igmp") : Inst HDR_IGMP x ∧ x.type = HDR_IGMP.type :=
  tmpl_by_name _ _ (by decide +kernel) (by decide +kernel) hx h

theorem inst_mld {x : Hdr} (hx : IsInst x) (h : x.name = c!"mld") : Inst HDR_MLD x ∧ x.type = HDR_MLD.type :=
  tmpl_by_name _ _ (by decide +kernel) (by decide +kernel) hx h

theorem inst_sv {x : Hdr} (hx : IsInst x) (h : x.name = c!"sv") : Inst HDR_SV x ∧ x.type = HDR_SV.type :=
  tmpl_by_name _ _ (by decide +kernel) (by decide +kernel) hx h

/-! ## Fields looked up -/

theorem look (t : Hdr) (n : CStr) (h : (findField t n).isSome = true) : ∃ ft, findField t n = some ft := by
  cases e : findField t n with
  | none => rw [e] at h; simp at h
  | some f => exact ⟨f, rfl⟩

theorem beBytes_len_ok {ft : Field} {k n : Nat} (h : ft.width ≤ 8 * k ∧ 8 * k ≤ ft.width + 7 + 128 * (1 - ft.width - varLen ft)) :
    ∀ x, some (beBytes k n) = some x → ft.width ≤ 8 * x.length ∧ 8 * x.length ≤ ft.width + 7 + 128 * (1 - ft.width - varLen ft) := by
  intro x hx
  cases hx
  rw [beBytes_length]; exact h

/-! ## Rendering -/

theorem copyHdr_zeros {h : Hdr} (hf : HdrFits h) : copyHdr false h 0 (balloc h.size) = .ok (hdrBytes h) := by
  have := copyHdr_ok false h [] [] hf.fits
  simpa [balloc, zeros, render_wire] using this

theorem copyHdrs_bytes {hs : List Hdr} (hf : ∀ h ∈ hs, HdrFits h) :
    copyHdrs false hs 0 (balloc (sumSizes hs)) = .ok ((hs.map hdrBytes).flatten) := by
  rw [copyHdrs_zeros false hs (fun h hh => (hf h hh).fits)]
  unfold renderAll
  congr 2
  exact List.map_congr_left (fun x _ => render_wire x)

theorem copyPseudo {p : Hdr} {hs : List Hdr} (hp : HdrFits p) (hf : ∀ h ∈ hs, HdrFits h) :
    (copyHdr false p 0 (balloc (sumSizes hs + p.size)) >>= fun b => copyHdrs false hs p.size b) =
      .ok (hdrBytes p ++ (hs.map hdrBytes).flatten) := by
  have h1 := copyHdr_ok false p [] (zeros (sumSizes hs)) hp.fits
  have e : balloc (sumSizes hs + p.size) = zeros p.size ++ zeros (sumSizes hs) := by
    rw [← zeros_append, Nat.add_comm]; rfl
  simp only [List.nil_append, List.length_nil] at h1
  rw [e, h1, Out.ok_bind]
  have h2 := copyHdrs_ok false hs (render false p) [] (fun h hh => (hf h hh).fits)
  rw [render_length, List.append_nil, List.append_nil] at h2
  rw [h2, render_wire]
  congr 3
  exact List.map_congr_left (fun x _ => render_wire x)

/-! ## Ethernet type -/

theorem fillEtherType_eq {t x : Hdr} {ft : Field} (hi : Inst t x) (hf : findField t c!"et" = some ft)
    (above : List Hdr) (ha : Goods above) :
    fillEtherType x above = .ok (match above with
      | n :: _ => setDefault x c!"et" (some (beBytes 2 n.type))
      | [] => x) := by
  unfold fillEtherType
  cases above with
  | nil =>
    obtain ⟨fh, h1, _⟩ := hi.getField hf
    rw [h1]
    simp only [Out.ok_bind, ite_self]
  | cons n above =>
    have := (ha.good n (by simp)).type
    exact fill_one hi hf (fun _ => parseBytes_decStr n.type 2 (by omega) (by omega))

/-! ## IPv4 and IPv6 -/

/-- Protocol number of the next header, 17 if there is none. -/
def protoNum (above : List Hdr) : Nat :=
  match above with
  | n :: _ => n.type
  | [] => 17

theorem parse_nextProto (above : List Hdr) (ha : Goods above) :
    parseBytes (nextProto above) 1 = .ok (some (beBytes 1 (protoNum above))) := by
  cases above with
  | nil => decide +kernel
  | cons n above =>
    have := (ha.good n (by simp)).type
    exact parseBytes_decStr n.type 1 (by omega) (by omega)

/-- Length of the IPv4 header and what follows. -/
def ipv4Filled0 (x : Hdr) (above : List Hdr) : Hdr :=
  setDefault (setDefault x c!"proto" (some (beBytes 1 (protoNum above)))) c!"len"
    (some (beBytes 2 (sumSizes (x :: above))))

theorem ipv4Filled0_inst {x : Hdr} (hi : Inst HDR_IPV4 x) (above : List Hdr) : Inst HDR_IPV4 (ipv4Filled0 x above) := by
  obtain ⟨f1, h1⟩ := look HDR_IPV4 c!"proto" (by decide +kernel)
  obtain ⟨f2, h2⟩ := look HDR_IPV4 c!"len" (by decide +kernel)
  have w1 : f1.width = 8 := by
    have : (findField HDR_IPV4 c!"proto").map (·.width) = some 8 := by decide +kernel
    rw [h1] at this; simpa using this
  have w2 : f2.width = 16 := by
    have : (findField HDR_IPV4 c!"len").map (·.width) = some 16 := by decide +kernel
    rw [h2] at this; simpa using this
  exact (hi.setDefault h1 (beBytes_len_ok (by rw [w1]; omega))).setDefault h2 (beBytes_len_ok (by rw [w2]; omega))

theorem ipv4_tfits : TFits HDR_IPV4 := tmpls_fit _ (by decide +kernel)
theorem ipv6_tfits : TFits HDR_IPV6 := tmpls_fit _ (by decide +kernel)
theorem ipv4_disj : disjB HDR_IPV4 = true := by decide +kernel
theorem ipv6_disj : disjB HDR_IPV6 = true := by decide +kernel

theorem fillIpv4_eq {x : Hdr} (hi : Inst HDR_IPV4 x) (above : List Hdr) (ha : Goods above) :
    fillIpv4 x above = .ok (setDefault (ipv4Filled0 x above) c!"chksum"
      (some (beBytes 2 (inetChksum 0 (hdrBytes (ipv4Filled0 x above)))))) := by
  have hi0 := ipv4Filled0_inst hi above
  have hsz : x.size < 2 ^ 51 := by rw [hi.size]; decide +kernel
  obtain ⟨f1, h1⟩ := look HDR_IPV4 c!"proto" (by decide +kernel)
  obtain ⟨f2, h2⟩ := look HDR_IPV4 c!"len" (by decide +kernel)
  obtain ⟨f3, h3⟩ := look HDR_IPV4 c!"chksum" (by decide +kernel)
  have w1 : f1.width = 8 := by
    have : (findField HDR_IPV4 c!"proto").map (·.width) = some 8 := by decide +kernel
    rw [h1] at this; simpa using this
  have hi1 : Inst HDR_IPV4 (setDefault x c!"proto" (some (beBytes 1 (protoNum above)))) :=
    hi.setDefault h1 (beBytes_len_ok (by rw [w1]; omega))
  unfold fillIpv4
  have e1 : fillIpv4Proto x above = .ok (setDefault x c!"proto" (some (beBytes 1 (protoNum above)))) :=
    fill_one hi h1 (fun _ => parse_nextProto above ha)
  rw [e1, Out.ok_bind]
  have e2 : fillIpv4Len (setDefault x c!"proto" (some (beBytes 1 (protoNum above)))) above =
      .ok (ipv4Filled0 x above) := by
    refine fill_one hi1 h2 (fun _ => ?_)
    have : sumSizes (setDefault x c!"proto" (some (beBytes 1 (protoNum above))) :: above) = sumSizes (x :: above) := by
      simp only [sumSizes, setDefault_size]
    rw [this]
    exact parseBytes_decStr _ 2 (by omega) (by have := ha.sum' hsz; omega)
  rw [e2, Out.ok_bind]
  have hc := copyHdr_zeros (hi0.hdrFits ipv4_tfits)
  have h20 : (ipv4Filled0 x above).size = 20 := by rw [hi0.size]; decide +kernel
  rw [h20] at hc
  unfold fillIpv4Chksum
  rw [hc]
  refine fill_one (P := Out.ok (hdrBytes (ipv4Filled0 x above)) >>= fun b => parseBytes (decStr (inetChksum 0 b)) 2) hi0 h3 (fun _ => ?_)
  rw [Out.ok_bind]
  exact parseBytes_decStr _ 2 (by omega) (by have := inetChksum_lt 0 (hdrBytes (ipv4Filled0 x above)); omega)

/-- `ipv6` after the default computation. -/
def ipv6Filled (x : Hdr) (above : List Hdr) : Hdr :=
  setDefault (setDefault x c!"next" (some (beBytes 1 (protoNum above)))) c!"len" (some (beBytes 2 (sumSizes above)))

theorem width_of {t : Hdr} {n : CStr} {f : Field} {w : Nat} (hf : findField t n = some f)
    (h : (findField t n).map (·.width) = some w) : f.width = w := by
  rw [hf] at h; simpa using h

theorem offset_of {t : Hdr} {n : CStr} {f : Field} {w : Nat} (hf : findField t n = some f)
    (h : (findField t n).map (·.offset) = some w) : f.offset = w := by
  rw [hf] at h; simpa using h

theorem fillIpv6_eq {x : Hdr} (hi : Inst HDR_IPV6 x) (above : List Hdr) (ha : Goods above) :
    fillIpv6 x above = .ok (ipv6Filled x above) ∧ Inst HDR_IPV6 (ipv6Filled x above) := by
  obtain ⟨f1, h1⟩ := look HDR_IPV6 c!"next" (by decide +kernel)
  obtain ⟨f2, h2⟩ := look HDR_IPV6 c!"len" (by decide +kernel)
  have w1 : f1.width = 8 := width_of h1 (by decide +kernel)
  have w2 : f2.width = 16 := width_of h2 (by decide +kernel)
  have hi1 : Inst HDR_IPV6 (setDefault x c!"next" (some (beBytes 1 (protoNum above)))) :=
    hi.setDefault h1 (beBytes_len_ok (by rw [w1]; omega))
  constructor
  · unfold fillIpv6
    have e1 : fillIpv6Next x above = .ok (setDefault x c!"next" (some (beBytes 1 (protoNum above)))) :=
      fill_one hi h1 (fun _ => parse_nextProto above ha)
    rw [e1, Out.ok_bind]
    exact fill_one hi1 h2 (fun _ => parseBytes_decStr _ 2 (by omega) (by have := ha.sum; omega))
  · exact hi1.setDefault h2 (beBytes_len_ok (by rw [w2]; omega))

end Ef
