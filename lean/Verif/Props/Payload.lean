import Verif.Props.Coap
import Verif.Lemmas.HdrWords

/-!
# Properties C40, C71 and C72: payload segments in the bytes of the frame

`segs` are payload segments, each given by its words and its bytes (`Segment`).
-/

namespace Ef.Props

open Ef Spec

/-- The words of all segments. -/
def segsWords (segs : List (List CStr × Buf)) : List CStr := (segs.map (·.1)).flatten

/-- The bytes of all segments. -/
def segsBytes (segs : List (List CStr × Buf)) : Buf := (segs.map (·.2)).flatten

theorem segs_head {segs : List (List CStr × Buf)} (hs : ∀ p ∈ segs, Segment p.1 p.2) (hne : segs ≠ []) (rest : List CStr) :
    ∃ w r, segsWords segs ++ rest = w :: r ∧ w ≠ c!"help" ∧ isIgn w = false ∧ 2 ≤ (segsWords segs).length := by
  cases segs with
  | nil => exact absurd rfl hne
  | cons p ps =>
    have h := hs p (by simp)
    unfold segsWords
    obtain ⟨ws, bs⟩ := p
    simp only [List.map_cons, List.flatten_cons] at h ⊢
    have key : ∃ w r, ws = w :: r ∧ w ≠ c!"help" ∧ isIgn w = false ∧ 1 ≤ r.length := by
      cases h <;> exact ⟨_, _, rfl, by decide, by decide, by simp⟩
    obtain ⟨w, r, rfl, h1, h2, h3⟩ := key
    refine ⟨w, r ++ (List.map (fun x => x.1) ps).flatten ++ rest, by simp, h1, h2, ?_⟩
    simp only [List.length_append, List.length_cons]
    omega

/-- The bytes of a field in the frame. -/
theorem field_bytes {argv : List CStr} {f f' : Frame} {b : Buf} (h : Sent argv f f' b) {pre post pre' post' : List Hdr} {x x' : Hdr}
    (ha : At f f' pre x post pre' x' post') {t : Hdr} (hi : Inst t x') (ht : TFits t) (hd : disjB t = true) {n : CStr}
    {ft : Field} (hft : findField t n = some ft) {v : Buf} (hv : given x' n = some v) {o : Nat} (ho : ft.offset = 8 * o)
    (hw : ft.width = 8 * v.length) : slice b (totalSize pre' + o) v.length = v := by
  have e1 := h.num ha hi ht hd hft (fun hn => by rw [hv] at hn; cases hn)
  rw [hv] at e1
  simp only [numOf, Option.or] at e1
  have hlong := h.long ha
  have hin := (ht.inside ft (find_mem hft).1).1
  rw [hi.size] at hlong
  unfold slice
  rw [slice_eq b _ _ (by omega), show 8 * (totalSize pre' + o) = 8 * totalSize pre' + ft.offset by omega, ← hw, e1, hw,
    Nat.pow_mul, show 2 ^ 8 = 256 from rfl, beBytes_mod, beBytes_beNat]

/-! ## C71: the payload header -/

/-- `data` and its segments. -/
theorem data_header (pad : Int) (m : Bool) {segs : List (List CStr × Buf)} (hs : ∀ p ∈ segs, Segment p.1 p.2) (hne : segs ≠ [])
    {rest : List CStr} (hr : ∀ w ∈ rest.head?, w ∉ segmentWords) :
    runHdrParser HDR_PAYLOAD pad m (segsWords segs ++ rest) = .ok (some ((segsWords segs).length,
      { dataShape (segsBytes segs).length (segsBytes segs).length with
        fields := [{ name := c!"hex", width := (segsBytes segs).length * 8, offset := 0, val := some (segsBytes segs) }] }, pad, m)) := by
  have h1 := (C10_payload_concatenates segs hs).1 rest hr
  rw [if_neg hne] at h1
  have h2 : HDR_PAYLOAD.parser = .payload := rfl
  unfold runHdrParser
  rw [h2]
  simp only
  obtain ⟨_, _, _, _, _, h3⟩ := segs_head hs hne rest
  unfold payloadParser
  rw [show (segsWords segs ++ rest) = ((segs.map (·.1)).flatten ++ rest) from rfl, h1]
  simp only [Out.ok_bind]
  rw [if_neg (by unfold segsWords at h3; omega)]
  simp only [Out.ok_bind]
  rw [data_shape]
  rfl

theorem inst_data {x : Hdr} (hx : IsInst x) (hn : x.name = c!"data") : ∃ k s, TFits (dataShape k s) ∧ Inst (dataShape k s) x := by
  obtain ⟨t, ht', t', hv, hi, hty⟩ := hx
  have hnm := hi.name
  have hfit := Variant.fits ht' hv
  rw [hn] at hnm
  cases hv with
  | same =>
    have : ∀ t ∈ hdrTmpls, c!"data" = t.name → t = HDR_PAYLOAD := by decide +kernel
    have h2 := this t ht' hnm
    subst h2
    rw [data_shape] at hfit hi
    exact ⟨_, _, hfit, hi⟩
  | coap => simp [coapShape] at hnm
  | pnet => simp [pnetShape] at hnm
  | opt k m h1 h2 h3 => simp [optShape] at hnm
  | parms => simp [parmsShape] at hnm
  | data => exact ⟨_, _, hfit, hi⟩

/-- **C71**: the header `data` consists of the bytes its segments stand for, in order, and nothing else. -/
theorem C71_payload_on_the_wire {pre rest : List CStr} {f0 f f' : Frame} {b : Buf} {segs : List (List CStr × Buf)}
    (hpre : argcFrame pre = .ok (some (pre.length, f0))) (hend : NotField f0 c!"data") (hs : ∀ p ∈ segs, Segment p.1 p.2)
    (hne : segs ≠ []) (hr : ∀ w ∈ rest.head?, w ∉ segmentWords)
    (hB : Sent (pre ++ c!"data" :: (segsWords segs ++ rest)) f f' b)
    (hp hq hp' hq' : List Hdr) (x x' : Hdr) (ha : At f f' hp x hq hp' x' hq') (hpos : hp.length = f0.stack.length) :
    x'.size = (segsBytes segs).length ∧ slice b (totalSize hp') x'.size = segsBytes segs := by
  obtain ⟨n, hn⟩ := hB.parsed
  have ht : HDR_PAYLOAD ∈ hdrTmpls := by decide +kernel
  have hx := at_header ha hpos (header_of_words hpre ht hend (data_header _ _ hs hne hr) hn)
  have hpl := hB.place ha
  have hxn : x.name = c!"data" := by rw [hx]; rfl
  have hxf : x.fill = .none := by rw [hx]; rfl
  have hf := hpl.filled
  unfold fillHdr at hf
  rw [hxf] at hf
  simp only [Out.ok.injEq] at hf
  obtain ⟨k, s, hfit, hi⟩ := inst_data hpl.inst hxn
  have hsz : x'.size = (segsBytes segs).length := by rw [← hf, hx]; rfl
  refine ⟨hsz, ?_⟩
  have hgiv : given x c!"hex" = some (segsBytes segs) := by rw [hx]; rfl
  have hft : findField (dataShape k s) c!"hex" = some { name := c!"hex", width := k * 8, offset := 0 } := rfl
  obtain ⟨g, _, hg, hgi, _⟩ := hi.getField hft
  have hk : k * 8 = (segsBytes segs).length * 8 := by
    have h1 := hgi.width
    rw [hx] at hg
    have : findField ({ dataShape (segsBytes segs).length (segsBytes segs).length with
        fields := [{ name := c!"hex", width := (segsBytes segs).length * 8, offset := 0, val := some (segsBytes segs) }] } : Hdr) c!"hex" =
        some { name := c!"hex", width := (segsBytes segs).length * 8, offset := 0, val := some (segsBytes segs) } := rfl
    rw [this] at hg
    cases hg
    exact h1.symm
  subst hf
  have := field_bytes hB ha hi hfit (by simp [disjB, disjB.go, dataShape]) hft hgiv (o := 0) rfl (by simp only; omega)
  rw [hsz]
  simpa using this

example : ∃ f0 f f' b hp x hq hp' x' hq', argcFrame [c!"eth"] = .ok (some (1, f0)) ∧ NotField f0 c!"data" ∧
    (∀ p ∈ [([c!"hex", c!"01"], [1#8]), ([c!"ascii", c!"ab"], c!"ab")], Segment p.1 p.2) ∧
    Built [c!"eth", c!"data", c!"hex", c!"01", c!"ascii", c!"ab", c!"ipv4"] f f' b ∧ At f f' hp x hq hp' x' hq' ∧
    hp.length = f0.stack.length ∧ slice b (totalSize hp') x'.size = [1#8, 0x61#8, 0x62#8] := by
  have key : (match argcFrame [c!"eth"] with
      | .ok (some (n, f0)) => decide (n = 1 ∧ f0.stack.length = 1 ∧ ∀ h ∈ f0.stack.getLast?, ∀ g ∈ h.fields, g.name ≠ c!"data")
      | _ => false) = true := by decide +kernel
  split at key
  · rename_i n f0 h0
    simp only [decide_eq_true_eq, Option.mem_def] at key
    obtain ⟨rfl, k1, k2⟩ := key
    obtain ⟨f, f', b, pre, x, post, pre', x', post', h1, h2, h3⟩ := holdsAt_elim
      (argv := [c!"eth", c!"data", c!"hex", c!"01", c!"ascii", c!"ab", c!"ipv4"]) (i := 1)
      (P := fun _ _ b pre _ pre' x' => decide (pre.length = 1 ∧ slice b (totalSize pre') x'.size = [1#8, 0x61#8, 0x62#8])) (by decide +kernel)
    simp only [decide_eq_true_eq] at h3
    refine ⟨f0, f, f', b, pre, x, post, pre', x', post', h0, k2, ?_, h1, h2, by rw [h3.1, k1], h3.2⟩
    intro p hp
    simp only [List.mem_cons, List.not_mem_nil, or_false] at hp
    rcases hp with rfl | rfl
    · exact Segment.hex (HexText.pair (Digit.dec 0 (by decide)) (Digit.dec 1 (by decide)) HexText.nil) (by decide)
    · exact Segment.ascii c!"ab"
  · simp at key

/-! ## C72: the payload of a CoAP message -/

theorem pfl_multi {fuel : Nat} {h h' : Hdr} {m : Bool} {i cnt : Nat} {w v : CStr} {r : List CStr} {f : Field}
    (h1 : w ≠ c!"help") (h2 : isIgn w = false) (hf : findField h w = some f) (hp : f.parser = .none) (hm : f.multi ≠ .none)
    (h3 : v ≠ c!"help") (h4 : isIgn v = false) (hr : runMultiParser (setVal h w none) f (v :: r) = .ok (h', cnt))
    (hc : 0 < cnt) (hc' : cnt ≤ (v :: r).length) :
    parseFieldsLoop (fuel + 1) h m i (w :: v :: r) =
      parseFieldsLoop fuel (updField h' w (fun f => { f with rxSkip := false })) m (i + 1 + cnt) ((v :: r).drop cnt) := by
  conv => lhs; unfold parseFieldsLoop
  simp only
  rw [if_neg h1, if_neg (by rw [h2]; simp), hf]
  simp only
  rw [if_neg (by rw [h4]; simp), if_neg h3, if_pos ⟨hp, hm⟩, hr]
  simp only [Out.ok_bind]
  rw [if_pos ⟨hc, hc'⟩]

/-- The field of `coap-parms` with the value `v`. -/
def parField (v : Buf) : Field :=
  { name := c!"par", width := v.length * 8, offset := 0, multi := .coapParms, val := some v }

/-- The header `coap-parms` with the value `v`. -/
def parHdr (v : Buf) : Hdr := { parmsShape v.length with size := v.length, fields := [parField v] }

/-- `coap-parms par` and its segments. -/
theorem parms_header (pad : Int) (m : Bool) {segs : List (List CStr × Buf)} (hs : ∀ p ∈ segs, Segment p.1 p.2) (hne : segs ≠ [])
    {rest : List CStr} (hr : ∀ w ∈ rest.head?, w ∉ segmentWords) (hr' : ∀ w ∈ rest.head?, w ≠ c!"par") :
    runHdrParser HDR_COAP_PARMS pad m (c!"par" :: (segsWords segs ++ rest)) = .ok (some (1 + (segsWords segs).length,
      parHdr (0xff#8 :: segsBytes segs), pad, m)) := by
  have h1 := (C10_payload_concatenates segs hs).1 rest hr
  rw [if_neg hne] at h1
  obtain ⟨v, r, hv, h3, h4, h5⟩ := segs_head hs hne rest
  have hl : segsWords segs = (segs.map (·.1)).flatten := rfl
  have hb : segsBytes segs = (segs.map (·.2)).flatten := rfl
  rw [← hl, ← hb] at h1
  unfold runHdrParser parseFields
  have h2 : HDR_COAP_PARMS.parser = .fields := rfl
  rw [h2]
  simp only
  have hlen : (segsWords segs).length ≤ (v :: r).length := by rw [← hv]; simp
  rw [hv] at h1 ⊢
  rw [List.length_cons, pfl_multi (cnt := (segsWords segs).length) (f := { name := c!"par", width := 0, offset := 0, multi := .coapParms })
    (h' := parHdr (0xff#8 :: segsBytes segs))
    (by decide) (by decide) (by rw [parms_shape]; rfl) rfl (by simp) h3 h4 ?_ (by omega) hlen]
  · have hd : List.drop (segsWords segs).length (v :: r) = rest := by rw [← hv]; simp
    rw [hd, pfl_stop (by omega) ?_]
    · simp only [Out.ok_bind, Nat.zero_add]
      rfl
    · intro w tl e
      subst e
      have a1 := hr w (by simp)
      have a2 := hr' w (by simp)
      refine ⟨by rintro rfl; exact a1 (by decide), findField_none ?_⟩
      intro g hg
      have : g.name = c!"par" := by
        have hg' : g ∈ [parField (0xff#8 :: segsBytes segs)] := hg
        simp only [List.mem_cons, List.not_mem_nil, or_false] at hg'
        rw [hg']; rfl
      rw [this]
      exact fun e => a2 e.symm
  · unfold runMultiParser
    simp only
    unfold coapParseParms
    rw [h1]
    simp only [Out.ok_bind]
    rw [if_pos ⟨by omega, hlen⟩, parms_shape]
    rfl

theorem inst_parms {x : Hdr} (hx : IsInst x) (hn : x.name = c!"coap-parms") : ∃ k, TFits (parmsShape k) ∧ Inst (parmsShape k) x := by
  obtain ⟨t, ht', t', hv, hi, hty⟩ := hx
  have hnm := hi.name
  have hfit := Variant.fits ht' hv
  rw [hn] at hnm
  cases hv with
  | same =>
    have : ∀ t ∈ hdrTmpls, c!"coap-parms" = t.name → t = HDR_COAP_PARMS := by decide +kernel
    have h2 := this t ht' hnm
    subst h2
    rw [parms_shape] at hfit hi
    exact ⟨_, hfit, hi⟩
  | coap => simp [coapShape] at hnm
  | pnet => simp [pnetShape] at hnm
  | opt k m h1 h2 h3 => simp [optShape] at hnm
  | parms => exact ⟨_, hfit, hi⟩
  | data => simp [dataShape] at hnm

/-- **C72**: the payload of a CoAP message is the payload marker 0xff followed by the bytes given. -/
theorem C72_coap_payload {pre rest : List CStr} {f0 f f' : Frame} {b : Buf} {segs : List (List CStr × Buf)}
    (hpre : argcFrame pre = .ok (some (pre.length, f0))) (hend : NotField f0 c!"coap-parms") (hs : ∀ p ∈ segs, Segment p.1 p.2)
    (hne : segs ≠ []) (hr : ∀ w ∈ rest.head?, w ∉ segmentWords) (hr' : ∀ w ∈ rest.head?, w ≠ c!"par")
    (hB : Sent (pre ++ c!"coap-parms" :: c!"par" :: (segsWords segs ++ rest)) f f' b)
    (hp hq hp' hq' : List Hdr) (x x' : Hdr) (ha : At f f' hp x hq hp' x' hq') (hpos : hp.length = f0.stack.length) :
    slice b (totalSize hp') x'.size = 0xff#8 :: segsBytes segs := by
  obtain ⟨n, hn⟩ := hB.parsed
  have ht : HDR_COAP_PARMS ∈ hdrTmpls := by decide +kernel
  have hx := at_header ha hpos (header_of_words hpre ht hend (parms_header _ _ hs hne hr hr') hn)
  have hpl := hB.place ha
  have hxn : x.name = c!"coap-parms" := by rw [hx]; rfl
  have hxf : x.fill = .none := by rw [hx]; rfl
  have hf := hpl.filled
  unfold fillHdr at hf
  rw [hxf] at hf
  simp only [Out.ok.injEq] at hf
  obtain ⟨k, hfit, hi⟩ := inst_parms hpl.inst hxn
  have hsz : x'.size = (0xff#8 :: segsBytes segs).length := by rw [← hf, hx]; rfl
  have hgiv : given x c!"par" = some (0xff#8 :: segsBytes segs) := by rw [hx]; rfl
  have hft : findField (parmsShape k) c!"par" = some { name := c!"par", width := k * 8, offset := 0, multi := .coapParms } := rfl
  obtain ⟨g, _, hg, hgi, _⟩ := hi.getField hft
  have hk : k * 8 = (0xff#8 :: segsBytes segs).length * 8 := by
    have h1 := hgi.width
    rw [hx] at hg
    have hg' : some (parField (0xff#8 :: segsBytes segs)) = some g := hg
    cases hg'
    exact h1.symm
  subst hf
  have := field_bytes hB ha hi hfit (by simp [disjB, disjB.go, parmsShape]) hft hgiv (o := 0) rfl
    (by simp only; omega)
  rw [hsz]
  simpa using this

/-! ## C40: options from their texts -/

/-- A value of zero bytes only is sent as the empty value. -/
def optValue (v : Buf) : Buf := if v.all (· == 0#8) then [] else v

/-- The header `coap-opt` with the number `n` and the value `w` of `k` bytes, in `s` bytes. -/
def optHdr (n : Buf) (w : Option Buf) (k s : Nat) : Hdr :=
  { optShape k s with fields := [
    { name := c!"num", width := 16, offset := 0, val := some n },
    { name := c!"val", width := k * 8, offset := 16, multi := .coapOptVal, val := w }] }

/-- `coap-opt num N val` and its segments. -/
theorem opt_header (pad : Int) (m : Bool) {num : CStr} {N : Nat} (hN : Literal num N) (hN16 : N < 65536)
    {segs : List (List CStr × Buf)} (hs : ∀ p ∈ segs, Segment p.1 p.2) (hne : segs ≠ [])
    {rest : List CStr} (hr : ∀ w ∈ rest.head?, w ∉ segmentWords) (hr' : ∀ w ∈ rest.head?, w ≠ c!"num" ∧ w ≠ c!"val") :
    ∃ h, runHdrParser HDR_COAP_OPTIONS pad m (c!"num" :: num :: c!"val" :: (segsWords segs ++ rest)) =
        .ok (some (3 + (segsWords segs).length, h, pad, m)) ∧ h.name = c!"coap-opt" ∧
      given h c!"num" = some (beBytes 2 N) ∧ given h c!"val" = some (optValue (segsBytes segs)) := by
  have h1 := (C10_payload_concatenates segs hs).1 rest hr
  rw [if_neg hne] at h1
  obtain ⟨v, r, hv, h3, h4, h5⟩ := segs_head hs hne rest
  have hl : segsWords segs = (segs.map (·.1)).flatten := rfl
  have hb : segsBytes segs = (segs.map (·.2)).flatten := rfl
  rw [← hl, ← hb] at h1
  have hnh : num ≠ c!"help" := by
    rintro rfl
    have := C01_integer_literals hN 2 (by decide)
    rw [if_pos (by omega), show parseBytes c!"help" 2 = .ok none by decide +kernel] at this
    cases this
  have hni := not_isIgn (literal_not_ign hN)
  have hlen : (segsWords segs).length ≤ (v :: r).length := by rw [← hv]; simp
  unfold runHdrParser parseFields
  have h2 : HDR_COAP_OPTIONS.parser = .fields := rfl
  rw [h2]
  simp only
  have hfn : findField HDR_COAP_OPTIONS c!"num" = some { name := c!"num", width := 16, offset := 0 } := by decide +kernel
  have hpv : parseVal { name := c!"num", width := 16, offset := 0 } num = .ok (some (beBytes 2 N)) := by
    have := C01_integer_literals hN 2 (by decide)
    rw [if_pos (by omega)] at this
    exact this
  rw [hv] at h1 ⊢
  rw [List.length_cons, (pfl_assign_step (by decide) (by decide) hfn rfl (by decide) (by decide)).1
    (Or.inr ⟨hnh, _, hpv⟩)]
  have ha1 : assign1 HDR_COAP_OPTIONS (c!"num", num) = optHdr (beBytes 2 N) none 0 0 := by
    unfold assign1
    rw [opt_shape]
    unfold updField optShape updFirst
    simp only [beq_self_eq_true, if_true]
    unfold setBy
    rw [hpv]
    simp only [hni]
    rfl
  have hmul : runMultiParser (setVal (optHdr (beBytes 2 N) none 0 0) c!"val" none)
      { name := c!"val", width := 0, offset := 16, multi := .coapOptVal } (v :: r) =
      .ok (optHdr (beBytes 2 N) (some (optValue (segsBytes segs))) (optValue (segsBytes segs)).length
        (optValue (segsBytes segs)).length, (segsWords segs).length) := by
    unfold runMultiParser
    simp only
    unfold coapParseOptionValue fieldParseMultiVarByte
    rw [h1]
    simp only [Out.ok_bind]
    rw [if_pos ⟨by omega, hlen⟩]
    simp only [Out.ok_bind]
    rw [if_pos ⟨by omega, hlen⟩]
    have e : updField (setVal (optHdr (beBytes 2 N) none 0 0) c!"val" none) c!"val"
        (fun f => { f with val := some (segsBytes segs), width := (segsBytes segs).length * 8 }) =
        { optHdr (beBytes 2 N) (some (segsBytes segs)) (segsBytes segs).length (segsBytes segs).length with size := 2 } := rfl
    rw [e]
    have e2 : getField { optHdr (beBytes 2 N) (some (segsBytes segs)) (segsBytes segs).length (segsBytes segs).length with
        size := 2 + (segsBytes segs).length } c!"val" =
        .ok { name := c!"val", width := (segsBytes segs).length * 8, offset := 16, multi := .coapOptVal, val := some (segsBytes segs) } := rfl
    simp only
    rw [e2, Out.ok_bind]
    simp only
    unfold optValue
    split
    · simp only [Out.ok.injEq, Prod.mk.injEq, and_true]
      exact congrArg (fun q => { optHdr (beBytes 2 N) (some []) 0 0 with size := q })
        (Nat.add_sub_cancel (n := 2) (m := (segsBytes segs).length))
    · rfl
  rw [ha1, List.length_cons, pfl_multi (by decide) (by decide) (f := { name := c!"val", width := 0, offset := 16, multi := .coapOptVal })
    rfl rfl (by simp) h3 h4 hmul (by omega) hlen]
  have hd : List.drop (segsWords segs).length (v :: r) = rest := by rw [← hv]; simp
  rw [hd, pfl_stop (by omega) ?_]
  · simp only [Out.ok_bind, hni, Bool.or_false]
    refine ⟨_, by rw [show 0 + 2 + 1 + (segsWords segs).length = 3 + (segsWords segs).length by omega], rfl, rfl, rfl⟩
  · intro w tl e
    subst e
    have a1 := hr w (by simp)
    have a2 := hr' w (by simp)
    refine ⟨by rintro rfl; exact a1 (by decide), findField_none ?_⟩
    intro g hg
    have : g.name = c!"num" ∨ g.name = c!"val" := by
      have : g.name ∈ [c!"num", c!"val"] := List.mem_map.mpr ⟨g, hg, rfl⟩
      simpa using this
    rcases this with h | h
    · rw [h]; exact fun e => a2.1 e.symm
    · rw [h]; exact fun e => a2.2 e.symm

/-- **C40, single options from the words to the bytes**: `coap-opt num N val ...` is sent as an option of delta `N` with
the given value, or the empty value if all its bytes are zero. Missing as in `C40_option_partial`. -/
theorem C40_option_words_partial {pre rest : List CStr} {f0 f f' : Frame} {b : Buf} {num : CStr} {N : Nat}
    {segs : List (List CStr × Buf)} (hpre : argcFrame pre = .ok (some (pre.length, f0))) (hend : NotField f0 c!"coap-opt")
    (hN : Literal num N) (hN16 : N < 65536) (hs : ∀ p ∈ segs, Segment p.1 p.2) (hne : segs ≠ [])
    (hr : ∀ w ∈ rest.head?, w ∉ segmentWords) (hr' : ∀ w ∈ rest.head?, w ≠ c!"num" ∧ w ≠ c!"val")
    (hB : Sent (pre ++ c!"coap-opt" :: c!"num" :: num :: c!"val" :: (segsWords segs ++ rest)) f f' b)
    (hp hq hp' hq' : List Hdr) (x x' : Hdr) (ha : At f f' hp x hq hp' x' hq') (hpos : hp.length = f0.stack.length)
    (hl : (segsBytes segs).length < 65536) :
    decodeOption (b.drop (totalSize hp')) = some (N, optValue (segsBytes segs), b.drop (totalSize hp' + x'.size)) := by
  obtain ⟨n, hn⟩ := hB.parsed
  have ht : HDR_COAP_OPTIONS ∈ hdrTmpls := by decide +kernel
  obtain ⟨h, e1, e2, e3, e4⟩ := opt_header f0.padding f0.hasMask hN hN16 hs hne hr hr'
  have hx := at_header ha hpos (header_of_words hpre ht hend e1 hn)
  subst hx
  have := C40_option_partial _ f f' b hB hp hq hp' hq' x x' ha e2 _ _ e3 e4 (by
    unfold optValue
    split
    · simp
    · exact hl)
  rw [this, beNat_beBytes, Nat.mod_eq_of_lt hN16]

end Ef.Props
