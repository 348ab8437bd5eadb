import Verif.Lemmas.Built
import Verif.Props.Match

/-!
# Properties C16, C27, C28, C29, C30, C33, C38, C39, C43: completed frames

`Built argv f f' b`: the words `argv` describe frame `f`, completed to `f'`, with bytes `b`.
`At f f' pre x post pre' x' post'`: header `x` of `f` corresponds to header `x'` of `f'`, which starts at byte
`totalSize pre'` of the frame.
-/

namespace Ef.Props

open Ef Spec

/-- Concrete cases: header number `i` of the frame given by `argv` satisfies `P`. -/
def holdsAt (argv : List CStr) (i : Nat) (P : Frame → Frame → Buf → List Hdr → Hdr → List Hdr → Hdr → Bool) : Bool :=
  decide (ShortWords argv) &&
  match argcFrame argv with
  | .ok (some (_, f)) =>
    match frameToBuf f with
    | .ok (f', b) =>
      decide (∀ x ∈ f.stack, Tame x) &&
      match f.stack[i]?, f'.stack[i]? with
      | some x, some x' => decide (f'.stack.length = f.stack.length) && P f f' b (f.stack.take i) x (f'.stack.take i) x'
      | _, _ => false
    | _ => false
  | _ => false

theorem holdsAt_elim {argv : List CStr} {i : Nat} {P : Frame → Frame → Buf → List Hdr → Hdr → List Hdr → Hdr → Bool}
    (h : holdsAt argv i P = true) : ∃ f f' b pre x post pre' x' post', Built argv f f' b ∧
      At f f' pre x post pre' x' post' ∧ P f f' b pre x pre' x' = true := by
  unfold holdsAt at h
  simp only [Bool.and_eq_true, decide_eq_true_eq] at h
  obtain ⟨h0, h⟩ := h
  split at h
  · rename_i n f e1
    split at h
    · rename_i f' b e2
      simp only [Bool.and_eq_true, decide_eq_true_eq] at h
      obtain ⟨h1, h⟩ := h
      split at h
      · rename_i x x' e3 e4
        simp only [Bool.and_eq_true, decide_eq_true_eq] at h
        obtain ⟨h2, h3⟩ := h
        have l1 := List.getElem?_eq_some_iff.mp e3
        have l2 := List.getElem?_eq_some_iff.mp e4
        obtain ⟨p1, q1⟩ := l1
        obtain ⟨p2, q2⟩ := l2
        refine ⟨f, f', b, f.stack.take i, x, f.stack.drop (i + 1), f'.stack.take i, x', f'.stack.drop (i + 1),
          ⟨⟨h0, ⟨n, e1⟩, e2⟩, h1⟩, ⟨?_, ?_, ?_⟩, h3⟩
        · rw [← q1, ← List.drop_eq_getElem_cons p1, List.take_append_drop]
        · rw [← q2, ← List.drop_eq_getElem_cons p2, List.take_append_drop]
        · simp only [List.length_take]; omega
      · simp at h
    · simp at h
  · simp at h

/-- `eth ipv4 dip 1.2.3.4 udp dport 53 data hex 0102030405` -/
def udpWords : List CStr := [c!"eth", c!"ipv4", c!"dip", c!"1.2.3.4", c!"udp", c!"dport", c!"53", c!"data", c!"hex",
  c!"0102030405"]

/-! ## C16 -/

/-- **C16, full statement.** In every serialised frame, the bytes belonging to a header are exactly what that header
specifies: nothing else was written there. -/
def C16_statement : Prop :=
  ∀ argv n f f' b, ShortWords argv → argcFrame argv = .ok (some (n, f)) → frameToBuf f = .ok (f', b) →
    ∀ pre x post, f'.stack = pre ++ x :: post → slice b (totalSize pre) x.size = hdrBytes x

/-- The last TLV of the supervision frame is written into the IPv4 header behind it. -/
def svWords : List CStr := [c!"eth", c!"sv", c!"tlv0_type", c!"255", c!"ipv4"]

/-- **C16 does not hold**: `eth sv tlv0_type 255 ipv4` writes 255 into the IPv4 flags. -/
theorem C16_false : ¬ C16_statement := by
  intro h
  have key : (built svWords).any (fun r => decide (r.2.2.1.stack.length = 3) &&
      decide (slice r.2.2.2.1 (totalSize (r.2.2.1.stack.take 2)) 20 ≠
        ((r.2.2.1.stack.drop 2).map hdrBytes).flatten) && decide (((r.2.2.1.stack.drop 2).map (·.size)) = [20])) = true := by
    decide +kernel
  rw [Option.any_eq_true] at key
  obtain ⟨⟨n, f, f', b, m⟩, h1, h2⟩ := key
  obtain ⟨e1, e2, e3⟩ := built_some h1
  simp only [Bool.and_eq_true, decide_eq_true_eq, ne_eq] at h2
  obtain ⟨⟨h3, h4⟩, h5⟩ := h2
  obtain ⟨a, b', c, hs⟩ : ∃ a b c, f'.stack = [a, b, c] := by
    match hs : f'.stack, h3 with
    | [a, b, c], _ => exact ⟨a, b, c, rfl⟩
  have := h svWords n f f' b (by decide +kernel) e1 e2 [a, b'] c [] (by simp [hs])
  rw [hs] at h4 h5
  simp only [List.drop_succ_cons, List.drop_zero, List.map_cons, List.map_nil, List.cons.injEq, and_true,
    List.take_succ_cons, List.take_zero, List.flatten_cons, List.flatten_nil, List.append_nil] at h4 h5
  rw [h5] at this
  exact h4 this

/-- The same defect at the end of a frame makes the program abort. -/
theorem C16_abort : ∃ argv n f, ShortWords argv ∧ argcFrame argv = .ok (some (n, f)) ∧ frameToBuf f = .abort := by
  have key : (match argcFrame [c!"data", c!"pattern", c!"zero", c!"46", c!"sv", c!"tlv0_type", c!"1"] with
    | .ok (some (_, f)) => (match frameToBuf f with | .abort => true | _ => false)
    | _ => false) = true := by decide +kernel
  split at key
  · rename_i n f e
    refine ⟨_, n, f, ?_, e, ?_⟩
    · decide +kernel
    · split at key
      · rename_i h; exact h
      · simp at key
  · simp at key

/-- **C16, the part that holds.** If every `sv` header with a last TLV has a second TLV and no `mld` header is both
query and report, then every accepted frame can be serialised without any access outside a buffer (or the program
ends because an `mld` header has no complete `ipv6` header below it), every header stays inside its own bytes, and
these bytes are what that header specifies. -/
theorem C16_own_bytes_partial (argv : List CStr) (n : Nat) (f : Frame) (hw : ShortWords argv)
    (hp : argcFrame argv = .ok (some (n, f))) (ht : ∀ x ∈ f.stack, Tame x) :
    (∃ f' b, frameToBuf f = .ok (f', b) ∧ f'.stack.length = f.stack.length ∧ (∀ x ∈ f'.stack, HdrFits x) ∧
      ∀ pre x post, f'.stack = pre ++ x :: post → slice b (totalSize pre) x.size = hdrBytes x) ∨
    (frameToBuf f = .exit (-1) ∧ ∃ x ∈ f.stack, x.name = c!"mld") := by
  have hl := argcFrame_len hp
  rcases fillStack_good (below := []) (hs := f.stack) (by simp)
    (fun x hx => ⟨argcFrame_inst hw hp x hx, ht x hx⟩) (by omega) with ⟨hs', e1, e2, e3, e4⟩ | ⟨e1, e2⟩
  · left
    have hfit : ∀ x ∈ hs', HdrFits x := e2.2
    have key := copyHdrs_ok false hs' [] (zeros (60 - sumSizes hs')) (fun x hx => (hfit x hx).fits)
    simp only [List.nil_append, List.length_nil] at key
    have hok : frameToBuf f = .ok ({ f with stack := hs' }, (hs'.map (render false)).flatten ++ zeros (60 - sumSizes hs')) := by
      unfold frameToBuf
      rw [e1, Out.ok_bind]
      have hz : balloc (frameSize hs') = zeros (sumSizes hs') ++ zeros (60 - sumSizes hs') := by
        rw [← zeros_append]; unfold balloc frameSize zeros; split <;> (congr 1; omega)
      rw [hz, key, Out.ok_bind]
    have hB : Built argv f { f with stack := hs' } _ := ⟨⟨hw, ⟨n, hp⟩, hok⟩, ht⟩
    refine ⟨_, _, hok, e3, hfit, fun pre x post hs => ?_⟩
    have hlen : pre.length < f.stack.length := by
      rw [← e3]
      have : hs' = pre ++ x :: post := hs
      rw [this]; simp
    refine (hB.slices (pre := f.stack.take pre.length) (x := f.stack[pre.length]) (post := f.stack.drop (pre.length + 1))
      ⟨?_, hs, ?_⟩).1
    · rw [← List.drop_eq_getElem_cons hlen, List.take_append_drop]
    · simp only [List.length_take]; omega
  · right
    refine ⟨?_, e2⟩
    unfold frameToBuf
    rw [e1, Out.exit_bind]

example : ∃ n f, ShortWords udpWords ∧ argcFrame udpWords = .ok (some (n, f)) ∧ f.stack.length = 4 ∧
    ∀ x ∈ f.stack, Tame x := by
  obtain ⟨f, f', b, pre, x, post, pre', x', post', h1, h2, h3⟩ := holdsAt_elim (argv := udpWords) (i := 1)
    (P := fun f _ _ _ _ _ _ => decide (f.stack.length = 4)) (by decide +kernel)
  obtain ⟨n, hn⟩ := h1.parsed
  exact ⟨n, f, h1.short, hn, by simpa using h3, h1.tame⟩

/-! ## C27: explicit values win -/

/-- **C27.** A value given by the user is still the value of that field in the completed frame, and it is what the
frame contains at the position of the field (unless a later field of the same header with a value overlaps it). The
option number of `coap-opt` is the exception. -/
theorem C27_explicit_values_win (argv : List CStr) (f f' : Frame) (b : Buf) (h : Sent argv f f' b)
    (pre post pre' post' : List Hdr) (x x' : Hdr) (ha : At f f' pre x post pre' x' post')
    (n : CStr) (v : Buf) (hv : given x n = some v) (hn : ¬ (x.name = c!"coap-opt" ∧ n = c!"num")) :
    x'.name = x.name ∧ given x' n = some v ∧
    ∃ l1 g l2, x'.fields = l1 ++ g :: l2 ∧ g.name = n ∧ g.val = some v ∧
      (Tame x → (∀ k ∈ l2, (fieldValue k).isSome → ∀ i, ¬ (covers g i ∧ covers k i)) →
        numAt b (8 * totalSize pre' + g.offset) g.width = beNat v % 2 ^ g.width) := by
  have hp := h.place ha
  have h1 := hp.res.keeps.given n v hv hn
  refine ⟨hp.res.keeps.name, h1, ?_⟩
  rw [given_eq] at h1
  cases hf : findField x' n with
  | none => rw [hf] at h1; simp at h1
  | some g =>
    rw [hf] at h1
    simp only [Option.bind_some] at h1
    obtain ⟨hgn, l1, l2, hx, _⟩ := List.find?_eq_some_iff_append.mp hf
    refine ⟨l1, g, l2, hx, by simpa using hgn, h1, fun htm hno => ?_⟩
    exact (C17_values_appear f f' b h.bytes pre' post' x' ha.after (hp.fits htm) l1 l2 g hx).1 v (by unfold fieldValue; rw [h1]) hno

example : ∃ f f' b pre x post pre' x' post', Built udpWords f f' b ∧ At f f' pre x post pre' x' post' ∧
    given x c!"dip" = some [1#8, 2#8, 3#8, 4#8] ∧ x.name = c!"ipv4" := by
  obtain ⟨f, f', b, pre, x, post, pre', x', post', h1, h2, h3⟩ := holdsAt_elim (argv := udpWords) (i := 1)
    (P := fun _ _ _ _ x _ _ => decide (given x c!"dip" = some [1#8, 2#8, 3#8, 4#8]) && decide (x.name = c!"ipv4"))
    (by decide +kernel)
  simp only [Bool.and_eq_true, decide_eq_true_eq] at h3
  exact ⟨f, f', b, pre, x, post, pre', x', post', h1, h2, h3⟩

/-! ## C28: Ethernet types -/

/-- Bit position of the type field inside an Ethernet header or tag. -/
def etPos : List (CStr × Nat) :=
  [(c!"eth", 96), (c!"ctag", 16), (c!"stag", 16), (c!"rtag", 32), (c!"htag", 32)]

theorem types_assigned : ∀ t ∈ hdrTmpls, ∀ p ∈ assigned, p.1 = t.name → p.2 = t.type := by decide +kernel

theorem variant_name {B : Nat} {t t' : Hdr} (h : Variant B t t') : t'.name = t.name := by
  cases h <;> first | rfl | decide +kernel

theorem variant_disj {B : Nat} {t t' : Hdr} (h : Variant B t t') (hf : t'.fill ≠ .coap ∧ t'.fill ≠ .coapOpt ∧ t'.fill ≠ .none) :
    t' = t := by
  cases h <;> first | rfl | (simp [coapShape, optShape, pnetShape, parmsShape, dataShape] at hf)

theorem et_table : ∀ p ∈ etPos, ∀ t ∈ hdrTmpls, t.name = p.1 → t.fill = .etherType ∧ disjB t = true ∧
    (findField t c!"et").map (·.width) = some 16 ∧ (findField t c!"et").map (·.offset) = some p.2 := by decide +kernel

/-- The assigned number of a header as the user specified it is its type number. -/
theorem type_assigned {x : Hdr} (hx : IsInst x) {p : CStr × Nat} (hp : p ∈ assigned) (hn : x.name = p.1) : x.type = p.2 := by
  obtain ⟨t, ht, t', hv, hi, hty⟩ := hx
  rw [hty]
  refine (types_assigned t ht p hp ?_).symm
  rw [← hn, hi.name, variant_name hv]

theorem numOf_be {ft : Field} {k m : Nat} (hw : ft.width = 8 * k) : numOf ft (some (beBytes k m)) = m % 256 ^ k := by
  unfold numOf
  simp only [Option.or]
  rw [beNat_beBytes, hw, Nat.pow_mul]
  exact Nat.mod_mod _ _

theorem assigned_lt : ∀ p ∈ assigned, p.2 < 65536 := by decide +kernel

/-- The number with which a completed header is announced. -/
theorem next_type {argv : List CStr} {f f' : Frame} {b : Buf} (h : Sent argv f f' b) {pre post pre' post' : List Hdr}
    {x x' y : Hdr} (ha : At f f' pre x (y :: post) pre' x' post') {p : CStr × Nat} (hp : p ∈ assigned) (hn : y.name = p.1) :
    ∃ y' q, post' = y' :: q ∧ (y'.type = p.2 ∨ (y.name = c!"icmp" ∧ y'.type = 58)) := by
  obtain ⟨g1, g2, g3⟩ := h.goods
  have hl : post'.length = post.length + 1 := by
    have := g2
    rw [ha.before, ha.after] at this
    simp only [List.length_append, List.length_cons] at this
    have := ha.same
    omega
  match post', hl with
  | y' :: q, _ =>
    have hq := g3 (pre.length + 1) y y' (by rw [ha.before]; simp) (by rw [ha.after, ← ha.same]; simp)
    have hy : IsInst y := h.inst y (by rw [ha.before]; simp)
    refine ⟨y', q, rfl, ?_⟩
    rcases hq.1.type with h1 | h1
    · exact Or.inl (by rw [h1]; exact type_assigned hy hp hn)
    · exact Or.inr h1

/-- **C28.** Without a type given by the user, the type field of an Ethernet header or tag carries the assigned
number of the header that follows it (`icmp` as 1 or 58: it has no EtherType). -/
theorem C28_ethertype (argv : List CStr) (f f' : Frame) (b : Buf) (h : Sent argv f f' b)
    (pre post pre' post' : List Hdr) (x x' y : Hdr) (ha : At f f' pre x (y :: post) pre' x' post')
    (e : CStr × Nat) (he : e ∈ etPos) (hx : x.name = e.1) (hg : given x c!"et" = none)
    (p : CStr × Nat) (hp : p ∈ assigned) (hy : y.name = p.1) (hic : y.name ≠ c!"icmp") :
    numAt b (8 * totalSize pre' + e.2) 16 = p.2 := by
  have hpl := h.place ha
  obtain ⟨t, ht, t', hv, hi, hty⟩ := hpl.inst
  have hnm : t.name = e.1 := by rw [← hx, hi.name, variant_name hv]
  obtain ⟨t1, t2, t3, t4⟩ := et_table e he t ht hnm
  have htt : t' = t := by
    cases hv with
    | same => rfl
    | _ => exact absurd t1 (by decide)
  subst htt
  obtain ⟨ft, hft⟩ : ∃ ft, findField t' c!"et" = some ft := by
    cases e : findField t' c!"et" with
    | none => rw [e] at t3; simp at t3
    | some f => exact ⟨f, rfl⟩
  have w := width_of hft t3
  have o := offset_of hft t4
  obtain ⟨y', q, rfl, hty'⟩ := next_type h ha hp hy
  have hfill := hpl.filled
  unfold fillHdr at hfill
  rw [hi.fill, t1] at hfill
  simp only at hfill
  rw [fillEtherType_eq hi hft _ hpl.goods] at hfill
  simp only [Out.ok.injEq] at hfill
  have hi' : Inst t' x' := by rw [← hfill]; exact hi.setDefault hft (beBytes_len_ok (by rw [w]; omega))
  obtain ⟨g, hgx, _⟩ := hi.find' hft
  have hval : given x' c!"et" = some (beBytes 2 y'.type) := by rw [← hfill, given_setDefault hgx, hg]; rfl
  have := h.num ha hi' (tmpls_fit t' ht) t2 hft (fun hn => by rw [hval] at hn; cases hn)
  rw [o, w] at this
  rw [this, hval]
  rw [numOf_be (k := 2) (by rw [w])]
  rcases hty' with h1 | ⟨h1, _⟩
  · rw [h1]; exact Nat.mod_eq_of_lt (assigned_lt p hp)
  · exact absurd h1 hic

/-- **C28, nothing follows.** Then the type is 0xaaaa for `eth` and 0 for the tags (if no header before them
writes outside of its own bytes, see C16 and `C28_ethertype_overwritten`). -/
theorem C28_ethertype_last (argv : List CStr) (f f' : Frame) (b : Buf) (h : Sent argv f f' b)
    (pre pre' post' : List Hdr) (x x' : Hdr) (ha : At f f' pre x [] pre' x' post')
    (e : CStr × Nat) (he : e ∈ etPos) (hx : x.name = e.1) (hg : given x c!"et" = none)
    (hz : e.1 ≠ c!"eth" → ∀ y ∈ pre, Tame y) :
    numAt b (8 * totalSize pre' + e.2) 16 = if e.1 = c!"eth" then 0xaaaa else 0 := by
  have hpl := h.place ha
  obtain ⟨t, ht, t', hv, hi, hty⟩ := hpl.inst
  have hnm : t.name = e.1 := by rw [← hx, hi.name, variant_name hv]
  obtain ⟨t1, t2, t3, t4⟩ := et_table e he t ht hnm
  have htt : t' = t := by
    cases hv with
    | same => rfl
    | _ => exact absurd t1 (by decide)
  subst htt
  obtain ⟨ft, hft⟩ : ∃ ft, findField t' c!"et" = some ft := by
    cases e : findField t' c!"et" with
    | none => rw [e] at t3; simp at t3
    | some f => exact ⟨f, rfl⟩
  have w := width_of hft t3
  have o := offset_of hft t4
  have hnil : post' = [] := by
    have := h.goods.2.1
    rw [ha.before, ha.after] at this
    simp only [List.length_append, List.length_cons, List.length_nil] at this
    have := ha.same
    exact List.eq_nil_of_length_eq_zero (by omega)
  subst hnil
  have hfill := hpl.filled
  unfold fillHdr at hfill
  rw [hi.fill, t1] at hfill
  simp only at hfill
  rw [fillEtherType_eq hi hft _ hpl.goods] at hfill
  simp only [Out.ok.injEq] at hfill
  subst hfill
  have heth : ∀ p ∈ etPos, ∀ t ∈ hdrTmpls, t.name = p.1 → (findField t c!"et").map (·.dflt) = some none → p.1 ≠ c!"eth" := by
    decide +kernel
  have := h.num ha hi (tmpls_fit t' ht) t2 hft (fun _ hd => hz (heth e he t' ht hnm (by rw [hft]; simp [hd])))
  rw [o, w] at this
  rw [this, hg]
  have hd : ∀ p ∈ etPos, ∀ t ∈ hdrTmpls, t.name = p.1 →
      ((findField t c!"et").map (fun g => numOf g none)) = some (if p.1 = c!"eth" then 0xaaaa else 0) := by decide +kernel
  have := hd e he t' ht hnm
  rw [hft] at this
  simpa using this

/-- Behind a supervision header with a last but no second TLV, the type of the last tag is not 0. -/
theorem C28_ethertype_overwritten : ∃ f f' b, Sent [c!"eth", c!"sv", c!"tlv0_type", c!"5", c!"ctag", c!"ctag"] f f' b ∧
    f.stack.map (·.name) = [c!"eth", c!"sv", c!"ctag", c!"ctag"] ∧ (∀ x ∈ f.stack, given x c!"et" = none) ∧
    numAt b (8 * totalSize (f'.stack.take 3) + 16) 16 = 0x0500 := by
  have key : (match argcFrame [c!"eth", c!"sv", c!"tlv0_type", c!"5", c!"ctag", c!"ctag"] with
    | .ok (some (_, f)) =>
      match frameToBuf f with
      | .ok (f', b) => decide (f.stack.map (·.name) = [c!"eth", c!"sv", c!"ctag", c!"ctag"] ∧
          (∀ x ∈ f.stack, given x c!"et" = none) ∧ numAt b (8 * totalSize (f'.stack.take 3) + 16) 16 = 0x0500)
      | _ => false
    | _ => false) = true := by decide +kernel
  split at key
  · rename_i n f e1
    split at key
    · rename_i f' b e2
      exact ⟨f, f', b, ⟨by decide, ⟨n, e1⟩, e2⟩, of_decide_eq_true key⟩
    · simp at key
  · simp at key

example : ∃ f f' b pre x post pre' x' post', Built udpWords f f' b ∧ At f f' pre x post pre' x' post' ∧
    x.name = c!"eth" ∧ given x c!"et" = none ∧ numAt b (8 * totalSize pre' + 96) 16 = 0x0800 := by
  obtain ⟨f, f', b, pre, x, post, pre', x', post', h1, h2, h3⟩ := holdsAt_elim (argv := udpWords) (i := 0)
    (P := fun _ _ b _ x pre' _ => decide (x.name = c!"eth" ∧ given x c!"et" = none ∧
      numAt b (8 * totalSize pre' + 96) 16 = 0x0800)) (by decide +kernel)
  simp only [decide_eq_true_eq] at h3
  exact ⟨f, f', b, pre, x, post, pre', x', post', h1, h2, h3⟩

/-! ## C29, C30: IPv4 length and protocol -/

theorem sum_total {x x' : Hdr} (hs : x'.size = x.size) (l : List Hdr) : sumSizes (x :: l) = totalSize (x' :: l) := by
  rw [totalSize_eq]; simp only [sumSizes]; rw [hs]

/-- The completed IPv4 header. -/
theorem ipv4_done {argv : List CStr} {f f' : Frame} {b : Buf} (h : Sent argv f f' b) {pre post pre' post' : List Hdr}
    {x x' : Hdr} (ha : At f f' pre x post pre' x' post') (hx : x.name = c!"ipv4") :
    Inst HDR_IPV4 x ∧ Inst HDR_IPV4 x' ∧ x' = setDefault (ipv4Filled0 x post') c!"chksum"
      (some (beBytes 2 (inetChksum 0 (hdrBytes (ipv4Filled0 x post'))))) := by
  have hp := h.place ha
  have hi := (inst_ipv4 hp.inst hx).1
  have hf := hp.filled
  unfold fillHdr at hf
  have : HDR_IPV4.fill = .ipv4 := rfl
  rw [hi.fill, this] at hf
  simp only at hf
  rw [fillIpv4_eq hi post' hp.goods] at hf
  simp only [Out.ok.injEq] at hf
  obtain ⟨fc, hfc⟩ := look HDR_IPV4 c!"chksum" (by decide +kernel)
  have wfc : fc.width = 16 := width_of hfc (by decide +kernel)
  refine ⟨hi, ?_, hf.symm⟩
  rw [← hf]
  exact (ipv4Filled0_inst hi post').setDefault hfc (beBytes_len_ok (by rw [wfc]; omega))

/-- A field of the IPv4 header inside the frame. -/
theorem ipv4_num {argv : List CStr} {f f' : Frame} {b : Buf} (h : Sent argv f f' b) {pre post pre' post' : List Hdr}
    {x x' : Hdr} (ha : At f f' pre x post pre' x' post') (hx : x.name = c!"ipv4") (n : CStr) (o w : Nat)
    (hn : (findField HDR_IPV4 n).map (fun g => (g.offset, g.width)) = some (o, w)) (hz : given x' n = none → ∀ y ∈ pre, Tame y) :
    ∃ ft, findField HDR_IPV4 n = some ft ∧ ft.width = w ∧ numAt b (8 * totalSize pre' + o) w = numOf ft (given x' n) := by
  obtain ⟨_, hi', _⟩ := ipv4_done h ha hx
  cases hf : findField HDR_IPV4 n with
  | none => rw [hf] at hn; simp at hn
  | some ft =>
    rw [hf] at hn
    simp only [Option.map_some, Option.some.injEq, Prod.mk.injEq] at hn
    refine ⟨ft, rfl, hn.2, ?_⟩
    have := h.num ha hi' ipv4_tfits ipv4_disj hf (fun hn _ => hz hn)
    rw [hn.1, hn.2] at this
    exact this

/-- **C29.** Without a length given by the user, the total length field (bits 16 to 31 of the IPv4 header) is the
number of bytes from the IPv4 header to the end of the last header, modulo 65536. -/
theorem C29_ipv4_length (argv : List CStr) (f f' : Frame) (b : Buf) (h : Sent argv f f' b)
    (pre post pre' post' : List Hdr) (x x' : Hdr) (ha : At f f' pre x post pre' x' post')
    (hx : x.name = c!"ipv4") (hg : given x c!"len" = none) :
    numAt b (8 * totalSize pre' + 16) 16 = totalSize (x' :: post') % 65536 := by
  obtain ⟨hi, hi', e⟩ := ipv4_done h ha hx
  obtain ⟨f0, h0⟩ := look HDR_IPV4 c!"len" (by decide +kernel)
  have hlen : given x' c!"len" = some (beBytes 2 (totalSize (x' :: post'))) := by
    have hs : x'.size = x.size := by rw [hi.size, hi'.size]
    rw [← sum_total hs, e, given_setDefault_other _ _ (by decide)]
    unfold ipv4Filled0
    obtain ⟨f1, hf1⟩ := look HDR_IPV4 c!"proto" (by decide +kernel)
    have w1 : f1.width = 8 := width_of hf1 (by decide +kernel)
    obtain ⟨g, hg', _⟩ := (hi.setDefault (v := some (beBytes 1 (protoNum post'))) hf1
      (beBytes_len_ok (by rw [w1]; omega))).find' h0
    rw [given_setDefault hg', given_setDefault_other _ _ (by decide), hg]
    rfl
  obtain ⟨ft, h1, h2, h3⟩ := ipv4_num h ha hx c!"len" 16 16 (by decide +kernel) (fun hn => by rw [hlen] at hn; cases hn)
  rw [h3, hlen, numOf_be (k := 2) (by rw [h2])]

/-- **C30.** Without a protocol given by the user, the protocol field (bits 72 to 79) is the assigned number of the
header that follows (modulo 256; `icmp` is 1), or 17 if nothing follows. -/
theorem C30_ipv4_protocol (argv : List CStr) (f f' : Frame) (b : Buf) (h : Sent argv f f' b)
    (pre post pre' post' : List Hdr) (x x' : Hdr) (ha : At f f' pre x post pre' x' post')
    (hx : x.name = c!"ipv4") (hg : given x c!"proto" = none) :
    (post = [] → numAt b (8 * totalSize pre' + 72) 8 = 17) ∧
    (∀ y q, post = y :: q → ∀ p ∈ assigned, y.name = p.1 → numAt b (8 * totalSize pre' + 72) 8 = p.2 % 256) := by
  obtain ⟨hi, hi', e⟩ := ipv4_done h ha hx
  have hval : numAt b (8 * totalSize pre' + 72) 8 = protoNum post' % 256 := by
    obtain ⟨f0, h0⟩ := look HDR_IPV4 c!"proto" (by decide +kernel)
    have this : given x' c!"proto" = some (beBytes 1 (protoNum post')) := by
      rw [e, given_setDefault_other _ _ (by decide)]
      unfold ipv4Filled0
      obtain ⟨g, hg', _⟩ := hi.find' h0
      rw [given_setDefault_other _ _ (by decide), given_setDefault hg', hg]
      rfl
    obtain ⟨ft, h1, h2, h3⟩ := ipv4_num h ha hx c!"proto" 72 8 (by decide +kernel) (fun hn => by rw [this] at hn; cases hn)
    rw [h3, this, numOf_be (k := 1) (by rw [h2])]
  rw [hval]
  constructor
  · rintro rfl
    have hnil : post' = [] := by
      have := h.goods.2.1
      rw [ha.before, ha.after] at this
      simp only [List.length_append, List.length_cons, List.length_nil] at this
      have := ha.same
      exact List.eq_nil_of_length_eq_zero (by omega)
    rw [hnil]; rfl
  · rintro y q rfl p hp hy
    obtain ⟨y', q', rfl, hty⟩ := next_type h ha hp hy
    rcases hty with h4 | ⟨h4, h5⟩
    · simp only [protoNum]; rw [h4]
    · exfalso
      -- `icmp` is announced with 58 only directly above `ipv6`
      have hat : At f f' (pre ++ [x]) y q (pre' ++ [x']) y' q' := by
        refine ⟨by rw [ha.before]; simp, by rw [ha.after]; simp, by simp [ha.same]⟩
      have hpl := h.place hat
      have hiy := inst_icmp hpl.inst h4
      have hf := hpl.filled
      unfold fillHdr at hf
      have : HDR_ICMP.fill = .icmp := rfl
      rw [hiy.1.fill, this] at hf
      simp only at hf
      have hno : ipv6Below (pre ++ [x]) = none := by
        unfold ipv6Below
        rw [List.getLast?_concat]
        simp only [hx]
        exact if_neg (by decide)
      have : y'.type = y.type := by
        rcases fillIcmp_rel hf with ⟨rfl, _⟩ | ⟨_, v, _, ⟨_, rfl⟩ | ⟨hs, _⟩⟩
        · rfl
        · rfl
        · rw [hno] at hs; cases hs
      rw [this, hiy.2] at h5
      exact absurd h5 (by decide)

example : ∃ f f' b pre x post pre' x' post', Built udpWords f f' b ∧ At f f' pre x post pre' x' post' ∧
    x.name = c!"ipv4" ∧ given x c!"len" = none ∧ given x c!"proto" = none ∧ given x c!"chksum" = none ∧
    numAt b (8 * totalSize pre' + 16) 16 = 33 ∧ numAt b (8 * totalSize pre' + 72) 8 = 17 := by
  obtain ⟨f, f', b, pre, x, post, pre', x', post', h1, h2, h3⟩ := holdsAt_elim (argv := udpWords) (i := 1)
    (P := fun _ _ b _ x pre' _ => decide (x.name = c!"ipv4" ∧ given x c!"len" = none ∧ given x c!"proto" = none ∧
      given x c!"chksum" = none ∧ numAt b (8 * totalSize pre' + 16) 16 = 33 ∧ numAt b (8 * totalSize pre' + 72) 8 = 17))
    (by decide +kernel)
  simp only [decide_eq_true_eq] at h3
  exact ⟨f, f', b, pre, x, post, pre', x', post', h1, h2, h3⟩

/-! ## C38: IPv6 length and next header -/

/-- The completed IPv6 header. -/
theorem ipv6_done {argv : List CStr} {f f' : Frame} {b : Buf} (h : Sent argv f f' b) {pre post pre' post' : List Hdr}
    {x x' : Hdr} (ha : At f f' pre x post pre' x' post') (hx : x.name = c!"ipv6") :
    Inst HDR_IPV6 x ∧ Inst HDR_IPV6 x' ∧ x' = ipv6Filled x post' := by
  have hp := h.place ha
  have hi := (inst_ipv6 hp.inst hx).1
  have hf := hp.filled
  unfold fillHdr at hf
  have : HDR_IPV6.fill = .ipv6 := rfl
  rw [hi.fill, this] at hf
  simp only at hf
  obtain ⟨e1, e2⟩ := fillIpv6_eq hi post' hp.goods
  rw [e1] at hf
  simp only [Out.ok.injEq] at hf
  rw [hf] at e2
  exact ⟨hi, e2, hf.symm⟩

/-- A field of the IPv6 header inside the frame. -/
theorem ipv6_num {argv : List CStr} {f f' : Frame} {b : Buf} (h : Sent argv f f' b) {pre post pre' post' : List Hdr}
    {x x' : Hdr} (ha : At f f' pre x post pre' x' post') (hx : x.name = c!"ipv6") (n : CStr) (o w : Nat)
    (hn : (findField HDR_IPV6 n).map (fun g => (g.offset, g.width)) = some (o, w)) (hz : given x' n = none → ∀ y ∈ pre, Tame y) :
    ∃ ft, findField HDR_IPV6 n = some ft ∧ ft.width = w ∧ numAt b (8 * totalSize pre' + o) w = numOf ft (given x' n) := by
  obtain ⟨_, hi', _⟩ := ipv6_done h ha hx
  cases hf : findField HDR_IPV6 n with
  | none => rw [hf] at hn; simp at hn
  | some ft =>
    rw [hf] at hn
    simp only [Option.map_some, Option.some.injEq, Prod.mk.injEq] at hn
    refine ⟨ft, rfl, hn.2, ?_⟩
    have := h.num ha hi' ipv6_tfits ipv6_disj hf (fun hn _ => hz hn)
    rw [hn.1, hn.2] at this
    exact this

/-- **C38, length.** Without a length given by the user, the payload length field (bits 32 to 47) is the number of
bytes after the IPv6 header to the end of the last header, modulo 65536. -/
theorem C38_ipv6_length (argv : List CStr) (f f' : Frame) (b : Buf) (h : Sent argv f f' b)
    (pre post pre' post' : List Hdr) (x x' : Hdr) (ha : At f f' pre x post pre' x' post')
    (hx : x.name = c!"ipv6") (hg : given x c!"len" = none) :
    numAt b (8 * totalSize pre' + 32) 16 = totalSize post' % 65536 := by
  obtain ⟨hi, hi', e⟩ := ipv6_done h ha hx
  obtain ⟨f0, h0⟩ := look HDR_IPV6 c!"len" (by decide +kernel)
  have hlen : given x' c!"len" = some (beBytes 2 (sumSizes post')) := by
    rw [e]
    unfold ipv6Filled
    obtain ⟨f1, hf1⟩ := look HDR_IPV6 c!"next" (by decide +kernel)
    have w1 : f1.width = 8 := width_of hf1 (by decide +kernel)
    obtain ⟨g, hg', _⟩ := (hi.setDefault (v := some (beBytes 1 (protoNum post'))) hf1
      (beBytes_len_ok (by rw [w1]; omega))).find' h0
    rw [given_setDefault hg', given_setDefault_other _ _ (by decide), hg]
    rfl
  obtain ⟨ft, h1, h2, h3⟩ := ipv6_num h ha hx c!"len" 32 16 (by decide +kernel) (fun hn => by rw [hlen] at hn; cases hn)
  rw [h3, totalSize_eq, hlen, numOf_be (k := 2) (by rw [h2])]

/-- **C38, next header, full statement**: next header is the assigned number of the following header; for `icmp` and
`mld` this is 58. -/
def C38_next_statement : Prop :=
  ∀ argv f f' b, Sent argv f f' b → ∀ pre post pre' post' x x', At f f' pre x post pre' x' post' → x.name = c!"ipv6" →
    given x c!"next" = none →
    (post = [] → numAt b (8 * totalSize pre' + 48) 8 = 17) ∧
    ∀ y q, post = y :: q →
      (∀ p ∈ assigned, y.name = p.1 → y.name ≠ c!"icmp" → numAt b (8 * totalSize pre' + 48) 8 = p.2 % 256) ∧
      (y.name = c!"icmp" → numAt b (8 * totalSize pre' + 48) 8 = 58) ∧
      (y.name = c!"mld" → numAt b (8 * totalSize pre' + 48) 8 = 58)

/-- **C38, the part that holds**: as in the full statement, but `icmp` with a checksum given by the user is announced
as 1. Missing: `mld`, which is announced as 0 (`C38_false`). -/
theorem C38_ipv6_next_partial (argv : List CStr) (f f' : Frame) (b : Buf) (h : Sent argv f f' b)
    (pre post pre' post' : List Hdr) (x x' : Hdr) (ha : At f f' pre x post pre' x' post')
    (hx : x.name = c!"ipv6") (hg : given x c!"next" = none) :
    (post = [] → numAt b (8 * totalSize pre' + 48) 8 = 17) ∧
    ∀ y q, post = y :: q →
      (∀ p ∈ assigned, y.name = p.1 → y.name ≠ c!"icmp" → numAt b (8 * totalSize pre' + 48) 8 = p.2 % 256) ∧
      (y.name = c!"icmp" → numAt b (8 * totalSize pre' + 48) 8 = if given y c!"chksum" = none then 58 else 1) ∧
      (y.name = c!"mld" → numAt b (8 * totalSize pre' + 48) 8 = 0) := by
  obtain ⟨hi, hi', e⟩ := ipv6_done h ha hx
  have hval : numAt b (8 * totalSize pre' + 48) 8 = protoNum post' % 256 := by
    obtain ⟨f0, h0⟩ := look HDR_IPV6 c!"next" (by decide +kernel)
    have this : given x' c!"next" = some (beBytes 1 (protoNum post')) := by
      rw [e]
      unfold ipv6Filled
      obtain ⟨g, hg', _⟩ := hi.find' h0
      rw [given_setDefault_other _ _ (by decide), given_setDefault hg', hg]
      rfl
    obtain ⟨ft, h1, h2, h3⟩ := ipv6_num h ha hx c!"next" 48 8 (by decide +kernel) (fun hn => by rw [this] at hn; cases hn)
    rw [h3, this, numOf_be (k := 1) (by rw [h2])]
  rw [hval]
  obtain ⟨g1, g2, g3⟩ := h.goods
  have hl : post'.length = post.length := by
    have := g2
    rw [ha.before, ha.after] at this
    simp only [List.length_append, List.length_cons] at this
    have := ha.same
    omega
  constructor
  · rintro rfl
    rw [List.eq_nil_of_length_eq_zero hl]; rfl
  · rintro y q rfl
    match post', hl with
    | y' :: q', _ =>
      have hat : At f f' (pre ++ [x]) y q (pre' ++ [x']) y' q' := by
        refine ⟨by rw [ha.before]; simp, by rw [ha.after]; simp, by simp [ha.same]⟩
      have hpl := h.place hat
      simp only [protoNum]
      refine ⟨fun p hp hy hic => ?_, fun hy => ?_, fun hy => ?_⟩
      · rcases hpl.res.type with h5 | ⟨h5, _⟩
        · rw [h5, type_assigned hpl.inst hp hy]
        · exact absurd h5 hic
      · have hiy := inst_icmp hpl.inst hy
        have hf := hpl.filled
        unfold fillHdr at hf
        have : HDR_ICMP.fill = .icmp := rfl
        rw [hiy.1.fill, this] at hf
        simp only at hf
        obtain ⟨fc, hfc⟩ := look HDR_ICMP c!"chksum" (by decide +kernel)
        have hno : ipv6Below (pre ++ [x]) = some x := by
          unfold ipv6Below
          rw [List.getLast?_concat]
          simp only [hx]
          rfl
        cases hc : given y c!"chksum" with
        | some v =>
          rcases fillIcmp_rel hf with ⟨rfl, _⟩ | ⟨hc', _⟩
          · rw [hiy.2, if_neg (by simp)]; decide
          · rw [hc] at hc'; cases hc'
        | none =>
          rcases fillIcmp_rel hf with ⟨rfl, hs⟩ | ⟨_, v, _, ⟨hs, _⟩ | ⟨_, rfl⟩⟩
          · rw [hc] at hs; cases hs
          · rw [hno] at hs; cases hs
          · rfl
      · rcases hpl.res.type with h5 | ⟨h5, _⟩
        · rw [h5, (inst_mld hpl.inst hy).2]; decide
        · rw [hy] at h5; exact absurd h5 (by decide)

/-- `eth ipv6 sip ::1 dip ::2 mld` -/
def mldWords : List CStr := [c!"eth", c!"ipv6", c!"sip", c!"::1", c!"dip", c!"::2", c!"mld"]

/-- **C38 does not hold for MLD**: the next header is 0. -/
theorem C38_false : ¬ C38_next_statement := by
  intro h
  obtain ⟨f, f', b, pre, x, post, pre', x', post', h1, h2, h3⟩ := holdsAt_elim (argv := mldWords) (i := 1)
    (P := fun f _ b pre x pre' _ => decide (x.name = c!"ipv6" ∧ given x c!"next" = none ∧
      ((f.stack.drop (pre.length + 1)).map (·.name)) = [c!"mld"] ∧
      numAt b (8 * totalSize pre' + 48) 8 = 0)) (by decide +kernel)
  simp only [decide_eq_true_eq] at h3
  obtain ⟨q1, q2, q3, q4⟩ := h3
  have h5 := (h mldWords f f' b h1.toSent pre post pre' post' x x' h2 q1 q2).2
  have hd : f.stack.drop (pre.length + 1) = post := by rw [h2.before]; simp
  rw [hd] at q3
  cases post with
  | nil => simp at q3
  | cons y q =>
    simp only [List.map_cons, List.cons.injEq] at q3
    have := (h5 y q rfl).2.2 q3.1
    omega

/-- Non-trivial case: UDP over IPv6 with payload. -/
example : ∃ f f' b pre x post pre' x' post',
    Built [c!"eth", c!"ipv6", c!"udp", c!"data", c!"hex", c!"010203"] f f' b ∧ At f f' pre x post pre' x' post' ∧
    x.name = c!"ipv6" ∧ given x c!"len" = none ∧ given x c!"next" = none ∧
    numAt b (8 * totalSize pre' + 32) 16 = 11 ∧ numAt b (8 * totalSize pre' + 48) 8 = 17 := by
  obtain ⟨f, f', b, pre, x, post, pre', x', post', h1, h2, h3⟩ := holdsAt_elim
    (argv := [c!"eth", c!"ipv6", c!"udp", c!"data", c!"hex", c!"010203"]) (i := 1)
    (P := fun _ _ b _ x pre' _ => decide (x.name = c!"ipv6" ∧ given x c!"len" = none ∧ given x c!"next" = none ∧
      numAt b (8 * totalSize pre' + 32) 16 = 11 ∧ numAt b (8 * totalSize pre' + 48) 8 = 17)) (by decide +kernel)
  simp only [decide_eq_true_eq] at h3
  exact ⟨f, f', b, pre, x, post, pre', x', post', h1, h2, h3⟩

/-! ## C33: UDP length -/

/-- The completed UDP or TCP header. -/
theorem udp_done {argv : List CStr} {f f' : Frame} {b : Buf} (h : Built argv f f' b) {pre post pre' post' : List Hdr}
    {x x' : Hdr} (ha : At f f' pre x post pre' x' post') (t : Hdr) (ht : t = HDR_UDP ∨ t = HDR_TCP)
    (hi : Inst t x) (hty : x.type = t.type) : Inst t x' ∧ x' = udpFilled pre x post' := by
  have hp := h.place ha
  have hf := hp.filled
  unfold fillHdr at hf
  have : t.fill = .udpTcp := by rcases ht with rfl | rfl <;> rfl
  rw [hi.fill, this] at hf
  simp only at hf
  obtain ⟨e1, e2⟩ := fillUdpTcp_eq ht hi hty pre post' hp.below hp.goods (h.fitsAfter ha)
  rw [e1] at hf
  simp only [Out.ok.injEq] at hf
  rw [hf] at e2
  exact ⟨e2, hf.symm⟩

/-- The completed UDP or TCP header up to its checksum. -/
theorem udp_len {argv : List CStr} {f f' : Frame} {b : Buf} (h : Sent argv f f' b) {pre post pre' post' : List Hdr}
    {x x' : Hdr} (ha : At f f' pre x post pre' x' post') (t : Hdr) (ht : t = HDR_UDP ∨ t = HDR_TCP) (hi : Inst t x) :
    Inst t x' ∧ given x' c!"len" = given (lenFilled x post') c!"len" := by
  have hp := h.place ha
  have hf := hp.filled
  unfold fillHdr at hf
  have : t.fill = .udpTcp := by rcases ht with rfl | rfl <;> rfl
  rw [hi.fill, this] at hf
  simp only at hf
  unfold fillUdpTcp at hf
  rw [Out.bind_eq_ok] at hf
  obtain ⟨x1, h2, h3⟩ := hf
  have hw : ∀ ft, findField t c!"len" = some ft → ft.width = 16 := by
    intro ft hft
    rcases ht with rfl | rfl
    · exact width_of hft (by decide +kernel)
    · have : findField HDR_TCP c!"len" = none := by decide +kernel
      rw [this] at hft; simp at hft
  obtain ⟨e, ei⟩ := fillUdpLen_eq hi hw (inst_good hp.inst).small post' hp.goods
  rw [h2] at e
  cases e
  obtain ⟨fc, hfc⟩ := look t c!"chksum" (by rcases ht with rfl | rfl <;> decide +kernel)
  have wfc : fc.width = 16 := width_of hfc (by rcases ht with rfl | rfl <;> decide +kernel)
  rcases fillUdpChksum_rel h3 with rfl | ⟨_, v, hv, rfl⟩
  · exact ⟨ei, rfl⟩
  · exact ⟨ei.setChk hfc wfc hv, given_setVal_other _ _ (by decide)⟩

/-- **C33.** Without a length given by the user, the UDP length field (bits 32 to 47) is the number of bytes from the
UDP header to the end of the last header, modulo 65536. -/
theorem C33_udp_length (argv : List CStr) (f f' : Frame) (b : Buf) (h : Sent argv f f' b)
    (pre post pre' post' : List Hdr) (x x' : Hdr) (ha : At f f' pre x post pre' x' post')
    (hx : x.name = c!"udp") (hg : given x c!"len" = none) :
    numAt b (8 * totalSize pre' + 32) 16 = totalSize (x' :: post') % 65536 := by
  obtain ⟨hi, hty⟩ := inst_udp (h.place ha).inst hx
  obtain ⟨hi', e⟩ := udp_len h ha HDR_UDP (Or.inl rfl) hi
  obtain ⟨ft, h1⟩ := look HDR_UDP c!"len" (by decide +kernel)
  have w : ft.width = 16 := width_of h1 (by decide +kernel)
  have o : ft.offset = 32 := offset_of h1 (by decide +kernel)
  obtain ⟨g, hg', _⟩ := hi.find' h1
  have hlf : given (lenFilled x post') c!"len" = some (beBytes 2 (sumSizes (x :: post'))) := by
    unfold lenFilled
    rw [hg']
    simp only
    rw [given_setDefault hg', hg]
    rfl
  have hlen : given x' c!"len" = some (beBytes 2 (totalSize (x' :: post'))) := by
    have hs : x'.size = x.size := by rw [hi.size, hi'.size]
    rw [← sum_total hs, e]
    exact hlf
  have h3 := h.num ha hi' udp_tfits udp_disj h1 (fun hn => by rw [hlen] at hn; cases hn)
  rw [o, w] at h3
  rw [h3, hlen, numOf_be (k := 2) (by rw [w])]

example : ∃ f f' b pre x post pre' x' post', Built udpWords f f' b ∧ At f f' pre x post pre' x' post' ∧
    x.name = c!"udp" ∧ given x c!"len" = none ∧ numAt b (8 * totalSize pre' + 32) 16 = 13 := by
  obtain ⟨f, f', b, pre, x, post, pre', x', post', h1, h2, h3⟩ := holdsAt_elim (argv := udpWords) (i := 2)
    (P := fun _ _ b _ x pre' _ => decide (x.name = c!"udp" ∧ given x c!"len" = none ∧
      numAt b (8 * totalSize pre' + 32) 16 = 13)) (by decide +kernel)
  simp only [decide_eq_true_eq] at h3
  exact ⟨f, f', b, pre, x, post, pre', x', post', h1, h2, h3⟩

/-! ## C39: PTP lengths -/

/-- The PTP messages. -/
def ptpNames : List CStr := [c!"ptp-sync", c!"ptp-follow-up", c!"ptp-request", c!"ptp-response", c!"ptp-peer-request",
  c!"ptp-peer-response", c!"ptp-peer-response-follow-up", c!"ptp-announce"]

/-- The PTP TLVs. -/
def tlvNames : List CStr := [c!"ptp-tlv-org", c!"ptp-tlv-path"]

theorem ptp_table : ∀ t ∈ hdrTmpls, t.name ∈ ptpNames → t.fill = .ptp ∧ disjB t = true ∧
    (findField t c!"hdr-messageLength").map (·.width) = some 16 ∧
    (findField t c!"hdr-messageLength").map (·.offset) = some 16 := by decide +kernel

theorem tlv_table : ∀ t ∈ hdrTmpls, t.name ∈ tlvNames → t.fill = .ptpTlv ∧ disjB t = true ∧
    (findField t c!"tlv-length").map (·.width) = some 16 ∧
    (findField t c!"tlv-length").map (·.offset) = some 16 ∧ 4 ≤ t.size := by decide +kernel

/-- A header with a name that only one template has, and with a computed part, is an instance of that template. -/
theorem inst_by_name {x : Hdr} (hx : IsInst x) {ns : List CStr} {k : Fill} (hn : x.name ∈ ns)
    (hk : ∀ t ∈ hdrTmpls, t.name ∈ ns → t.fill = k) (hk' : k ≠ .coap ∧ k ≠ .coapOpt ∧ k ≠ .none) :
    ∃ t ∈ hdrTmpls, Inst t x ∧ t.name ∈ ns := by
  obtain ⟨t, ht, t', hv, hi, hty⟩ := hx
  have hnm : t.name ∈ ns := by rw [← variant_name hv, ← hi.name]; exact hn
  have := hk t ht hnm
  cases hv with
  | same => exact ⟨t, ht, hi, hnm⟩
  | coap => rw [← this] at hk'; exact absurd rfl hk'.1
  | opt => rw [← this] at hk'; exact absurd rfl hk'.2.1
  | pnet => rw [← this] at hk'; exact absurd rfl hk'.2.2
  | parms => rw [← this] at hk'; exact absurd rfl hk'.2.2
  | data => rw [← this] at hk'; exact absurd rfl hk'.2.2

/-- **C39, messages.** Without a message length given by the user, the message length field (bits 16 to 31) of a PTP
message is the number of bytes from its header to the end of the last header, modulo 65536. -/
theorem C39_ptp_length (argv : List CStr) (f f' : Frame) (b : Buf) (h : Sent argv f f' b)
    (pre post pre' post' : List Hdr) (x x' : Hdr) (ha : At f f' pre x post pre' x' post')
    (hx : x.name ∈ ptpNames) (hg : given x c!"hdr-messageLength" = none) :
    numAt b (8 * totalSize pre' + 16) 16 = totalSize (x' :: post') % 65536 := by
  have hp := h.place ha
  obtain ⟨t, ht, hi, hn⟩ := inst_by_name hp.inst hx (fun t ht hn => (ptp_table t ht hn).1) (by decide)
  obtain ⟨t1, t2, t3, t4⟩ := ptp_table t ht hn
  obtain ⟨ft, h1⟩ : ∃ ft, findField t c!"hdr-messageLength" = some ft := by
    cases e : findField t c!"hdr-messageLength" with
    | none => rw [e] at t3; simp at t3
    | some f => exact ⟨f, rfl⟩
  have w := width_of h1 t3
  have o := offset_of h1 t4
  have hf := hp.filled
  unfold fillHdr at hf
  rw [hi.fill, t1] at hf
  simp only at hf
  obtain ⟨e1, e2⟩ := fillPtp_eq hi (fun ft hft => width_of hft t3) (inst_good hp.inst).small post' hp.goods
  rw [e1] at hf
  simp only [Out.ok.injEq] at hf
  rw [hf] at e2
  obtain ⟨g, hg', _⟩ := hi.find' h1
  have hs : x'.size = x.size := by rw [hi.size, e2.size]
  have hlen : given x' c!"hdr-messageLength" = some (beBytes 2 (totalSize (x' :: post'))) := by
    rw [← sum_total hs, ← hf]
    unfold ptpFilled
    rw [hg']
    simp only
    rw [given_setDefault hg', hg]
    rfl
  have h3 := h.num ha e2 (tmpls_fit t ht) t2 h1 (fun hn => by rw [hlen] at hn; cases hn)
  rw [o, w] at h3
  rw [h3, hlen, numOf_be (k := 2) (by rw [w])]

/-- **C39, TLVs.** Without a length given by the user, the length field (bits 16 to 31) of a PTP TLV is the number of
bytes after this field to the end of the last header, modulo 65536. -/
theorem C39_tlv_length (argv : List CStr) (f f' : Frame) (b : Buf) (h : Sent argv f f' b)
    (pre post pre' post' : List Hdr) (x x' : Hdr) (ha : At f f' pre x post pre' x' post')
    (hx : x.name ∈ tlvNames) (hg : given x c!"tlv-length" = none) :
    4 ≤ totalSize (x' :: post') ∧ numAt b (8 * totalSize pre' + 16) 16 = (totalSize (x' :: post') - 4) % 65536 := by
  have hp := h.place ha
  obtain ⟨t, ht, hi, hn⟩ := inst_by_name hp.inst hx (fun t ht hn => (tlv_table t ht hn).1) (by decide)
  obtain ⟨t1, t2, t3, t4, t5⟩ := tlv_table t ht hn
  obtain ⟨ft, h1⟩ : ∃ ft, findField t c!"tlv-length" = some ft := by
    cases e : findField t c!"tlv-length" with
    | none => rw [e] at t3; simp at t3
    | some f => exact ⟨f, rfl⟩
  have w := width_of h1 t3
  have o := offset_of h1 t4
  have hf := hp.filled
  unfold fillHdr at hf
  rw [hi.fill, t1] at hf
  simp only at hf
  obtain ⟨e1, e2⟩ := fillPtpTlv_eq hi (fun ft hft => width_of hft t3) (inst_good hp.inst).small t5 post' hp.goods
  rw [e1] at hf
  simp only [Out.ok.injEq] at hf
  rw [hf] at e2
  obtain ⟨g, hg', _⟩ := hi.find' h1
  have hs : x'.size = x.size := by rw [hi.size, e2.size]
  have hlen : given x' c!"tlv-length" = some (beBytes 2 (totalSize (x' :: post') - 4)) := by
    rw [← sum_total hs, ← hf]
    unfold tlvFilled
    rw [hg']
    simp only
    rw [given_setDefault hg', hg]
    rfl
  have h3 := h.num ha e2 (tmpls_fit t ht) t2 h1 (fun hn => by rw [hlen] at hn; cases hn)
  rw [o, w] at h3
  rw [h3, hlen, numOf_be (k := 2) (by rw [w])]
  refine ⟨?_, rfl⟩
  rw [totalSize_cons, e2.size]
  omega

example : ∃ f f' b pre x post pre' x' post',
    Built [c!"eth", c!"ptp-sync", c!"ptp-tlv-org", c!"data", c!"hex", c!"0102"] f f' b ∧
    At f f' pre x post pre' x' post' ∧ x.name ∈ tlvNames ∧ given x c!"tlv-length" = none ∧
    numAt b (8 * totalSize pre' + 16) 16 = 30 := by
  obtain ⟨f, f', b, pre, x, post, pre', x', post', h1, h2, h3⟩ := holdsAt_elim
    (argv := [c!"eth", c!"ptp-sync", c!"ptp-tlv-org", c!"data", c!"hex", c!"0102"]) (i := 2)
    (P := fun _ _ b _ x pre' _ => decide (x.name ∈ tlvNames ∧ given x c!"tlv-length" = none ∧
      numAt b (8 * totalSize pre' + 16) 16 = 30)) (by decide +kernel)
  simp only [decide_eq_true_eq] at h3
  exact ⟨f, f', b, pre, x, post, pre', x', post', h1, h2, h3⟩

example : ∃ f f' b pre x post pre' x' post',
    Built [c!"eth", c!"ptp-sync", c!"ptp-tlv-org"] f f' b ∧
    At f f' pre x post pre' x' post' ∧ x.name ∈ ptpNames ∧ given x c!"hdr-messageLength" = none ∧
    numAt b (8 * totalSize pre' + 16) 16 = 76 := by
  obtain ⟨f, f', b, pre, x, post, pre', x', post', h1, h2, h3⟩ := holdsAt_elim
    (argv := [c!"eth", c!"ptp-sync", c!"ptp-tlv-org"]) (i := 1)
    (P := fun _ _ b _ x pre' _ => decide (x.name ∈ ptpNames ∧ given x c!"hdr-messageLength" = none ∧
      numAt b (8 * totalSize pre' + 16) 16 = 76)) (by decide +kernel)
  simp only [decide_eq_true_eq] at h3
  exact ⟨f, f', b, pre, x, post, pre', x', post', h1, h2, h3⟩

end Ef.Props
