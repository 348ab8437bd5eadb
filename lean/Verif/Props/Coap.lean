import Verif.Props.Values
import Verif.Spec.Coap
import Verif.Lemmas.HdrWords

/-!
# Properties C40 and C41: CoAP
-/

namespace Ef.Props

open Ef Spec

/-! ## Decoding an option -/

theorem nibble_byte : ∀ d : Fin 16, ∀ l : Fin 16,
    ((BitVec.ofNat 8 d.val <<< 4) ||| (BitVec.ofNat 8 l.val &&& 0x0f#8) : Byte).toNat = 16 * d.val + l.val := by decide +kernel

theorem nibble_lt (n : Nat) : (coapNibble n).1 < 15 := by
  unfold coapNibble
  split
  · split <;> simp
  · simp only; omega

theorem nibble_extended (n : Nat) (hn : n < 65536) (r : Buf) :
    extended (coapNibble n).1 ((coapNibble n).2 ++ r) = some (n, r) := by
  unfold coapNibble
  split
  · split
    · unfold extended
      simp only [List.cons_append, List.nil_append]
      rw [if_neg (by decide), if_pos trivial]
      simp only [BitVec.toNat_ofNat, Nat.shiftRight_eq_div_pow, Option.some.injEq, Prod.mk.injEq, and_true]
      omega
    · unfold extended
      simp only [List.cons_append, List.nil_append]
      rw [if_neg (by decide), if_neg (by decide), if_pos trivial]
      simp only [BitVec.toNat_ofNat, Option.some.injEq, Prod.mk.injEq, and_true]
      omega
  · unfold extended
    simp only [List.nil_append]
    rw [if_neg (by omega), if_neg (by omega), if_neg (by omega)]

theorem decode_opt (d : Nat) (v r : Buf) (hd : d < 65536) (hv : v.length < 65536) :
    decodeOption (coapOptHdr d v.length ++ v ++ r) = some (d, v, r) := by
  unfold decodeOption coapOptHdr
  simp only [List.cons_append]
  have hb := nibble_byte ⟨(coapNibble d).1, Nat.lt_succ_of_lt (nibble_lt d)⟩ ⟨(coapNibble v.length).1, Nat.lt_succ_of_lt (nibble_lt _)⟩
  simp only at hb
  rw [hb]
  have h1 := nibble_lt v.length
  rw [show (16 * (coapNibble d).1 + (coapNibble v.length).1) / 16 = (coapNibble d).1 by omega,
    show (16 * (coapNibble d).1 + (coapNibble v.length).1) % 16 = (coapNibble v.length).1 by omega]
  simp only [List.append_assoc]
  rw [nibble_extended d hd]
  simp only
  rw [nibble_extended v.length hv]
  simp

/-! ## C40 -/

/-- **C40, full statement**, for two consecutive options (`n1` and `n2` are their numbers, `v1` and `v2` their values):
decoding finds first `n1` and `v1`, then `v2` with the delta from `n1` to `n2`. -/
def C40_statement : Prop :=
  ∀ argv f f' b, Sent argv f f' b → ∀ pre post pre' post' x y x' y', At f f' pre x (y :: post) pre' x' (y' :: post') →
    x.name = c!"coap-opt" → y.name = c!"coap-opt" → (∀ z ∈ pre.getLast?, z.name ≠ c!"coap-opt") → ∀ n1 v1 n2 v2, given x c!"num" = some n1 → given x c!"val" = some v1 →
    given y c!"num" = some n2 → given y c!"val" = some v2 → beNat n1 ≤ beNat n2 → v1.length < 65536 → v2.length < 65536 →
    ∃ d1 d2 r, decodeOption (slice b (totalSize pre') (x'.size + y'.size)) = some (d1, v1, r) ∧
      decodeOption r = some (d2, v2, []) ∧ d1 = beNat n1 ∧ d1 + d2 = beNat n2

theorem inst_opt {x : Hdr} (hx : IsInst x) (hn : x.name = c!"coap-opt") : ∃ k m, k < maxVar ∧ Inst (optShape k m) x := by
  obtain ⟨t, ht', t', hv, hi, hty⟩ := hx
  have hnm := hi.name
  rw [hn] at hnm
  cases hv with
  | same =>
    have : ∀ t ∈ hdrTmpls, c!"coap-opt" = t.name → t = HDR_COAP_OPTIONS := by decide +kernel
    have h2 := this t ht' hnm
    subst h2
    refine ⟨0, 0, by decide, ?_⟩
    have : optShape 0 0 = HDR_COAP_OPTIONS := by decide +kernel
    rw [this]; exact hi
  | coap => simp [coapShape] at hnm
  | pnet => simp [pnetShape] at hnm
  | opt k m h1 h2 h3 => exact ⟨k, m, h2, hi⟩
  | parms => simp [parmsShape] at hnm
  | data => simp [dataShape] at hnm

/-- The bytes of an option. -/
theorem opt_bytes {argv : List CStr} {f f' : Frame} {b : Buf} (h : Sent argv f f' b) {pre post pre' post' : List Hdr} {x x' : Hdr}
    (ha : At f f' pre x post pre' x' post') (hx : x.name = c!"coap-opt") {n v : Buf} (hn : given x c!"num" = some n)
    (hv : given x c!"val" = some v) :
    n.length = 2 ∧ slice b (totalSize pre') x'.size = coapOptHdr (beNat n) (v.length % 2 ^ 16) ++ v := by
  have hp := h.place ha
  obtain ⟨k, m, hk, hi⟩ := inst_opt hp.inst hx
  have hf := hp.filled
  unfold fillHdr at hf
  have : (optShape k m).fill = .coapOpt := rfl
  rw [hi.fill, this] at hf
  simp only at hf
  rcases fillCoapOpt_eq hi with ⟨_, e | e⟩ | ⟨n', v', y, g1, g2, g3, g4, e, ety, ei, g5, g6⟩
  · rw [hn] at e; cases e
  · rw [hv] at e; cases e
  rw [hn] at g1; cases g1
  rw [hv] at g2; cases g2
  rw [e] at hf
  cases hf
  refine ⟨g3, ?_⟩
  subst g4
  have hl := coapOptHdr_len (beNat n) (v.length % 2 ^ 16)
  have hlen : ∃ j, j = (coapOptHdr (beNat n) (v.length % 2 ^ 16)).length := ⟨_, rfl⟩
  obtain ⟨j, hj⟩ := hlen
  rw [← hj] at hl ei
  have tf := optFilled_tfits j v.length hl.1 hl.2 hk
  have hd : disjB (optFilledShape j v.length) = true := by
    simp [disjB, disjB.go, optFilledShape]
  have f1 : findField (optFilledShape j v.length) c!"num" = some { name := c!"num", width := j * 8, offset := 0 } := rfl
  have f2 : findField (optFilledShape j v.length) c!"val" =
    some { name := c!"val", width := v.length * 8, offset := j * 8, multi := .coapOptVal } := rfl
  have e1 := h.num ha ei tf hd f1 (fun hn => by rw [g5] at hn; cases hn)
  have e2 := h.num ha ei tf hd f2 (fun hn => by rw [g6] at hn; cases hn)
  rw [g5] at e1
  rw [g6] at e2
  simp only [numOf, Option.or] at e1 e2
  have hlong := h.long ha
  have hsz : x'.size = j + v.length := ei.size
  rw [hsz] at hlong
  rw [hsz, slice_append]
  unfold slice
  rw [slice_eq b _ _ (by omega), slice_eq b _ _ (by omega), show 8 * j = j * 8 by omega,
    show 8 * v.length = v.length * 8 by omega, show 8 * (totalSize pre' + j) = 8 * totalSize pre' + j * 8 by omega, e2]
  rw [Nat.add_zero] at e1
  rw [e1]
  have key : ∀ w : Buf, beBytes w.length (beNat w % 2 ^ (w.length * 8)) = w := by
    intro w
    rw [Nat.mul_comm, Nat.pow_mul, show 2 ^ 8 = 256 from rfl, beBytes_mod, beBytes_beNat]
  rw [key v, hj, key]

/-- **C40, the part that holds**: every single option is encoded so that decoding gives its number as the delta, and its
value; what follows is left over. So the first option of a message decodes correctly. Missing: the number of a later
option is not taken relative to the option before it (`C40_false`). -/
theorem C40_option_partial (argv : List CStr) (f f' : Frame) (b : Buf) (h : Sent argv f f' b)
    (pre post pre' post' : List Hdr) (x x' : Hdr) (ha : At f f' pre x post pre' x' post') (hx : x.name = c!"coap-opt")
    (n v : Buf) (hn : given x c!"num" = some n) (hv : given x c!"val" = some v) (hl : v.length < 65536) :
    decodeOption (b.drop (totalSize pre')) = some (beNat n, v, b.drop (totalSize pre' + x'.size)) := by
  obtain ⟨h1, h2⟩ := opt_bytes h ha hx hn hv
  have : b.drop (totalSize pre') = slice b (totalSize pre') x'.size ++ b.drop (totalSize pre' + x'.size) := by
    unfold slice
    rw [← List.drop_drop, List.take_append_drop]
  rw [this, h2, Nat.mod_eq_of_lt hl]
  have := beNat_lt n
  rw [h1] at this
  exact decode_opt (beNat n) v _ this hl

/-- Two options with the numbers 4 and 11. -/
def optWords : List CStr :=
  [c!"eth", c!"ipv4", c!"udp", c!"coap", c!"coap-opt", c!"num", c!"4", c!"val", c!"ascii", c!"x",
    c!"coap-opt", c!"num", c!"11", c!"val", c!"ascii", c!"yz"]

/-- **C40 is false**: the second option is decoded as number 15. -/
theorem C40_false : ¬ C40_statement := by
  intro h
  obtain ⟨f, f', b, pre, x, post, pre', x', post', h1, h2, h3⟩ := holdsAt_elim (argv := optWords) (i := 4)
    (P := fun f f' b pre x pre' x' => decide (x.name = c!"coap-opt" ∧ (∀ z ∈ pre.getLast?, z.name ≠ c!"coap-opt") ∧
      given x c!"num" = some [0#8, 4#8] ∧ given x c!"val" = some c!"x" ∧
      (f.stack.drop (pre.length + 1)).map (fun y => (y.name, given y c!"num", given y c!"val")) =
        [(c!"coap-opt", some [0#8, 11#8], some c!"yz")] ∧
      (f'.stack.drop (pre'.length + 1)).map (fun y => y.size) = [3] ∧ x'.size = 2 ∧
      slice b (totalSize pre') 5 = [0x41#8, 0x78#8, 0xb2#8, 0x79#8, 0x7a#8])) (by decide +kernel)
  simp only [decide_eq_true_eq] at h3
  obtain ⟨q1, q1', q2, q3, q4, q5, q6, q7⟩ := h3
  rw [h2.before] at q4
  rw [h2.after] at q5
  rw [show List.drop (pre.length + 1) (pre ++ x :: post) = post by simp] at q4
  rw [show List.drop (pre'.length + 1) (pre' ++ x' :: post') = post' by simp] at q5
  obtain ⟨y, rfl, q4'⟩ := List.map_eq_singleton_iff.mp q4
  obtain ⟨y', rfl, q5'⟩ := List.map_eq_singleton_iff.mp q5
  rw [Prod.mk.injEq, Prod.mk.injEq] at q4'
  clear q4 q5
  obtain ⟨d1, d2, r, e1, e2, e3, e4⟩ := h optWords f f' b h1.toSent pre [] pre' [] x y x' y' h2 q1 q4'.1 q1' _ _ _ _ q2 q3 q4'.2.1 q4'.2.2
    (by decide) (by decide) (by decide)
  rw [q5', q6, q7] at e1
  have : decodeOption [0x41#8, 0x78#8, 0xb2#8, 0x79#8, 0x7a#8] = some (4, c!"x", [0xb2#8, 0x79#8, 0x7a#8]) := by decide +kernel
  rw [this] at e1
  simp only [Option.some.injEq, Prod.mk.injEq] at e1
  obtain ⟨rfl, _, rfl⟩ := e1
  have : decodeOption [0xb2#8, 0x79#8, 0x7a#8] = some (11, c!"yz", []) := by decide +kernel
  rw [this] at e2
  simp only [Option.some.injEq, Prod.mk.injEq] at e2
  obtain ⟨rfl, _⟩ := e2
  have : beNat [0#8, 11#8] = 11 := by decide
  omega

/-! ## C41: code -/

/-- **C41, code, full statement**: the texts `c.dd` give class times 32 plus detail, all others no value. `x` is the
header for which the assignments were given. -/
def C41_code_statement : Prop :=
  ∀ argv pre f0 lead as rest n f x s, Assigned argv pre f0 HDR_COAP lead as rest → argcFrame argv = .ok (some (n, f)) →
    f.stack[f0.stack.length]? = some x → lastOf as c!"code" = some s → ¬ IgnWord s →
    (∀ c d, c < 8 → d < 32 → s = codeText c d → given x c!"code" = some [BitVec.ofNat 8 (32 * c + d)]) ∧
    ((¬ ∃ c d, c < 8 ∧ d < 32 ∧ s = codeText c d) → given x c!"code" = none)

theorem code_ok : ∀ c : Fin 8, ∀ d : Fin 32, coapParseCode (codeText c.val d.val) = some [BitVec.ofNat 8 (32 * c.val + d.val)] := by
  decide +kernel

theorem byte_of_toNat {a : Byte} {n : Nat} (h : a.toNat = n) : a = BitVec.ofNat 8 n := by
  apply BitVec.eq_of_toNat_eq
  rw [BitVec.toNat_ofNat, ← h, Nat.mod_eq_of_lt a.isLt]

theorem code_bad {s : CStr} (hs : ∀ a, s[3]? = some a → a.toNat ≤ 57) (hn : ¬ ∃ c d, c < 8 ∧ d < 32 ∧ s = codeText c d) :
    coapParseCode s = none := by
  unfold coapParseCode
  split
  · rename_i s0 s1 s2 s3
    have h3 := hs s3 rfl
    split
    · rename_i h
      simp only
      split
      · rename_i hlt
        exfalso
        refine hn ⟨s0.toNat - 48, (s2.toNat - 48) * 10 + (s3.toNat - 48), by omega, by omega, ?_⟩
        unfold codeText
        rw [byte_of_toNat (a := s0) (n := 48 + (s0.toNat - 48)) (by omega), h.2.2.1,
          byte_of_toNat (a := s2) (n := 48 + ((s2.toNat - 48) * 10 + (s3.toNat - 48)) / 10) (by omega),
          byte_of_toNat (a := s3) (n := 48 + ((s2.toNat - 48) * 10 + (s3.toNat - 48)) % 10) (by omega)]
        simp only [BitVec.toNat_ofNat]
        congr 2 <;> (try congr 2) <;> (try congr 2) <;> omega
      · rfl
    · rfl
  · rfl

theorem coap_code_value {argv pre : List CStr} {f0 : Frame} {lead : List CStr} {as : List (CStr × CStr)} {rest : List CStr}
    {n : Nat} {f : Frame} {x : Hdr} {s : CStr} (hA : Assigned argv pre f0 HDR_COAP lead as rest)
    (h : argcFrame argv = .ok (some (n, f))) (hx : f.stack[f0.stack.length]? = some x) (hl : lastOf as c!"code" = some s)
    (hi : ¬ IgnWord s) : given x c!"code" = coapParseCode s := by
  rw [hA.words] at h
  have hne : as ≠ [] := by rintro rfl; simp [lastOf] at hl
  obtain ⟨e1, e2⟩ := asgn_header hA.pre hA.tmpl hA.kind hA.fresh hA.lead hA.plain hA.stop (Or.inr hne) h
  rw [hx] at e1
  cases e1
  obtain ⟨_, g2⟩ := asgn_given (tmpl_vals _ hA.tmpl) (lead := lead) e2 c!"code"
  have hft : findField HDR_COAP c!"code" = some { name := c!"code", width := 8, offset := 8, dflt := some [0#8], parser := .coapCode } := by
    decide +kernel
  have := (g2 s hl).2 hi _ hft
  unfold parseVal at this
  simp only [Out.ok.injEq] at this
  exact this.symm

/-- **C41, code, the part that holds**: all texts `c.dd`, and malformed texts whose fourth character is not behind the
digits. Missing: malformed texts like `0.0:` (`C41_false`). -/
theorem C41_code_partial {argv pre : List CStr} {f0 : Frame} {lead : List CStr} {as : List (CStr × CStr)} {rest : List CStr}
    {n : Nat} {f : Frame} {x : Hdr} {s : CStr} (hA : Assigned argv pre f0 HDR_COAP lead as rest)
    (h : argcFrame argv = .ok (some (n, f))) (hx : f.stack[f0.stack.length]? = some x) (hl : lastOf as c!"code" = some s)
    (hi : ¬ IgnWord s) :
    (∀ c d, c < 8 → d < 32 → s = codeText c d → given x c!"code" = some [BitVec.ofNat 8 (32 * c + d)]) ∧
    ((∀ a, s[3]? = some a → a.toNat ≤ 57) → (¬ ∃ c d, c < 8 ∧ d < 32 ∧ s = codeText c d) → given x c!"code" = none) := by
  rw [coap_code_value hA h hx hl hi]
  refine ⟨fun c d hc hd e => ?_, code_bad⟩
  rw [e]
  exact code_ok ⟨c, hc⟩ ⟨d, hd⟩

/-- `eth coap code S`. -/
theorem coap_case (s : CStr) : ∃ f0, Assigned [c!"eth", c!"coap", c!"code", s] [c!"eth"] f0 HDR_COAP [] [(c!"code", s)] [] ∧
    f0.stack.length = 1 := by
  have key : (match argcFrame [c!"eth"] with
      | .ok (some (n, f0)) => decide (n = 1 ∧ f0.stack.length = 1 ∧ ∀ h ∈ f0.stack.getLast?, ∀ g ∈ h.fields, g.name ≠ c!"coap")
      | _ => false) = true := by decide +kernel
  split at key
  · rename_i n f0 h0
    simp only [decide_eq_true_eq, Option.mem_def] at key
    obtain ⟨rfl, k1, k2⟩ := key
    refine ⟨f0, ⟨rfl, h0, by decide +kernel, rfl, k2, Or.inl rfl, ?_, ?_⟩, k1⟩
    · intro a ha
      simp only [List.mem_cons, List.not_mem_nil, or_false] at ha
      subst ha
      exact ⟨by simp only; decide, { name := c!"code", width := 8, offset := 8, dflt := some [0#8], parser := .coapCode },
        by simp only; decide +kernel, rfl, by decide, by decide⟩
    · intro x tl e
      cases e
  · simp at key

/-- **C41 is false**: the code `0.0:` gives the value 10. -/
theorem C41_false : ¬ C41_code_statement := by
  intro h
  obtain ⟨f0, hA, hl⟩ := coap_case c!"0.0:"
  have key : (match argcFrame [c!"eth", c!"coap", c!"code", c!"0.0:"] with
      | .ok (some (_, f)) => decide (f.stack[1]?.map (fun x => given x c!"code") = some (some [10#8]))
      | _ => false) = true := by decide +kernel
  split at key
  · rename_i n f hf
    simp only [decide_eq_true_eq] at key
    obtain ⟨x, hx, hv⟩ := Option.map_eq_some_iff.mp key
    have := (h _ _ _ _ _ _ _ _ x c!"0.0:" hA hf (by rw [hl]; exact hx) (by decide) (by decide)).2 (by
      rintro ⟨c, d, hc, hd, e⟩
      unfold codeText at e
      simp only [List.cons.injEq, and_true] at e
      have := congrArg BitVec.toNat e.2.2.2
      simp only [BitVec.toNat_ofNat] at this
      omega)
    rw [hv] at this
    cases this
  · simp at key

/-- **C41, code, in the frame**: bits 8 to 15 of the header. -/
theorem C41_code_on_the_wire {argv pre rest lead : List CStr} {f0 f f' : Frame} {b : Buf} {as : List (CStr × CStr)}
    (hA : Assigned argv pre f0 HDR_COAP lead as rest) (hB : Sent argv f f' b)
    (hp hq hp' hq' : List Hdr) (x x' : Hdr) (ha : At f f' hp x hq hp' x' hq') (hpos : hp.length = f0.stack.length)
    (c d : Nat) (hc : c < 8) (hd : d < 32) (hl : lastOf as c!"code" = some (codeText c d)) :
    numAt b (8 * totalSize hp' + 8) 8 = 32 * c + d := by
  have hft : findField HDR_COAP c!"code" = some { name := c!"code", width := 8, offset := 8, dflt := some [0#8], parser := .coapCode } := by
    decide +kernel
  obtain ⟨l1, l2, hs⟩ := sep_of_disj (t := HDR_COAP) (by decide +kernel) hft
  have hni : ¬ IgnWord (codeText c d) := by
    rintro (h | h) <;> unfold codeText at h <;> simp at h
  obtain ⟨o', e1, e2, e3⟩ := wire_value hA hB (by decide) ha hpos hs.split (by rw [hs.name]; exact hs.fresh) (by
    intro k hk i hc
    have := hs.after k hk
    unfold covers at hc
    omega) hl hni
  have : coapParseCode (codeText c d) = o' := by
    unfold parseVal at e1
    simpa using e1
  rw [code_ok ⟨c, hc⟩ ⟨d, hd⟩] at this
  have h4 := e3 _ this.symm
  simp only at h4
  rw [h4]
  simp only [beNat, List.foldl_cons, List.foldl_nil, BitVec.toNat_ofNat]
  omega

/-! ## C41: token -/

theorem inst_coap {x : Hdr} (hx : IsInst x) (hn : x.name = c!"coap") : ∃ k, k ≤ 8 ∧ Inst (coapShape k) x := by
  obtain ⟨t, ht', t', hv, hi, hty⟩ := hx
  have hnm := hi.name
  rw [hn] at hnm
  cases hv with
  | same =>
    have : ∀ t ∈ hdrTmpls, c!"coap" = t.name → t = HDR_COAP := by decide +kernel
    have h2 := this t ht' hnm
    subst h2
    rw [coap_shape] at hi
    exact ⟨0, by omega, hi⟩
  | coap k hk => exact ⟨k, hk, hi⟩
  | pnet => simp [pnetShape] at hnm
  | opt k m h1 h2 h3 => simp [optShape] at hnm
  | parms => simp [parmsShape] at hnm
  | data => simp [dataShape] at hnm

/-- **C41, token**: a token that was given follows the fixed header of four bytes and ends the header; unless the length
field (bits 4 to 7) is given too, it is the length of the token. Tokens are never empty, see `C41_token_text`. -/
theorem C41_token_on_the_wire (argv : List CStr) (f f' : Frame) (b : Buf) (h : Sent argv f f' b)
    (pre post pre' post' : List Hdr) (x x' : Hdr) (ha : At f f' pre x post pre' x' post') (hx : x.name = c!"coap")
    (v : Buf) (hv : given x c!"token" = some v) (hvn : v ≠ []) :
    v.length ≤ 8 ∧ x'.size = 4 + v.length ∧ slice b (totalSize pre' + 4) v.length = v ∧
    (given x c!"tkl" = none → numAt b (8 * totalSize pre' + 4) 4 = v.length) := by
  have hp := h.place ha
  obtain ⟨k, hk, hi⟩ := inst_coap hp.inst hx
  have hft : findField (coapShape k) c!"token" = some { name := c!"token", width := k * 8, offset := 32, parser := .coapToken } := rfl
  have hftk : findField (coapShape k) c!"tkl" = some { name := c!"tkl", width := 4, offset := 4, dflt := some [0#8] } := rfl
  have hlen : v.length = k := by
    obtain ⟨g, _, hg, hgi, hgv⟩ := hi.getField hft
    have := hgi.len v (by rw [hgv, hv])
    simp only [varLen] at this
    simp at this
    omega
  subst hlen
  have hf := hp.filled
  unfold fillHdr at hf
  have : (coapShape v.length).fill = .coap := rfl
  rw [hi.fill, this] at hf
  simp only at hf
  obtain ⟨e1, e2⟩ := fillCoap_eq hk hi
  rw [e1] at hf
  simp only [Out.ok.injEq] at hf
  rw [hf] at e2
  have tf : TFits (coapShape v.length) := Variant.fits (t := HDR_COAP) (by decide +kernel) (Variant.coap (B := 100) _ hk)
  have hd : disjB (coapShape v.length) = true := by simp [disjB, disjB.go, coapShape]
  have hsz : x'.size = 4 + v.length := e2.size
  have hgt : given x' c!"token" = some v := hp.res.keeps.given _ _ hv (by rw [hx]; decide)
  refine ⟨hk, hsz, ?_, fun hn => ?_⟩
  · have e1 := h.num ha e2 tf hd hft (fun hn => by rw [hgt] at hn; cases hn)
    rw [hgt] at e1
    simp only [numOf, Option.or] at e1
    have hlong := h.long ha
    unfold slice
    rw [slice_eq b _ _ (by omega), show 8 * (totalSize pre' + 4) = 8 * totalSize pre' + 32 by omega,
      show 8 * v.length = v.length * 8 by omega, e1, Nat.mul_comm, Nat.pow_mul, show 2 ^ 8 = 256 from rfl, beBytes_mod, beBytes_beNat]
  · have e1 := h.num ha e2 tf hd hftk (fun _ hn => by cases hn)
    simp only at e1
    rw [e1]
    have hgk : given x' c!"tkl" = some (beBytes 1 (bitToByte (v.length * 8))) := by
      rw [← hf]
      unfold coapFilled
      rw [hn, hv]
      simp only [Option.isSome_none, Option.isNone_some, Bool.or_false, Bool.false_eq_true, if_false]
      obtain ⟨g, _, hg, _⟩ := hi.getField hftk
      exact given_setVal hg _
    rw [hgk]
    simp only [numOf, Option.or]
    rw [beNat_beBytes]
    unfold bitToByte
    have := List.length_pos_iff.mpr hvn
    omega

theorem updField_names (h : Hdr) (n : CStr) (g : Field → Field) (hg : ∀ f, (g f).name = f.name) :
    (updField h n g).fields.map Field.name = h.fields.map Field.name := by
  unfold updField
  simp only
  induction h.fields with
  | nil => rfl
  | cons a l ih =>
    unfold updFirst
    split
    · simp [hg]
    · simp [ih]

/-- **C41, token, text**: hexadecimal digit pairs with delimiters, one to eight bytes; anything else gives no token. -/
theorem C41_token_text {pre rest : List CStr} {f0 f : Frame} {s : CStr} {n : Nat} {x : Hdr}
    (hpre : argcFrame pre = .ok (some (pre.length, f0))) (hend : NotField f0 c!"coap") (hi : ¬ IgnWord s) (hh : s ≠ c!"help")
    (hr : ∀ w ∈ rest.head?, w ≠ c!"help" ∧ ∀ g ∈ HDR_COAP.fields, g.name ≠ w)
    (h : argcFrame (pre ++ c!"coap" :: c!"token" :: s :: rest) = .ok (some (n, f)))
    (hx : f.stack[f0.stack.length]? = some x) :
    (∀ v, HexText s v → v ≠ [] → v.length ≤ 8 → given x c!"token" = some v) ∧
    ((¬ ∃ v, HexText s v ∧ v ≠ [] ∧ v.length ≤ 8) → given x c!"token" = none) := by
  have ht : HDR_COAP ∈ hdrTmpls := by decide +kernel
  have hni := not_isIgn hi
  have hfd : findField HDR_COAP c!"token" = some { name := c!"token", width := 0, offset := 32, parser := .coapToken } := by
    decide +kernel
  have hstep : ∀ m h' o, coapParseToken (setVal HDR_COAP c!"token" none) s = .ok (h', o) →
      h'.fields.map Field.name = HDR_COAP.fields.map Field.name →
      parseFields HDR_COAP m (c!"token" :: s :: rest) =
        .ok (some (2, updField h' c!"token" (fun f => { f with val := o, rxSkip := false }), m)) := by
    intro m h' o e hnm
    unfold parseFields
    rw [List.length_cons]
    conv => lhs; unfold parseFieldsLoop
    simp only
    rw [if_neg (by decide), if_neg (by decide), hfd]
    simp only
    rw [if_neg (by rw [hni]; simp), if_neg hh, if_neg (by simp)]
    unfold runFieldParser
    simp only
    rw [e]
    simp only [Out.ok_bind, Nat.zero_add]
    refine pfl_stop (by decide) ?_
    intro w tl e
    subst e
    obtain ⟨a1, a2⟩ := hr w (by simp)
    refine ⟨a1, findField_none ?_⟩
    intro g hg
    have : g.name ∈ HDR_COAP.fields.map Field.name := by
      rw [← hnm, ← updField_names h' c!"token" (fun f => { f with val := o, rxSkip := false }) (fun _ => rfl)]
      exact List.mem_map.mpr ⟨g, hg, rfl⟩
    obtain ⟨g', h1, h2⟩ := List.mem_map.mp this
    rw [← h2]; exact a2 g' h1
  have hrun : ∀ h' o, coapParseToken (setVal HDR_COAP c!"token" none) s = .ok (h', o) →
      h'.fields.map Field.name = HDR_COAP.fields.map Field.name →
      x = updField h' c!"token" (fun f => { f with val := o, rxSkip := false }) := by
    intro h' o e hnm
    have := header_of_words (h := updField h' c!"token" (fun f => { f with val := o, rxSkip := false })) hpre ht hend
      (rest := c!"token" :: s :: rest) (n := 2) (pad := f0.padding) (m := f0.hasMask) (by
        unfold runHdrParser
        have h2 : HDR_COAP.parser = .fields := rfl
        rw [h2]
        simp only
        rw [hstep f0.hasMask h' o e hnm]
        rfl) h
    rw [hx] at this
    exact Option.some.inj this
  have hself : setVal HDR_COAP c!"token" none = coapShape 0 := by decide +kernel
  constructor
  · intro v hv hne hl
    have hp := parseVarBytesHex_text hv hne 1
    have hlp : 0 < v.length := List.length_pos_iff.mpr hne
    rw [show 1 - v.length = 0 by omega, show zeros 0 = [] from rfl, List.append_nil] at hp
    have hc : coapParseToken (setVal HDR_COAP c!"token" none) s = .ok (coapShape v.length, some v) := by
      unfold coapParseToken
      rw [hp, Out.ok_bind, hself]
      simp only
      rw [if_neg (by omega)]
      simp [relayoutHdr, relayout, coapShape]
      omega
    rw [hrun _ _ hc (by rw [coap_shape]; rfl)]
    rfl
  · intro hn
    have hc : coapParseToken (setVal HDR_COAP c!"token" none) s = .ok (coapShape 0, none) := by
      unfold coapParseToken
      by_cases ht : ∃ b, b ≠ [] ∧ HexText s b
      · obtain ⟨b, hb, hb'⟩ := ht
        rw [parseVarBytesHex_text hb' hb 1, Out.ok_bind, hself]
        simp only
        rw [if_pos]
        refine Or.inl ?_
        have : ¬ b.length ≤ 8 := fun h => hn ⟨b, hb', hb, h⟩
        simp only [List.length_append]
        omega
      · rw [parseVarBytesHex_not_text ht 1, Out.ok_bind, hself]
    rw [hrun _ _ hc (by rw [coap_shape])]
    rfl

/-- A case: token of three bytes with a delimiter. -/
example : ∃ f f' b pre x post pre' x' post', Built [c!"eth", c!"coap", c!"token", c!"01-02ff", c!"data"] f f' b ∧
    At f f' pre x post pre' x' post' ∧ x.name = c!"coap" ∧ given x c!"token" = some [1#8, 2#8, 255#8] ∧
    given x c!"tkl" = none ∧ numAt b (8 * totalSize pre' + 4) 4 = 3 := by
  obtain ⟨f, f', b, pre, x, post, pre', x', post', h1, h2, h3⟩ := holdsAt_elim
    (argv := [c!"eth", c!"coap", c!"token", c!"01-02ff", c!"data"]) (i := 1)
    (P := fun _ _ b _ x pre' _ => decide (x.name = c!"coap" ∧ given x c!"token" = some [1#8, 2#8, 255#8] ∧
      given x c!"tkl" = none ∧ numAt b (8 * totalSize pre' + 4) 4 = 3)) (by decide +kernel)
  simp only [decide_eq_true_eq] at h3
  exact ⟨f, f', b, pre, x, post, pre', x', post', h1, h2, h3⟩

end Ef.Props
