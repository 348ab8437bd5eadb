import Verif.Spec.CoapMsg
import Verif.Props.Coap
import Verif.Props.Payload
import Verif.Props.Receiver

/-!
# What a CoAP receiver makes of a message (C102)
-/

namespace Ef.Props

open Ef Ef.Spec

/-! ## C102 -/

/-- The header `coap` with nothing given that would make the message a malformed one: version and token length are left to
the program, and there is no token that was taken back (tokens are never empty, see `C41_token_text`). -/
structure PlainCoap (x : Hdr) : Prop where
  name : x.name = c!"coap"
  ver : given x c!"ver" = none
  tkl : given x c!"tkl" = none
  token : given x c!"token" = none → x.size = 4
  some : given x c!"token" ≠ some []

/-- The options of the message: headers `coap-opt` with these numbers and values. -/
inductive Options : List Hdr → List (Nat × Buf) → Prop
  | nil : Options [] []
  | cons {x : Hdr} {xs : List Hdr} {n v : Buf} {os : List (Nat × Buf)} : x.name = c!"coap-opt" → given x c!"num" = some n →
      given x c!"val" = some v → v.length < 65536 → Options xs os → Options (x :: xs) ((beNat n, v) :: os)

/-- The end of the message: nothing, or `coap-parms` with some bytes. -/
inductive Ending : List Hdr → Buf → Prop
  | none : Ending [] []
  | parms {x : Hdr} {p : Buf} : x.name = c!"coap-parms" → given x c!"par" = some (0xff#8 :: p) → p ≠ [] → Ending [x] p

/-- What the headers say. -/
def messageOf (x : Hdr) (os : List (Nat × Buf)) (p : Buf) : CoapMessage where
  type := asNum 2 (given x c!"type")
  code := asNum 8 (given x c!"code")
  id := asNum 16 (given x c!"msgid")
  token := (given x c!"token").getD []
  options := os
  payload := p

/-- **C102, full statement**: the message is decoded to what was given. -/
def C102_statement : Prop :=
  ∀ argv f f' b, Sent argv f f' b → ∀ pre x opts post os p pre' msg', f.stack = pre ++ x :: (opts ++ post) →
    f'.stack = pre' ++ msg' → pre'.length = pre.length → PlainCoap x → Options opts os → Ending post p →
    decodeMessage (slice b (totalSize pre') (totalSize msg')) = some (messageOf x os p)

theorem optHdr_head (d l : Nat) : ∃ a r, coapOptHdr d l = a :: r ∧ a ≠ 0xff#8 := by
  refine ⟨_, _, rfl, ?_⟩
  intro e
  have hb := nibble_byte ⟨(coapNibble d).1, Nat.lt_succ_of_lt (nibble_lt d)⟩ ⟨(coapNibble l).1, Nat.lt_succ_of_lt (nibble_lt _)⟩
  simp only at hb
  rw [e] at hb
  have h1 := nibble_lt d
  have h2 := nibble_lt l
  simp at hb
  omega

/-- The bytes of options. -/
def optionBytes (os : List (Nat × Buf)) : Buf := (os.map fun o => coapOptHdr o.1 o.2.length ++ o.2).flatten

theorem decode_options {p tail : Buf} (htail : (tail = [] ∧ p = []) ∨ (tail = 0xff#8 :: p ∧ p ≠ [])) :
    ∀ (os : List (Nat × Buf)) (s k : Nat), (∀ o ∈ os, o.1 < 65536 ∧ o.2.length < 65536) →
    (optionBytes os ++ tail).length ≤ k →
    decodeOptions k s (optionBytes os ++ tail) = some ((runningSums s (os.map (·.1))).zip (os.map (·.2)), p) := by
  intro os
  induction os with
  | nil =>
    intro s k _ hk
    rcases htail with ⟨rfl, rfl⟩ | ⟨rfl, hp⟩
    · cases k <;> simp [optionBytes, decodeOptions, runningSums]
    · cases k with
      | zero => simp [optionBytes] at hk
      | succ k => simp [optionBytes, decodeOptions, runningSums, hp]
  | cons o os ih =>
    intro s k ho hk
    obtain ⟨h1, h2⟩ := ho o (by simp)
    have e : optionBytes (o :: os) ++ tail = coapOptHdr o.1 o.2.length ++ o.2 ++ (optionBytes os ++ tail) := by
      simp [optionBytes]
    rw [e] at hk ⊢
    obtain ⟨a, r, hr, ha⟩ := optHdr_head o.1 o.2.length
    have hdec := decode_opt o.1 o.2 (optionBytes os ++ tail) h1 h2
    rw [hr] at hdec hk ⊢
    simp only [List.cons_append] at hdec hk ⊢
    cases k with
    | zero => simp at hk
    | succ k =>
      unfold decodeOptions
      rw [if_neg ha, hdec]
      simp only
      rw [ih (s + o.1) k (fun q hq => ho q (by simp [hq])) (by
        simp only [List.length_cons, List.length_append] at hk ⊢; omega)]
      simp [runningSums]

/-- The bytes of the options in the frame. -/
theorem options_bytes {argv : List CStr} {f f' : Frame} {b : Buf} (h : Sent argv f f' b) {opts : List Hdr}
    {os : List (Nat × Buf)} (ho : Options opts os) : ∀ {pre post pre' rest' : List Hdr}, f.stack = pre ++ (opts ++ post) →
    f'.stack = pre' ++ rest' → pre'.length = pre.length →
    ∃ opts' post', rest' = opts' ++ post' ∧ opts'.length = opts.length ∧
      slice b (totalSize pre') (totalSize opts') = optionBytes os ∧ ∀ o ∈ os, o.1 < 65536 ∧ o.2.length < 65536 := by
  induction ho with
  | nil =>
    intro pre post pre' rest' e1 e2 e3
    exact ⟨[], rest', rfl, rfl, by simp [slice, totalSize, optionBytes], by simp⟩
  | @cons x xs n v os hx hn hv hl ho ih =>
    intro pre post pre' rest' e1 e2 e3
    have hlen := h.goods.2.1
    rw [e1, e2] at hlen
    cases rest' with
    | nil => simp at hlen; omega
    | cons x' tl' =>
      have ha : At f f' pre x (xs ++ post) pre' x' tl' := ⟨by simpa using e1, e2, e3⟩
      obtain ⟨h1, h2⟩ := opt_bytes h ha hx hn hv
      obtain ⟨opts', post', i1, i2, i3, i4⟩ := ih (pre := pre ++ [x]) (post := post) (pre' := pre' ++ [x']) (rest' := tl')
        (by simp [e1]) (by simp [e2]) (by simp [e3])
      refine ⟨x' :: opts', post', by rw [i1]; rfl, by simp [i2], ?_, ?_⟩
      · rw [totalSize_cons, slice_append, h2, Nat.mod_eq_of_lt hl]
        have : totalSize (pre' ++ [x']) = totalSize pre' + x'.size := by simp [totalSize]
        rw [this] at i3
        rw [i3]
        simp [optionBytes]
      · intro o hm
        rcases List.mem_cons.mp hm with rfl | hm
        · have := beNat_lt n
          rw [h1] at this
          exact ⟨this, hl⟩
        · exact i4 o hm

/-- The bytes at the end of the message. -/
theorem ending_bytes {argv : List CStr} {f f' : Frame} {b : Buf} (h : Sent argv f f' b) {post : List Hdr} {p : Buf}
    (he : Ending post p) {pre pre' post' : List Hdr} (e1 : f.stack = pre ++ post) (e2 : f'.stack = pre' ++ post')
    (e3 : pre'.length = pre.length) :
    ∃ tail, slice b (totalSize pre') (totalSize post') = tail ∧ ((tail = [] ∧ p = []) ∨ (tail = 0xff#8 :: p ∧ p ≠ [])) := by
  have hlen := h.goods.2.1
  rw [e1, e2] at hlen
  simp only [List.length_append] at hlen
  cases he with
  | none =>
    have : post' = [] := List.length_eq_zero_iff.mp (by simp at hlen; omega)
    subst this
    exact ⟨[], by simp [slice, totalSize], Or.inl ⟨rfl, rfl⟩⟩
  | @parms x p hx hp hne =>
    match post', hlen with
    | [x'], _ =>
      have ha : At f f' pre x [] pre' x' [] := ⟨e1, e2, e3⟩
      have hpl := h.place ha
      obtain ⟨k, hfit, hi⟩ := inst_parms hpl.inst hx
      have hf := hpl.filled
      unfold fillHdr at hf
      rw [hi.fill] at hf
      have : (parmsShape k).fill = .none := rfl
      rw [this] at hf
      simp only [Out.ok.injEq] at hf
      subst hf
      have hft : findField (parmsShape k) c!"par" = some { name := c!"par", width := k * 8, offset := 0, multi := .coapParms } := rfl
      have hk : (0xff#8 :: p).length = k := by
        obtain ⟨g, _, hg, hgi, hgv⟩ := hi.getField hft
        have := hgi.len (0xff#8 :: p) (by rw [hgv, hp])
        simp only [varLen] at this
        simp at this
        simp; omega
      have hb := field_bytes h ha hi hfit (by simp [disjB, disjB.go, parmsShape]) hft hp (o := 0) rfl (by simp only; omega)
      have hsz : x.size = (0xff#8 :: p).length := by
        rw [hi.size, hk]
        have : (parmsShape k).size = max 1 k := rfl
        rw [this, ← hk]
        simp
      refine ⟨0xff#8 :: p, ?_, Or.inr ⟨rfl, hne⟩⟩
      rw [show totalSize [x] = x.size by simp [totalSize], hsz]
      simpa using hb
    | [], hl => simp at hl; omega
    | _ :: _ :: _, hl => simp at hl; omega

/-- The header of the message. -/
theorem coap_head {argv : List CStr} {f f' : Frame} {b : Buf} (h : Sent argv f f' b)
    {pre post pre' post' : List Hdr} {x x' : Hdr} (ha : At f f' pre x post pre' x' post') (hx : PlainCoap x) :
    x'.size = 4 + ((given x c!"token").getD []).length ∧ ((given x c!"token").getD []).length ≤ 8 ∧
    slice b (totalSize pre' + 4) ((given x c!"token").getD []).length = (given x c!"token").getD [] ∧
    numAt b (8 * totalSize pre') 2 = 1 ∧ numAt b (8 * totalSize pre' + 2) 2 = asNum 2 (given x c!"type") ∧
    numAt b (8 * totalSize pre' + 4) 4 = ((given x c!"token").getD []).length ∧
    numAt b (8 * totalSize pre' + 8) 8 = asNum 8 (given x c!"code") ∧
    numAt b (8 * totalSize pre' + 16) 16 = asNum 16 (given x c!"msgid") := by
  have hp := h.place ha
  obtain ⟨k, hk, hi⟩ := inst_coap hp.inst hx.name
  have hft : findField (coapShape k) c!"token" = some { name := c!"token", width := k * 8, offset := 32, parser := .coapToken } := rfl
  have hlen : ((given x c!"token").getD []).length = k := by
    cases ht : given x c!"token" with
    | none =>
      have := hx.token ht
      have hs : x.size = 4 + k := hi.size
      simp; omega
    | some v =>
      obtain ⟨g, _, hg, hgi, hgv⟩ := hi.getField hft
      have := hgi.len v (by rw [hgv, ht])
      simp only [varLen] at this
      simp at this ⊢
      omega
  have hf := hp.filled
  unfold fillHdr at hf
  have : (coapShape k).fill = .coap := rfl
  rw [hi.fill, this] at hf
  simp only at hf
  obtain ⟨e1, e2⟩ := fillCoap_eq hk hi
  rw [e1] at hf
  simp only [Out.ok.injEq] at hf
  rw [hf] at e2
  have tf : TFits (coapShape k) := Variant.fits (t := HDR_COAP) (by decide +kernel) (Variant.coap (B := 100) _ hk)
  have hd : disjB (coapShape k) = true := by simp [disjB, disjB.go, coapShape]
  have hsz : x'.size = 4 + k := e2.size
  have other : ∀ n, n ≠ c!"tkl" → given x' n = given x n := by
    intro n hn
    rw [← hf]
    unfold coapFilled
    split
    · rfl
    · exact given_setVal_other _ _ hn
  have num : ∀ n ft, findField (coapShape k) n = some ft → ft.dflt ≠ none →
      numAt b (8 * totalSize pre' + ft.offset) ft.width = numOf ft (given x' n) :=
    fun n ft hn hdf => h.num ha e2 tf hd hn (fun _ hz => (hdf hz).elim)
  rw [hlen]
  refine ⟨hsz, hk, ?_, ?_, ?_, ?_, ?_, ?_⟩
  · cases ht : given x c!"token" with
    | none =>
      rw [ht] at hlen
      simp at hlen
      simp [← hlen, slice]
    | some v =>
      rw [ht] at hlen
      simp only [Option.getD_some] at hlen ⊢
      have hgt : given x' c!"token" = some v := by rw [other _ (by decide), ht]
      have := field_bytes h ha e2 tf hd hft hgt (o := 4) rfl (by simp only; omega)
      rw [hlen] at this
      exact this
  · have := num c!"ver" _ rfl (by simp)
    rw [other _ (by decide), hx.ver] at this
    exact this
  · have := num c!"type" _ rfl (by simp)
    rw [other _ (by decide)] at this
    simp only at this
    rw [this]
    cases given x c!"type" <;> rfl
  · have := num c!"tkl" _ rfl (by simp)
    simp only at this
    rw [this]
    cases ht : given x c!"token" with
    | none =>
      have hgk : given x' c!"tkl" = none := by
        rw [← hf]
        unfold coapFilled
        rw [hx.tkl, ht]
        simp only [Option.isSome_none, Option.isNone_none, Bool.or_true, if_true]
        exact hx.tkl
      rw [hgk]
      rw [ht] at hlen
      simp at hlen
      rw [← hlen]
      rfl
    | some v =>
      have hgk : given x' c!"tkl" = some (beBytes 1 (bitToByte (k * 8))) := by
        rw [← hf]
        unfold coapFilled
        rw [hx.tkl, ht]
        simp only [Option.isSome_none, Option.isNone_some, Bool.or_false, Bool.false_eq_true, if_false]
        obtain ⟨g, _, hg, _⟩ := hi.getField (ft := { name := c!"tkl", width := 4, offset := 4, dflt := some [0#8] })
          (show findField (coapShape k) c!"tkl" = _ from rfl)
        exact given_setVal hg _
      rw [hgk]
      simp only [numOf, Option.or]
      rw [beNat_beBytes]
      unfold bitToByte
      have hv : v ≠ [] := fun e => hx.some (by rw [ht, e])
      have := List.length_pos_iff.mpr hv
      rw [ht] at hlen
      simp only [Option.getD_some] at hlen
      omega
  · have := num c!"code" _ rfl (by simp)
    rw [other _ (by decide)] at this
    simp only at this
    rw [this]
    cases given x c!"code" <;> rfl
  · have := num c!"msgid" _ rfl (by simp)
    rw [other _ (by decide)] at this
    simp only at this
    rw [this]
    cases given x c!"msgid" <;> rfl

/-- **C102, the part that holds**: the message is decoded to type, code, message id, token, option values and payload as given, for
any number of options; as the number of an option the receiver gets the sum of the numbers given up to it. Missing: the numbers
themselves (false, see `C102_false`), except for the options `C102_right_partial` tells. -/
theorem C102_message_partial {argv : List CStr} {f f' : Frame} {b : Buf} (h : Sent argv f f' b) {pre opts post pre' msg' : List Hdr}
    {x : Hdr} {os : List (Nat × Buf)} {p : Buf} (e1 : f.stack = pre ++ x :: (opts ++ post)) (e2 : f'.stack = pre' ++ msg')
    (e3 : pre'.length = pre.length) (hx : PlainCoap x) (ho : Options opts os) (he : Ending post p) :
    decodeMessage (slice b (totalSize pre') (totalSize msg')) =
      some (messageOf x ((runningSums 0 (os.map (·.1))).zip (os.map (·.2))) p) := by
  have hlen := h.goods.2.1
  rw [e1, e2] at hlen
  cases msg' with
  | nil => simp at hlen; omega
  | cons x' rest' =>
    obtain ⟨h1, h2, h3, n1, n2, n3, n4, n5⟩ := coap_head h (⟨e1, e2, e3⟩ : At f f' pre x (opts ++ post) pre' x' rest') hx
    generalize hT : (given x c!"token").getD [] = tok at *
    obtain ⟨opts', post', i1, i2, i3, i4⟩ := options_bytes h ho (pre := pre ++ [x]) (post := post) (pre' := pre' ++ [x'])
      (rest' := rest') (by simp [e1]) (by simp [e2]) (by simp [e3])
    subst i1
    obtain ⟨tail, j1, j2⟩ := ending_bytes h he (pre := pre ++ x :: opts) (pre' := pre' ++ x' :: opts') (post' := post') (by simp [e1])
      (by simp [e2]) (by simp [e3, i2])
    have hlong : totalSize f'.stack ≤ b.length := sent_total h
    have t1 : totalSize f'.stack = totalSize pre' + (x'.size + (totalSize opts' + totalSize post')) := by
      rw [e2]; simp [totalSize]
    have t2 : totalSize (pre' ++ [x']) = totalSize pre' + x'.size := by simp [totalSize]
    have t3 : totalSize (pre' ++ x' :: opts') = totalSize pre' + x'.size + totalSize opts' := by simp [totalSize]; omega
    have t4 : totalSize (x' :: (opts' ++ post')) = x'.size + (totalSize opts' + totalSize post') := by simp [totalSize]
    have hM : slice b (totalSize pre') (totalSize (x' :: (opts' ++ post'))) =
        slice b (totalSize pre') (4 + tok.length) ++ (optionBytes os ++ tail) := by
      rw [t2] at i3
      rw [t3] at j1
      rw [t4, slice_append, slice_append, i3, j1, h1]
    have hl4 : (slice b (totalSize pre') (4 + tok.length)).length = 4 + tok.length := by
      unfold slice
      rw [List.length_take, List.length_drop]
      omega
    generalize hm : totalSize (x' :: (opts' ++ post')) = m at *
    have num : ∀ o w, o + w ≤ 32 → numAt (slice b (totalSize pre') m) o w = numAt b (8 * totalSize pre' + o) w :=
      fun o w how => numAt_slice (by omega)
    have hml : (slice b (totalSize pre') m).length = m := by
      unfold slice
      rw [List.length_take, List.length_drop]
      omega
    unfold decodeMessage
    rw [num 0 2 (by omega), num 2 2 (by omega), num 4 4 (by omega), num 8 8 (by omega), num 16 16 (by omega), Nat.add_zero, n1, n2, n3,
      n4, n5, hml, if_pos ⟨by omega, rfl, h2, by omega⟩]
    have hdrop : (slice b (totalSize pre') m).drop (4 + tok.length) = optionBytes os ++ tail := by
      rw [hM, List.drop_left' hl4]
    have htok : slice (slice b (totalSize pre') m) 4 tok.length = tok := by
      conv => rhs; rw [← h3]
      unfold slice
      rw [List.drop_take, List.take_take, List.drop_drop]
      congr 1
      omega
    rw [hdrop, htok, decode_options j2 os 0 m i4 (by rw [← hdrop, List.length_drop, hml]; omega)]
    simp only [messageOf, hT]

/-- The running sums are the numbers themselves exactly if all numbers except the last one are 0. -/
theorem runningSums_eq (l : List Nat) : runningSums 0 l = l ↔ ∀ n ∈ l.dropLast, n = 0 := by
  have key : ∀ (l : List Nat) (s : Nat), runningSums s l = l → (l ≠ [] → s = 0) := by
    intro l s h hne
    cases l with
    | nil => exact absurd rfl hne
    | cons n l =>
      simp only [runningSums, List.cons.injEq] at h
      omega
  induction l with
  | nil => simp [runningSums]
  | cons n l ih =>
    cases l with
    | nil => simp [runningSums]
    | cons m l =>
      rw [show (n :: m :: l).dropLast = n :: (m :: l).dropLast from rfl]
      constructor
      · intro h
        have h2 : runningSums n (m :: l) = m :: l := by
          rw [runningSums, Nat.zero_add] at h
          exact (List.cons.inj h).2
        have hn := key _ _ h2 (by simp)
        subst hn
        intro q hq
        rcases List.mem_cons.mp hq with rfl | hq
        · rfl
        · exact ih.mp h2 q hq
      · intro h
        have hn := h n (by simp)
        subst hn
        have h2 := ih.mpr (fun q hq => h q (by simp [hq]))
        rw [runningSums, Nat.zero_add, h2]

/-- **C102, when the numbers are right**: the message is decoded to what was given exactly if all option numbers except the last
one are 0; in particular for messages with at most one option. -/
theorem C102_right_partial {argv : List CStr} {f f' : Frame} {b : Buf} (h : Sent argv f f' b) {pre opts post pre' msg' : List Hdr}
    {x : Hdr} {os : List (Nat × Buf)} {p : Buf} (e1 : f.stack = pre ++ x :: (opts ++ post)) (e2 : f'.stack = pre' ++ msg')
    (e3 : pre'.length = pre.length) (hx : PlainCoap x) (ho : Options opts os) (he : Ending post p) :
    decodeMessage (slice b (totalSize pre') (totalSize msg')) = some (messageOf x os p) ↔
      ∀ n ∈ (os.map (·.1)).dropLast, n = 0 := by
  rw [C102_message_partial h e1 e2 e3 hx ho he, ← runningSums_eq]
  have hl : ∀ (l : List Nat) (s : Nat), (runningSums s l).length = l.length := by
    intro l
    induction l with
    | nil => intro s; rfl
    | cons n l ih => intro s; simp [runningSums, ih]
  have hz : ∀ l : List (Nat × Buf), (l.map (·.1)).zip (l.map (·.2)) = l := by
    intro l
    induction l with
    | nil => rfl
    | cons o os ih => simp only [List.map_cons, List.zip_cons_cons, ih]
  constructor
  · intro e
    have e' : (runningSums 0 (os.map (·.1))).zip (os.map (·.2)) = os := by
      simpa [messageOf] using e
    have := congrArg (List.map Prod.fst) e'
    rw [List.map_fst_zip (by rw [hl]; simp)] at this
    exact this
  · intro e
    rw [e, hz]

/-- **C102** for frames: the receiver of C99 hands the message to CoAP, which decodes it. -/
theorem C102_received_partial {argv : List CStr} {f f' : Frame} {b : Buf} (h : Sent argv f f' b) (hb : b.length < 65536)
    {ps : List Proto} {opts post : List Hdr} {x : Hdr} {os : List (Nat × Buf)} {p : Buf}
    (hst : Stacked f.stack ps (x :: (opts ++ post))) (he : ps.head? = some .eth) (hcnt : ps.any Proto.counts = true)
    (hx : PlainCoap x) (ho : Options opts os) (hend : Ending post p) :
    decodeMessage (received b).2 = some (messageOf x ((runningSums 0 (os.map (·.1))).zip (os.map (·.2))) p) := by
  obtain ⟨l, l', rest', e1, e2, e3, e4⟩ := stacked_sizes h hst (pre := []) (pre' := []) (hs' := f'.stack) rfl rfl rfl
  rw [C99_receiver h hb hst he, if_pos hcnt]
  have : totalSize f'.stack - headBytes ps = totalSize rest' := by rw [e2, ← e4]; simp [totalSize]
  simp only
  rw [this, ← e4]
  exact C102_message_partial h e1 e2 e3 hx ho hend

/-! ## Cases -/

/-- The options at the beginning and what follows them. -/
def takeOptions : List Hdr → List (Nat × Buf) × List Hdr
  | [] => ([], [])
  | x :: xs =>
    match given x c!"num", given x c!"val" with
    | some n, some v =>
      if x.name = c!"coap-opt" ∧ v.length < 65536 then ((beNat n, v) :: (takeOptions xs).1, (takeOptions xs).2) else ([], x :: xs)
    | _, _ => ([], x :: xs)

theorem takeOptions_sound (hs : List Hdr) : ∃ opts, hs = opts ++ (takeOptions hs).2 ∧ Options opts (takeOptions hs).1 := by
  induction hs with
  | nil => exact ⟨[], rfl, .nil⟩
  | cons x xs ih =>
    obtain ⟨opts, e1, e2⟩ := ih
    unfold takeOptions
    split
    · rename_i n v hn hv
      split
      · rename_i hc
        refine ⟨x :: opts, ?_, .cons hc.1 hn hv hc.2 e2⟩
        simp only [List.cons_append]
        rw [← e1]
      · exact ⟨[], rfl, .nil⟩
    · exact ⟨[], rfl, .nil⟩

/-- The payload at the end. -/
def endingOf : List Hdr → Option Buf
  | [] => some []
  | [x] =>
    match given x c!"par" with
    | some (a :: p) => if x.name = c!"coap-parms" ∧ a = 0xff#8 ∧ p ≠ [] then some p else none
    | _ => none
  | _ => none

theorem endingOf_sound {hs : List Hdr} {p : Buf} (h : endingOf hs = some p) : Ending hs p := by
  unfold endingOf at h
  split at h
  · simp only [Option.some.injEq] at h
    subst h
    exact .none
  · split at h
    · rename_i x a q hq
      split at h
      · rename_i hc
        simp only [Option.some.injEq] at h
        subst h
        obtain ⟨h1, rfl, h3⟩ := hc
        exact .parms h1 hq h3
      · simp at h
    · simp at h
  · simp at h

/-- What a concrete command line gives: the options as given, the payload as given, and the message received. -/
def coapCase (argv : List CStr) (ps : List Proto) (P : List (Nat × Buf) → Buf → Option CoapMessage → Bool) : Bool :=
  decide (ShortWords argv) &&
  match argcFrame argv with
  | .ok (some (_, f)) =>
    match frameToBuf f, stackRest f.stack ps with
    | .ok (_, b), some (x :: rest) =>
      match endingOf (takeOptions rest).2 with
      | some p => decide (b.length < 65536) && decide (x.name = c!"coap" ∧ given x c!"ver" = none ∧ given x c!"tkl" = none ∧
          (given x c!"token" = none → x.size = 4) ∧ given x c!"token" ≠ some []) &&
          P (takeOptions rest).1 p (decodeMessage (received b).2)
      | none => false
    | _, _ => false
  | _ => false

theorem coapCase_elim {argv : List CStr} {ps : List Proto} {P : List (Nat × Buf) → Buf → Option CoapMessage → Bool}
    (h : coapCase argv ps P = true) : ∃ f f' b x opts post os p, Sent argv f f' b ∧ b.length < 65536 ∧
      Stacked f.stack ps (x :: (opts ++ post)) ∧ PlainCoap x ∧ Options opts os ∧ Ending post p ∧
      P os p (decodeMessage (received b).2) = true := by
  unfold coapCase at h
  simp only [Bool.and_eq_true, decide_eq_true_eq] at h
  obtain ⟨h0, h⟩ := h
  split at h
  · rename_i n f e1
    split at h
    · rename_i f' b x rest e2 e3
      split at h
      · rename_i p e4
        simp only [Bool.and_eq_true, decide_eq_true_eq] at h
        obtain ⟨⟨h1, c1, c2, c3, c4, c5⟩, h2⟩ := h
        obtain ⟨opts, o1, o2⟩ := takeOptions_sound rest
        refine ⟨f, f', b, x, opts, _, _, p, ⟨h0, ⟨n, e1⟩, e2⟩, h1, ?_, ⟨c1, c2, c3, c4, c5⟩, o2, endingOf_sound e4, h2⟩
        rw [← o1]
        exact stackRest_sound e3
      · simp at h
    · simp at h
  · simp at h

/-- **C102 is false**: of the options 4 and 11 the second one is decoded as number 15. -/
theorem C102_false : ¬ C102_statement := by
  intro hs
  obtain ⟨f, f', b, x, opts, post, os, p, h1, h2, h3, h4, h5, h6, h7⟩ := coapCase_elim (argv := optWords) (ps := [.eth, .ipv4, .udp])
    (P := fun os _ _ => decide (os.map (·.1) = [4, 11])) (by decide +kernel)
  obtain ⟨l, l', rest', e1, e2, e3, e4⟩ := stacked_sizes h1 h3 (pre := []) (pre' := []) (hs' := f'.stack) rfl rfl rfl
  have := (C102_right_partial h1 e1 e2 e3 h4 h5 h6).mp (hs _ f f' b h1 _ _ _ _ _ _ _ _ e1 e2 e3 h4 h5 h6)
  rw [of_decide_eq_true h7] at this
  have := this 4 (by simp)
  omega

/-- `coap` with everything. -/
def coapWords : List CStr :=
  [c!"eth", c!"ipv6", c!"udp", c!"coap", c!"type", c!"1", c!"code", c!"0.02", c!"msgid", c!"0x1234", c!"token", c!"0a0b",
    c!"coap-opt", c!"num", c!"11", c!"val", c!"ascii", c!"temp", c!"coap-opt", c!"num", c!"300", c!"val", c!"hex", c!"01",
    c!"coap-parms", c!"par", c!"ascii", c!"on"]

/-- Non-vacuity: the message is decoded with the options 11 and 311. -/
example : ∃ f f' b x opts post os p, Sent coapWords f f' b ∧ b.length < 65536 ∧ Stacked f.stack [.eth, .ipv6, .udp] (x :: (opts ++ post)) ∧
    PlainCoap x ∧ Options opts os ∧ Ending post p ∧ os = [(11, c!"temp"), (300, [1#8])] ∧ p = c!"on" ∧
    decodeMessage (received b).2 = some ⟨1, 2, 0x1234, [0x0a#8, 0x0b#8], [(11, c!"temp"), (311, [1#8])], c!"on"⟩ := by
  obtain ⟨f, f', b, x, opts, post, os, p, h1, h2, h3, h4, h5, h6, h7⟩ := coapCase_elim (argv := coapWords) (ps := [.eth, .ipv6, .udp])
    (P := fun os p m => decide (os = [(11, c!"temp"), (300, [1#8])] ∧ p = c!"on" ∧
      m = some ⟨1, 2, 0x1234, [0x0a#8, 0x0b#8], [(11, c!"temp"), (311, [1#8])], c!"on"⟩)) (by decide +kernel)
  exact ⟨f, f', b, x, opts, post, os, p, h1, h2, h3, h4, h5, h6, of_decide_eq_true h7⟩

end Ef.Props
