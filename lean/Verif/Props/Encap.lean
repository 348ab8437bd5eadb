import Verif.Props.Fill
import Verif.Props.Words
import Verif.Props.Errors
import Verif.Lemmas.AssignFrame
import Verif.Lemmas.FillMc

/-!
# C110: what is carried does not depend on what carries it; C28 for inserted tags
-/

namespace Ef.Props

open Ef Ef.Spec

/-! ## Words -/

/-- The padding and the mask flag of the frame do not change how the words of a header are read. -/
theorem rhp_any {t x x' : Hdr} {pad pad' p p' : Int} {m m' q q' : Bool} {ws : List CStr} {k k' : Nat}
    (h : runHdrParser t pad m ws = .ok (some (k, x, p, q))) (h' : runHdrParser t pad' m' ws = .ok (some (k', x', p', q'))) :
    k' = k ∧ x' = x := by
  rw [runHdrParser_lift] at h h'
  obtain ⟨o, e1, e2⟩ := Out.bind_eq_ok.mp h
  obtain ⟨o', e1', e2'⟩ := Out.bind_eq_ok.mp h'
  clear h h'
  unfold runHdrParser at e1 e1'
  cases hp : t.parser with
  | fields =>
    rw [hp] at e1 e1'
    simp only at e1 e1'
    obtain ⟨a, a1, a2⟩ := Out.bind_eq_ok.mp e1
    obtain ⟨a', b1, b2⟩ := Out.bind_eq_ok.mp e1'
    rw [a1] at b1
    cases b1
    rcases a with _ | ⟨n, y, mm⟩
    · simp only [Out.ok.injEq] at a2; subst a2; simp [liftH] at e2
    · simp only [Out.ok.injEq] at a2 b2
      subst a2 b2
      simp only [liftH, Option.map_some, Out.ok.injEq, Option.some.injEq, Prod.mk.injEq] at e2 e2'
      exact ⟨e2'.1.symm.trans e2.1, e2'.2.1.symm.trans e2.2.1⟩
  | payload =>
    rw [hp] at e1 e1'
    simp only at e1 e1'
    obtain ⟨a, a1, a2⟩ := Out.bind_eq_ok.mp e1
    obtain ⟨a', b1, b2⟩ := Out.bind_eq_ok.mp e1'
    rw [a1] at b1
    cases b1
    rcases a with _ | ⟨n, y⟩
    · simp only [Out.ok.injEq] at a2; subst a2; simp [liftH] at e2
    · simp only [Out.ok.injEq] at a2 b2
      subst a2 b2
      simp only [liftH, Option.map_some, Out.ok.injEq, Option.some.injEq, Prod.mk.injEq] at e2 e2'
      exact ⟨e2'.1.symm.trans e2.1, e2'.2.1.symm.trans e2.2.1⟩
  | padding =>
    rw [hp] at e1 e1'
    simp only at e1 e1'
    obtain ⟨a, a1, a2⟩ := Out.bind_eq_ok.mp e1
    obtain ⟨a', b1, b2⟩ := Out.bind_eq_ok.mp e1'
    rw [a1] at b1
    cases b1
    rcases a with _ | y
    · simp only [Out.ok.injEq] at a2; subst a2; simp [liftH] at e2
    · simp only [Out.ok.injEq] at a2 b2
      subst a2 b2
      simp only [liftH, Option.map_some, Out.ok.injEq, Option.some.injEq, Prod.mk.injEq] at e2 e2'
      exact ⟨e2'.1.symm.trans e2.1, e2'.2.1.symm.trans e2.2.1⟩

/-- The same words behind different headers give the same headers. -/
theorem afl_any (cap fuel : Nat) {f f' g g' : Frame} {i i' n n' : Nat} {argv : List CStr}
    (h : argcFrameLoop cap fuel f i argv = .ok (some (n, g))) (h' : argcFrameLoop cap fuel f' i' argv = .ok (some (n', g'))) :
    ∃ hs, g.stack = f.stack ++ hs ∧ g'.stack = f'.stack ++ hs := by
  induction fuel generalizing f f' i i' argv with
  | zero =>
    simp only [argcFrameLoop, Out.ok.injEq, Option.some.injEq, Prod.mk.injEq] at h h'
    obtain ⟨_, rfl⟩ := h
    obtain ⟨_, rfl⟩ := h'
    exact ⟨[], by simp⟩
  | succ fuel ih =>
    cases argv with
    | nil =>
      rw [afl_nil] at h h'
      simp only [Out.ok.injEq, Option.some.injEq, Prod.mk.injEq] at h h'
      obtain ⟨_, rfl⟩ := h
      obtain ⟨_, rfl⟩ := h'
      exact ⟨[], by simp⟩
    | cons w rest =>
      rw [afl_step] at h h'
      split at h
      · simp at h
      · rename_i hw
        rw [if_neg hw] at h'
        split at h
        · rename_i e
          rw [e] at h'
          simp only [Out.ok.injEq, Option.some.injEq, Prod.mk.injEq] at h h'
          obtain ⟨_, rfl⟩ := h
          obtain ⟨_, rfl⟩ := h'
          exact ⟨[], by simp⟩
        · rename_i t e
          rw [e] at h'
          simp only at h'
          obtain ⟨_, _, h⟩ := Out.bind_eq_ok.mp h
          obtain ⟨_, _, h'⟩ := Out.bind_eq_ok.mp h'
          obtain ⟨o, k1, h⟩ := Out.bind_eq_ok.mp h
          obtain ⟨o', k2, h'⟩ := Out.bind_eq_ok.mp h'
          rcases o with _ | ⟨k, x, p, q⟩
          · simp at h
          · rcases o' with _ | ⟨k', x', p', q'⟩
            · simp at h'
            · obtain ⟨rfl, rfl⟩ := rhp_any k1 k2
              simp only at h h'
              obtain ⟨hs, e1, e2⟩ := ih h h'
              exact ⟨x' :: hs, by simpa using e1, by simpa using e2⟩

/-- A word that names a header adds a header. -/
theorem afl_adds {cap : Nat} {f g : Frame} {i n : Nat} {r : Hdr} (hr : r ∈ hdrTmpls) {rest : List CStr}
    (h : argcFrameLoop cap (r.name :: rest).length f i (r.name :: rest) = .ok (some (n, g))) :
    ∃ y hs, g.stack = f.stack ++ y :: hs := by
  rw [List.length_cons, afl_step, if_neg (tmpl_words r hr).1, findTmpl_all r hr] at h
  simp only at h
  obtain ⟨_, _, h⟩ := Out.bind_eq_ok.mp h
  obtain ⟨o, k1, h⟩ := Out.bind_eq_ok.mp h
  rcases o with _ | ⟨k, x, p, q⟩
  · simp at h
  · simp only at h
    obtain ⟨_, _, _, _, hs, e, _⟩ := afl_mono h
    exact ⟨x, hs, by simpa using e⟩

/-- The words `A` make up the headers of `fA`, then a header `r` begins. -/
structure Continued (A : List CStr) (fA : Frame) (r : Hdr) : Prop where
  front : argcFrame A = .ok (some (A.length, fA))
  tmpl : r ∈ hdrTmpls
  fresh : NotField fA r.name

theorem Continued.loop {A : List CStr} {fA : Frame} {r : Hdr} (hc : Continued A fA r) {rest : List CStr} {n : Nat} {f : Frame}
    (h : argcFrame (A ++ r.name :: rest) = .ok (some (n, f))) :
    argcFrameLoop frameStackMax (r.name :: rest).length fA A.length (r.name :: rest) = .ok (some (n, f)) := by
  have hl := length_of_ok h
  have hpre := hc.front
  unfold argcFrame at h hpre
  rw [if_neg (by omega)] at h
  rw [if_neg (by simp only [List.length_append] at hl; omega)] at hpre
  rw [← h]
  exact (afl_cont (r := r.name :: rest) (fuel' := (A ++ r.name :: rest).length) hpre (by simp) (Nat.le_refl _) (by simp)
    (by intro w tl e; cases e; exact endsLast_tmpl hc.tmpl hc.fresh)).symm

/-! ## Completion -/

/-- An IP header. -/
def isIp (h : Hdr) : Bool := h.name == c!"ipv4" || h.name == c!"ipv6"

/-- The last headers are the same as far as checksums are concerned. -/
structure SameIp (l k : List Hdr) : Prop where
  last : l.getLast?.filter isIp = k.getLast?.filter isIp
  first : l.find? (fun x => x.name == c!"ipv6") = k.find? (fun x => x.name == c!"ipv6")

theorem SameIp.push {l k : List Hdr} (h : SameIp l k) (x : Hdr) : SameIp (l ++ [x]) (k ++ [x]) :=
  ⟨by simp, by rw [List.find?_append, List.find?_append, h.first]⟩

theorem SameIp.ofNone {l k : List Hdr} (h : ∀ x ∈ l, isIp x = false) (h' : ∀ x ∈ k, isIp x = false) : SameIp l k := by
  have key : ∀ l : List Hdr, (∀ x ∈ l, isIp x = false) → l.getLast?.filter isIp = none ∧
      l.find? (fun x => x.name == c!"ipv6") = none := by
    intro l h
    constructor
    · cases e : l.getLast? with
      | none => rfl
      | some x => rw [Option.filter_some, h x (List.mem_of_getLast? e)]; rfl
    · rw [List.find?_eq_none]
      intro x hx hn
      have := h x hx
      unfold isIp at this
      rw [hn] at this
      simp at this
  exact ⟨(key l h).1.trans (key k h').1.symm, (key l h).2.trans (key k h').2.symm⟩

theorem pseudoFor_ip {x : Hdr} (h : isIp x = false) : pseudoFor x = none ∧ x.name ≠ c!"ipv6" := by
  unfold isIp at h
  simp only [Bool.or_eq_false_iff, beq_eq_false_iff_ne] at h
  exact ⟨by unfold pseudoFor; rw [if_neg h.1, if_neg h.2], h.2⟩

theorem SameIp.fill {l k : List Hdr} (h : SameIp l k) (x : Hdr) (above : List Hdr) : fillHdr l x above = fillHdr k x above := by
  have hl := h.last
  unfold fillHdr
  cases hf : x.fill with
  | mld => simp only [fillMld, fillMldChksum, h.first]
  | udpTcp =>
    simp only [fillUdpTcp, fillUdpChksum]
    congr 1; funext y; congr 1; funext c
    split
    · rfl
    · cases e : l.getLast? with
      | none =>
        cases e' : k.getLast? with
        | none => rfl
        | some b =>
          rw [e, e'] at hl
          cases hb : isIp b with
          | true => rw [Option.filter_some, hb] at hl; cases hl
          | false => simp only [(pseudoFor_ip hb).1]
      | some a =>
        cases ha : isIp a with
        | false =>
          simp only [(pseudoFor_ip ha).1]
          cases e' : k.getLast? with
          | none => rfl
          | some b =>
            rw [e, e', Option.filter_some, ha] at hl
            cases hb : isIp b with
            | true => rw [Option.filter_some, hb] at hl; cases hl
            | false => simp only [(pseudoFor_ip hb).1]
        | true =>
          rw [e, Option.filter_some, ha] at hl
          cases e' : k.getLast? with
          | none => rw [e'] at hl; cases hl
          | some b =>
            rw [e', Option.filter_some] at hl
            cases hb : isIp b with
            | false => rw [hb] at hl; cases hl
            | true => rw [hb] at hl; cases hl; rfl
  | icmp =>
    have : ipv6Below l = ipv6Below k := by
      have key : ∀ l : List Hdr, ipv6Below l = (l.getLast?.filter isIp).filter (fun x => x.name == c!"ipv6") := by
        intro l
        unfold ipv6Below
        cases l.getLast? with
        | none => rfl
        | some a =>
          simp only [Option.filter_some]
          by_cases hn : a.name = c!"ipv6"
          · simp [isIp, hn, Option.filter_some]
          · cases ha : isIp a <;> simp [hn, Option.filter_some]
      rw [key, key, hl]
    simp only [fillIcmp, this]
  | _ => rfl

theorem SameIp.stack (hs : List Hdr) : ∀ {l k : List Hdr}, SameIp l k → fillStack l hs = fillStack k hs := by
  induction hs with
  | nil => intros; rfl
  | cons x hs ih =>
    intro l k h
    simp only [fillStack]
    rw [ih (h.push x)]
    congr 1; funext hs'
    rw [h.fill]

/-- Where a list of headers is completed, the last ones are completed behind the first ones. -/
theorem fillStack_split {below l k r : List Hdr} (h : fillStack below (l ++ k) = .ok r) :
    ∃ l' k', r = l' ++ k' ∧ l'.length = l.length ∧ fillStack (below ++ l) k = .ok k' := by
  cases k with
  | nil =>
    have : r.length = l.length := by
      have key : ∀ (hs : List Hdr) {below r : List Hdr}, fillStack below hs = .ok r → r.length = hs.length := by
        intro hs
        induction hs with
        | nil => intro _ _ h; simp only [fillStack, Out.ok.injEq] at h; subst h; rfl
        | cons x hs ih =>
          intro _ _ h
          simp only [fillStack] at h
          obtain ⟨_, h1, h⟩ := Out.bind_eq_ok.mp h
          obtain ⟨_, _, h⟩ := Out.bind_eq_ok.mp h
          simp only [Out.ok.injEq] at h
          subst h
          simp [ih h1]
      simpa using key _ h
    exact ⟨r, [], by simp, this, rfl⟩
  | cons x k =>
    obtain ⟨p, y, q, e1, e2, e3, e4, e5⟩ := fillStack_append h rfl
    refine ⟨p, y :: q, e1, e2, ?_⟩
    simp only [fillStack]
    rw [e4, Out.ok_bind, e5]
    rfl

/-! ## C110 -/

/-- **C110**: two frames whose last words, from the name of a header on, are the same. The words before make up the headers
of `fA` and of `fA'`, none of which is an IP header. Then the common words give the same bytes in both frames. -/
theorem C110_carried {A A' rest : List CStr} {fA fA' f1 f1' f f' : Frame} {b b' : Buf} {r : Hdr}
    (hc : Continued A fA r) (hc' : Continued A' fA' r)
    (hip : ∀ x ∈ fA.stack, x.name ≠ c!"ipv4" ∧ x.name ≠ c!"ipv6") (hip' : ∀ x ∈ fA'.stack, x.name ≠ c!"ipv4" ∧ x.name ≠ c!"ipv6")
    (h : Built (A ++ r.name :: rest) f1 f b) (h' : Built (A' ++ r.name :: rest) f1' f' b') :
    ∃ front front' body,
      b = front ++ body ++ zeros (60 - (front.length + body.length)) ∧
      b' = front' ++ body ++ zeros (60 - (front'.length + body.length)) ∧
      front.length = totalSize (f.stack.take fA.stack.length) ∧ front'.length = totalSize (f'.stack.take fA'.stack.length) ∧
      body.length = totalSize (f.stack.drop fA.stack.length) ∧ f.stack.drop fA.stack.length = f'.stack.drop fA'.stack.length ∧
      f.stack.drop fA.stack.length ≠ [] := by
  obtain ⟨n, hp⟩ := h.parsed
  obtain ⟨n', hp'⟩ := h'.parsed
  obtain ⟨hs, e1, e2⟩ := afl_any _ _ (hc.loop hp) (hc'.loop hp')
  obtain ⟨y, ys, e3⟩ := afl_adds hc.tmpl (hc.loop hp)
  have hne : hs ≠ [] := by
    rw [e1] at e3
    rw [List.append_cancel_left e3]
    simp
  have g := (frameToBuf_stack h.bytes).1
  have g' := (frameToBuf_stack h'.bytes).1
  rw [e1] at g
  rw [e2] at g'
  obtain ⟨l, k, q1, q2, q3⟩ := fillStack_split g
  obtain ⟨l', k', q1', q2', q3'⟩ := fillStack_split g'
  have hf : ∀ {z : Frame}, (∀ x ∈ z.stack, x.name ≠ c!"ipv4" ∧ x.name ≠ c!"ipv6") → ∀ x ∈ [] ++ z.stack, isIp x = false := by
    intro z hz x hx
    have := hz x (by simpa using hx)
    simp [isIp, this]
  rw [(SameIp.ofNone (hf hip) (hf hip')).stack, q3'] at q3
  cases q3
  have hb := (C15_frame_bytes f1 f b h.bytes h.fits).1
  have hb' := (C15_frame_bytes f1' f' b' h'.bytes h'.fits).1
  rw [q1] at hb
  rw [q1'] at hb'
  have hk : k ≠ [] := by
    rintro rfl
    cases hs with
    | nil => exact hne rfl
    | cons x xs =>
      simp only [fillStack] at q3'
      obtain ⟨_, _, q⟩ := Out.bind_eq_ok.mp q3'
      obtain ⟨_, _, q⟩ := Out.bind_eq_ok.mp q
      cases q
  have tot : ∀ a c : List Hdr, totalSize (a ++ c) = totalSize a + totalSize c := by simp [totalSize]
  refine ⟨(l.map hdrBytes).flatten, (l'.map hdrBytes).flatten, (k.map hdrBytes).flatten, ?_, ?_, ?_, ?_, ?_, ?_, ?_⟩
  · rw [hb, flatten_hdrBytes_length, flatten_hdrBytes_length, tot]; simp
  · rw [hb', flatten_hdrBytes_length, flatten_hdrBytes_length, tot]; simp
  · rw [flatten_hdrBytes_length, q1, ← q2, List.take_left]
  · rw [flatten_hdrBytes_length, q1', ← q2', List.take_left]
  · rw [flatten_hdrBytes_length, q1, ← q2, List.drop_left]
  · rw [q1, q1', ← q2, ← q2', List.drop_left, List.drop_left]
  · rw [q1, ← q2, List.drop_left]; exact hk

/-! ## Inserting a tag -/

/-- The type field is the last field. -/
theorem et_last : ∀ p ∈ etPos, ∀ t ∈ hdrTmpls, t.name = p.1 →
    t.fields.getLast?.map (fun f => (f.name, f.offset, f.width)) = some (c!"et", p.2, 16) ∧ p.2 + 16 = 8 * t.size ∧ p.2 % 8 = 0 ∧
      (∀ k ∈ t.fields.dropLast, k.name ≠ c!"et" ∧ k.offset + k.width ≤ p.2) ∧ t.name ≠ c!"ipv4" ∧ t.name ≠ c!"ipv6" ∧
      t.type < 65536 := by decide +kernel

/-- A header with this type in its type field. -/
theorem et_bytes {e : CStr × Nat} (he : e ∈ etPos) {t x : Hdr} (ht : t ∈ hdrTmpls) (hn : t.name = e.1) (hi : Inst t x) (n : Nat) :
    hdrBytes (setVal x c!"et" (some (beBytes 2 n))) = (hdrBytes x).take (e.2 / 8) ++ beBytes 2 n := by
  obtain ⟨t1, t2, t3, t4, _⟩ := et_last e he t ht hn
  obtain ⟨ft, hft, e1⟩ := Option.map_eq_some_iff.mp t1
  simp only [Prod.mk.injEq] at e1
  obtain ⟨n1, n2, n3⟩ := e1
  have hsplit : t.fields = t.fields.dropLast ++ ft :: [] := by
    obtain ⟨ys, e⟩ := List.getLast?_eq_some_iff.mp hft
    rw [e, List.dropLast_concat]
  have hf := hi.fields
  rw [hsplit] at hf
  obtain ⟨m1, g, m2, q1, r1, r, r3⟩ := allRel_split hf
  cases r3
  have hfr : ∀ k ∈ m1, k.name ≠ c!"et" := by
    intro k hk
    obtain ⟨a, ha, hak⟩ := allRel_right r1 k hk
    rw [hak.name]; exact (t4 a ha).1
  have hset : (setVal x c!"et" (some (beBytes 2 n))).fields = m1 ++ [{ g with val := some (beBytes 2 n) }] := by
    unfold setVal updField
    simp only
    rw [q1]
    exact updFirst_split _ (r.name.trans n1) hfr
  have hlx : (hdrBytes x).length = t.size := by rw [hdrBytes_length, hi.size]
  have htk : ((hdrBytes x).take (e.2 / 8)).length = e.2 / 8 := by rw [List.length_take]; omega
  apply buf_ext
  · rw [hdrBytes_length, List.length_append, htk, beBytes_length]
    show x.size = _
    rw [hi.size]; omega
  · intro i hil
    rw [hdrBytes_length] at hil
    have hil' : i < 8 * t.size := by
      have : (setVal x c!"et" (some (beBytes 2 n))).size = x.size := rfl
      rw [this, hi.size] at hil
      exact hil
    rw [bit_hdrBytes _ _ hil, hset, bit_append, htk]
    by_cases h1 : i < 8 * (e.2 / 8)
    · rw [if_pos h1, take_slice, bit_slice _ _ _ _ h1, Nat.mul_zero, Nat.zero_add, bit_hdrBytes x i (by rw [hi.size]; exact hil'), q1]
      exact (wireBit_skip (by unfold covers; rw [r.offset, r.width]; omega)
        (by unfold covers; simp only; rw [r.offset, r.width]; omega)).symm
    · rw [if_neg h1, wireBit_last (v := beBytes 2 n) (by unfold covers; simp only; rw [r.offset, r.width]; omega) rfl (by simp)]
      unfold valueBit
      simp only
      rw [beBytes_length, r.width, r.offset]
      congr 1
      omega

/-- The type of the next header. -/
def nextType (l : List Hdr) : Option Nat := l.head?.map (·.type)

theorem fillEtherType_next {x : Hdr} {l k : List Hdr} (h : nextType l = nextType k) : fillEtherType x l = fillEtherType x k := by
  unfold fillEtherType
  congr 1; funext et
  split
  · rfl
  · cases l with
    | nil =>
      cases k with
      | nil => rfl
      | cons b k => simp [nextType] at h
    | cons a l =>
      cases k with
      | nil => simp [nextType] at h
      | cons b k =>
        simp only [nextType, List.head?_cons, Option.map_some, Option.some.injEq] at h
        simp only [h]

/-- Ethernet headers and tags before the same type are completed in the same way. -/
theorem fill_tags (hp : List Hdr) : ∀ {below below' T T' q u q' u' : List Hdr}, (∀ x ∈ hp, x.fill = .etherType) →
    fillStack below (hp ++ T) = .ok (q ++ u) → fillStack below' (hp ++ T') = .ok (q' ++ u') →
    q.length = hp.length → q'.length = hp.length → nextType u = nextType u' → q = q' := by
  induction hp with
  | nil =>
    intro _ _ _ _ q u q' u' _ _ _ h1 h2 _
    rw [List.eq_nil_of_length_eq_zero h1, List.eq_nil_of_length_eq_zero h2]
  | cons x hp ih =>
    intro below below' T T' q u q' u' hf h h' h1 h2 ht
    cases q with
    | nil => simp at h1
    | cons y q =>
      cases q' with
      | nil => simp at h2
      | cons y' q' =>
        simp only [List.cons_append, fillStack] at h h'
        obtain ⟨r, k1, h⟩ := Out.bind_eq_ok.mp h
        obtain ⟨z, k2, h⟩ := Out.bind_eq_ok.mp h
        obtain ⟨r', k1', h'⟩ := Out.bind_eq_ok.mp h'
        obtain ⟨z', k2', h'⟩ := Out.bind_eq_ok.mp h'
        simp only [Out.ok.injEq, List.cons.injEq] at h h'
        obtain ⟨rfl, rfl⟩ := h
        obtain ⟨rfl, rfl⟩ := h'
        have e := ih (fun w hw => hf w (List.mem_cons_of_mem _ hw)) k1 k1' (by simpa using h1) (by simpa using h2) ht
        subst e
        have hx := hf x (List.mem_cons_self ..)
        unfold fillHdr at k2 k2'
        rw [hx] at k2 k2'
        simp only at k2 k2'
        have : nextType (q ++ u) = nextType (q ++ u') := by
          cases q with
          | nil => exact ht
          | cons _ _ => rfl
        rw [fillEtherType_next this, k2'] at k2
        cases k2
        rfl

/-- An Ethernet header or tag as it is completed. -/
theorem tag_filled {argv : List CStr} {f f' : Frame} {b : Buf} (h : Sent argv f f' b) {pre post pre' post' : List Hdr} {x x' z : Hdr}
    (ha : At f f' pre x post pre' x' (z :: post')) {e : CStr × Nat} (he : e ∈ etPos) (hx : x.name = e.1) (hg : given x c!"et" = none) :
    hdrBytes x' = (hdrBytes x).take (e.2 / 8) ++ beBytes 2 z.type ∧ x'.type = x.type ∧ x'.size = e.2 / 8 + 2 := by
  have hpl := h.place ha
  obtain ⟨t, ht, t', hv, hi, hty⟩ := hpl.inst
  have hnm : t.name = e.1 := by rw [← hx, hi.name, variant_name hv]
  obtain ⟨t1, t2, t3, t4⟩ := et_table e he t ht hnm
  have htt : t' = t := by
    cases hv with
    | same => rfl
    | _ => exact absurd t1 (by decide)
  subst htt
  obtain ⟨ft, hft⟩ : ∃ ft, findField t' c!"et" = some ft := by
    cases e : findField t' c!"et" with
    | none => rw [e] at t3; simp at t3
    | some f => exact ⟨f, rfl⟩
  have hfill := hpl.filled
  unfold fillHdr at hfill
  rw [hi.fill, t1] at hfill
  simp only at hfill
  rw [fillEtherType_eq hi hft _ hpl.goods] at hfill
  simp only [Out.ok.injEq, setDefault, hg, Option.isSome_none] at hfill
  rw [if_neg (by simp)] at hfill
  subst hfill
  refine ⟨et_bytes he ht hnm hi _, rfl, ?_⟩
  obtain ⟨_, q2, q3, _⟩ := et_last e he t' ht hnm
  show x.size = _
  rw [hi.size]; omega

/-- **C110, tags**: the words `A` make up Ethernet headers and tags, the last of them `x`; `T` is one more tag `y`. Their
type fields are not given. A tag behind `A` changes nothing else: the bytes up to the type field of `x` stay the same,
then the type of the tag and its bytes are inserted, and the rest of the frame is the same again (up to the padding). -/
theorem C110_tag {A T rest : List CStr} {fA fT f1 f1' f f' : Frame} {b b' : Buf} {r x y : Hdr} {hp : List Hdr}
    (hc : Continued A fA r) (hT : Continued (A ++ T) fT r) (hA : fA.stack = hp ++ [x]) (hfT : fT.stack = fA.stack ++ [y])
    (htags : ∀ z ∈ fT.stack, ∃ e ∈ etPos, z.name = e.1)
    (ex ey : CStr × Nat) (hex : ex ∈ etPos) (hey : ey ∈ etPos) (hnx : x.name = ex.1) (hny : y.name = ey.1)
    (hgx : given x c!"et" = none) (hgy : given y c!"et" = none)
    (h : Built (A ++ r.name :: rest) f1 f b) (h' : Built (A ++ T ++ r.name :: rest) f1' f' b') :
    ∃ front tpid tag ty body, b = front ++ ty ++ body ++ zeros (60 - (front.length + 2 + body.length)) ∧
      b' = front ++ tpid ++ tag ++ ty ++ body ++ zeros (60 - (front.length + 2 + tag.length + 2 + body.length)) ∧
      front.length = totalSize (f.stack.take hp.length) + ex.2 / 8 ∧ tpid.length = 2 ∧ tag.length = ey.2 / 8 ∧
      ty.length = 2 ∧ body.length = totalSize (f.stack.drop (hp.length + 1)) ∧
      ∀ p ∈ assigned, y.name = p.1 → tpid = beBytes 2 p.2 := by
  obtain ⟨n, hpp⟩ := h.parsed
  obtain ⟨n', hpp'⟩ := h'.parsed
  obtain ⟨hs, e1, e2⟩ := afl_any _ _ (hc.loop hpp) (hT.loop hpp')
  obtain ⟨w, ws, e3⟩ := afl_adds hc.tmpl (hc.loop hpp)
  rw [e1] at e3
  have e3 := List.append_cancel_left e3
  subst e3
  have g := (frameToBuf_stack h.bytes).1
  have g' := (frameToBuf_stack h'.bytes).1
  have s1 : f1.stack = hp ++ x :: (w :: ws) := by rw [e1, hA]; simp
  have s2 : f1'.stack = hp ++ x :: (y :: w :: ws) := by rw [e2, hfT, hA]; simp
  have s3 : f1'.stack = (hp ++ [x]) ++ y :: (w :: ws) := by rw [s2]; simp
  obtain ⟨p, x1, k, a1, a2, a3, a4, a5⟩ := fillStack_append g s1
  obtain ⟨p', y2, k', b1, b2, b3, b4, b5⟩ := fillStack_append g' s3
  have hinst : ∀ z ∈ fT.stack, z.fill = .etherType ∧ isIp z = false ∧ z.type < 65536 := by
    intro z hz
    obtain ⟨t, ht, t', hv, hi, hty⟩ := h'.inst z (by rw [e2]; simp [hz])
    obtain ⟨e, he, hn⟩ := htags z hz
    have hnm : t.name = e.1 := by rw [← hn, hi.name, variant_name hv]
    obtain ⟨t1, _⟩ := et_table e he t ht hnm
    obtain ⟨_, _, _, _, t5, t6, t7⟩ := et_last e he t ht hnm
    have htt : t' = t := by
      cases hv with
      | same => rfl
      | _ => exact absurd t1 (by decide)
    subst htt
    refine ⟨by rw [hi.fill, t1], ?_, by rw [hty]; exact t7⟩
    unfold isIp
    rw [hi.name]
    simp [t5, t6]
  have hk : k = k' := by
    have : SameIp ([] ++ hp ++ [x]) ([] ++ (hp ++ [x]) ++ [y]) := by
      apply SameIp.ofNone
      · intro z hz
        exact (hinst z (by rw [hfT, hA]; exact List.mem_append_left _ (by simpa using hz))).2.1
      · intro z hz
        exact (hinst z (by rw [hfT, hA]; simpa using hz)).2.1
    rw [this.stack, b4] at a4
    cases a4
    rfl
  subst hk
  obtain ⟨z, zs, rfl⟩ : ∃ z zs, k = z :: zs := by
    cases k with
    | nil => simp at a3
    | cons z zs => exact ⟨z, zs, rfl⟩
  -- the headers before and `x` in the frame with the tag
  obtain ⟨p2, x2, rfl, hp2⟩ : ∃ p2 x2, p' = p2 ++ [x2] ∧ p2.length = hp.length := by
    have hne : p' ≠ [] := by rintro rfl; simp at b2
    refine ⟨p'.dropLast, p'.getLast hne, (List.dropLast_concat_getLast hne).symm, ?_⟩
    rw [List.length_dropLast, b2]; simp
  have atx : At f1 f hp x (w :: ws) p x1 (z :: zs) := ⟨s1, a1, a2⟩
  have atx2 : At f1' f' hp x (y :: w :: ws) p2 x2 (y2 :: z :: zs) := ⟨s2, by rw [b1]; simp, hp2⟩
  have aty : At f1' f' (hp ++ [x]) y (w :: ws) (p2 ++ [x2]) y2 (z :: zs) := ⟨s3, b1, b2⟩
  obtain ⟨u1, u2, u3⟩ := tag_filled h.toSent atx hex hnx hgx
  obtain ⟨v1, v2, v3⟩ := tag_filled h'.toSent atx2 hex hnx hgx
  obtain ⟨w1, w2, w3⟩ := tag_filled h'.toSent aty hey hny hgy
  have hpe : p = p2 := by
    have q1 : fillStack [] (hp ++ x :: w :: ws) = .ok (p ++ x1 :: z :: zs) := by rw [← s1, ← a1]; exact g
    have q2 : fillStack [] (hp ++ x :: y :: w :: ws) = .ok (p2 ++ x2 :: y2 :: z :: zs) := by
      rw [← s2, g', b1]; simp
    refine fill_tags hp (fun a ha => (hinst a (by rw [hfT, hA]; simp [ha])).1) q1 q2 a2 hp2 ?_
    simp [nextType, u2, v2]
  subst hpe
  have hb := (C15_frame_bytes f1 f b h.bytes h.fits).1
  have hb' := (C15_frame_bytes f1' f' b' h'.bytes h'.fits).1
  have tot : ∀ a c : List Hdr, totalSize (a ++ c) = totalSize a + totalSize c := by simp [totalSize]
  rw [a1] at hb
  rw [b1] at hb'
  simp only [tot, totalSize_cons, List.map_append, List.map_cons, List.flatten_append, List.flatten_cons, u1, u3] at hb
  simp only [tot, totalSize_cons, List.map_append, List.map_cons, List.flatten_append, List.flatten_cons, v1, v3, w1, w3, w2] at hb'
  have hlx : ((hdrBytes x).take (ex.2 / 8)).length = ex.2 / 8 := by
    have := congrArg List.length u1
    rw [hdrBytes_length, u3, List.length_append, beBytes_length] at this
    omega
  have hly : ((hdrBytes y).take (ey.2 / 8)).length = ey.2 / 8 := by
    have := congrArg List.length w1
    rw [hdrBytes_length, w3, List.length_append, beBytes_length] at this
    omega
  refine ⟨(p.map hdrBytes).flatten ++ (hdrBytes x).take (ex.2 / 8), beBytes 2 y.type, (hdrBytes y).take (ey.2 / 8),
    beBytes 2 z.type, ((z :: zs).map hdrBytes).flatten, ?_, ?_, ?_, beBytes_length _ _, hly, beBytes_length _ _, ?_, ?_⟩
  · rw [hb]
    simp only [List.length_append, flatten_hdrBytes_length, hdrBytes_length, hlx, List.append_assoc, List.map_cons, List.flatten_cons]
    congr 6
    omega
  · rw [hb']
    simp only [List.length_append, flatten_hdrBytes_length, hdrBytes_length, hlx, hly, List.append_assoc, List.map_cons,
      List.flatten_cons, List.map_nil, List.flatten_nil, List.nil_append]
    congr 8
    simp only [totalSize, List.map_nil, List.sum_nil]
    omega
  · rw [List.length_append, flatten_hdrBytes_length, hlx, a1, ← a2, List.take_left]
  · rw [flatten_hdrBytes_length, a1, ← a2]
    simp
  · intro q hq hn
    rw [type_assigned (h'.place aty).inst hq hn]

/-- Non-vacuity: a tag between `eth` and `ipv4`. -/
def tagRest : List CStr := [c!"ipv4", c!"udp", c!"data", c!"pattern", c!"cnt", c!"18"]

def bytesOf (ws : List CStr) : Option Buf :=
  match argcFrame ws with
  | .ok (some (_, f)) => (frameToBuf f).get?.map (·.2)
  | _ => none

example : (argcFrame [c!"eth"]).get?.join.map (fun p => (p.1, p.2.stack.map (·.name))) = some (1, [c!"eth"]) ∧
    (argcFrame [c!"eth", c!"ctag", c!"vid", c!"5"]).get?.join.map (fun p => (p.1, p.2.stack.map (·.name))) = some (4, [c!"eth", c!"ctag"]) := by
  decide +kernel

example : (match bytesOf (c!"eth" :: tagRest), bytesOf ([c!"eth", c!"ctag", c!"vid", c!"5"] ++ tagRest) with
    | some b, some b' => decide (b.length = 60 ∧ b' = b.take 12 ++ [0x81#8, 0x00#8, 0x00#8, 0x05#8] ++ b.drop 12)
    | _, _ => false) = true := by decide +kernel

/-- The bytes behind an IP header may change: the checksum of `udp` covers its addresses. -/
example : (match bytesOf [c!"ipv4", c!"sip", c!"1.2.3.4", c!"udp"], bytesOf [c!"ipv6", c!"udp"] with
    | some b, some b' => decide (slice b 20 8 ≠ slice b' 40 8)
    | _, _ => false) = true := by decide +kernel

end Ef.Props
