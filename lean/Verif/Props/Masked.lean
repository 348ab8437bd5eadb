import Verif.Props.Loopback
import Verif.Props.MaskExact
import Verif.Props.Relax

/-!
# Tests that ignore parts of the expected frames (C131)
-/

namespace Ef.Props

open Ef Ef.Spec

/-! ## C131: expectations with ignored fields -/

/-- Words, frame object, bytes and mask. -/
abbrev MDesc := List CStr × Frame × Buf × Option Buf

/-- What the words describe. -/
def MDesc.Ok (p : MDesc) : Prop := FrameWords p.1 p.2.1 p.2.2.1 p.2.2.2 ∧ p.2.1.padding = 0

/-- The words that transmit the frames `T` on interface `x`, and expect the frames `R` on `y`. -/
def maskedLine (x y : CStr) (T R : List MDesc) : List CStr :=
  T.flatMap (fun p => c!"tx" :: x :: p.1) ++ R.flatMap (fun p => c!"rx" :: y :: p.1)

def txCmdM (x : CStr) (p : MDesc) : Cmd :=
  { type := .tx, arg0 := some x, rep := 1, frame := some p.2.1, buf := some p.2.2.1, mask := p.2.2.2 }

def rxCmdM (y : CStr) (p : MDesc) : Cmd :=
  { type := .rx, arg0 := some y, frame := some p.2.1, buf := some p.2.2.1, mask := p.2.2.2 }

def maskedCmds (x y : CStr) (T R : List MDesc) : List Cmd := T.map (txCmdM x) ++ R.map (rxCmdM y)

theorem masked_parse {hp : Bool} {x y : CStr} {T R : List MDesc} (hT : ∀ p ∈ T, p.Ok) (hR : ∀ p ∈ R, p.Ok)
    (hl : (maskedLine x y T R).length ≤ 101) :
    parseCmds hp (maskedLine x y T R) = .ok (some (maskedCmds x y T R)) := by
  have e : maskedLine x y T R =
      allWords (T.map (fun p => ([c!"tx", x] ++ p.1, txCmdM x p)) ++ R.map (fun p => ([c!"rx", y] ++ p.1, rxCmdM y p))) := by
    simp [maskedLine, allWords, List.flatMap_map]
  rw [e] at hl ⊢
  rw [C52_commands_partial hp _ ?_ ?_ hl]
  · simp [maskedCmds, Function.comp_def]
  · intro p hq
    rcases List.mem_append.mp hq with hq | hq
    · obtain ⟨q, hqm, rfl⟩ := List.mem_map.mp hq
      exact Command.frame (.tx x) (hT q hqm).1
    · obtain ⟨q, hqm, rfl⟩ := List.mem_map.mp hq
      exact Command.frame (.rx y) (hR q hqm).1
  · apply separated_io
    intro p hq
    have hlen : ∀ q : MDesc, q.Ok → 0 < q.1.length := fun q hq => List.length_pos_iff.mpr hq.1.1
    rcases List.mem_append.mp hq with hq | hq
    · obtain ⟨q, hqm, rfl⟩ := List.mem_map.mp hq
      have := hlen q (hT q hqm)
      exact ⟨.inl rfl, by simp; omega⟩
    · obtain ⟨q, hqm, rfl⟩ := List.mem_map.mp hq
      have := hlen q (hR q hqm)
      exact ⟨.inr rfl, by simp; omega⟩

theorem masked_ifaces {x y : CStr} (hxy : x ≠ y) {T R : List MDesc} (hT : T ≠ []) (hR : R ≠ []) :
    ifaces (maskedCmds x y T R) = [x, y] := by
  have e : (maskedCmds x y T R).filterMap ioIface = List.replicate T.length x ++ List.replicate R.length y := by
    have h1 : ∀ l : List MDesc, (l.map (txCmdM x)).filterMap ioIface = List.replicate l.length x := by
      intro l
      induction l with
      | nil => rfl
      | cons p l ih =>
        rw [List.map_cons, List.filterMap_cons]
        simp only [ioIface, txCmdM, or_true, ↓reduceIte] at ih ⊢
        rw [ih]; rfl
    have h2 : ∀ l : List MDesc, (l.map (rxCmdM y)).filterMap ioIface = List.replicate l.length y := by
      intro l
      induction l with
      | nil => rfl
      | cons p l ih =>
        rw [List.map_cons, List.filterMap_cons]
        simp only [ioIface, rxCmdM, true_or, ↓reduceIte] at ih ⊢
        rw [ih]; rfl
    rw [maskedCmds, List.filterMap_append, h1, h2]
  unfold ifaces
  rw [e]
  obtain ⟨k, hk⟩ : ∃ k, T.length = k + 1 := ⟨T.length - 1, by have := List.length_pos_iff.mpr hT; omega⟩
  obtain ⟨m, hm⟩ : ∃ m, R.length = m + 1 := ⟨R.length - 1, by have := List.length_pos_iff.mpr hR; omega⟩
  rw [hk, hm, List.replicate_succ, List.cons_append, firsts, firsts_filter]
  have e2 : firsts (List.replicate (m + 1) y) = [y] := by
    rw [List.replicate_succ, firsts]
    have := firsts_filter (x := y) [] m
    rw [List.append_nil] at this
    rw [this]
    rfl
  rw [e2]
  simp [Ne.symm hxy]

theorem masked_framed {x y : CStr} {T R : List MDesc} : ∀ c ∈ maskedCmds x y T R, c.buf.isSome := by
  intro c hc
  rcases List.mem_append.mp hc with hc | hc <;> obtain ⟨p, _, rfl⟩ := List.mem_map.mp hc <;> rfl

theorem masked_sockets {x y : CStr} (hxy : x ≠ y) (T R : List MDesc) :
    onSocket x (maskedCmds x y T R) = T.map (txCmdM x) ∧ onSocket y (maskedCmds x y T R) = R.map (rxCmdM y) := by
  have e : (maskedCmds x y T R).map (resolve (maskedCmds x y T R)) = maskedCmds x y T R := by
    have : (maskedCmds x y T R).map (resolve (maskedCmds x y T R)) = (maskedCmds x y T R).map id :=
      List.map_congr_left (fun c hc => (resolve_framed (masked_framed c hc)).1)
    rw [this, List.map_id]
  unfold onSocket
  rw [e]
  unfold cmdsOn maskedCmds
  rw [List.filter_append, List.filter_append]
  have h1 : ∀ p, ioIface (txCmdM x p) = some x := fun p => rfl
  have h2 : ∀ p, ioIface (rxCmdM y p) = some y := fun p => rfl
  have f1 : (T.map (txCmdM x)).filter (fun c => ioIface c == some x) = T.map (txCmdM x) := by
    rw [List.filter_eq_self]; intro c hc; obtain ⟨p, _, rfl⟩ := List.mem_map.mp hc; simp [h1]
  have f2 : (R.map (rxCmdM y)).filter (fun c => ioIface c == some x) = [] := by
    rw [List.filter_eq_nil_iff]; intro c hc; obtain ⟨p, _, rfl⟩ := List.mem_map.mp hc; simp [h2, Ne.symm hxy]
  have f3 : (T.map (txCmdM x)).filter (fun c => ioIface c == some y) = [] := by
    rw [List.filter_eq_nil_iff]; intro c hc; obtain ⟨p, _, rfl⟩ := List.mem_map.mp hc; simp [h1, hxy]
  have f4 : (R.map (rxCmdM y)).filter (fun c => ioIface c == some y) = R.map (rxCmdM y) := by
    rw [List.filter_eq_self]; intro c hc; obtain ⟨p, _, rfl⟩ := List.mem_map.mp hc; simp [h2]
  rw [f1, f2, f3, f4]
  simp

/-- The received frame `b` is the one described, up to ignored bits. -/
def Accepted (p : MDesc) (b : Buf) : Prop := Matches b p.2.2.1 p.2.2.2

theorem wants_masked {y : CStr} {p : MDesc} (hp : p.Ok) (b : Buf) : Wants (rxCmdM y p) b ↔ Accepted p b := by
  constructor
  · rintro ⟨e, f, he, hf, _, core, tr, rfl, ht, hm⟩
    simp only [rxCmdM, Option.some.injEq] at he hf
    subst he; subst hf
    rw [hp.2] at ht
    simp only [Int.toNat_zero, List.length_eq_zero_iff] at ht
    subst ht
    rw [List.append_nil]
    exact hm
  · intro h
    refine ⟨_, _, rfl, rfl, by rw [hp.2]; exact Int.le_refl _, b, [], by simp, ?_, h⟩
    rw [hp.2]; rfl

/-- The frames `F` and the descriptions `R` can be brought together, one with each. -/
def Together (R : List MDesc) (F : List Buf) : Prop :=
  ∃ R' : List MDesc, R'.Perm R ∧ R'.length = F.length ∧ ∀ (k : Nat) p b, R'[k]? = some p → F[k]? = some b → Accepted p b

/-- Two descriptions accept the same frames or have none in common. -/
def KeptApart (R : List MDesc) : Prop :=
  ∀ p ∈ R, ∀ q ∈ R, (∃ b, Accepted p b ∧ Accepted q b) → ∀ b, Accepted p b ↔ Accepted q b

theorem paired_masked {y : CStr} {R : List MDesc} (hp : ∀ p ∈ R, p.Ok) (F : List Buf) :
    Paired (expectations (R.map (rxCmdM y))) F ↔ Together R F := by
  have e : expectations (R.map (rxCmdM y)) = R.map (rxCmdM y) := by
    unfold expectations
    rw [List.filter_eq_self]
    intro c hc
    obtain ⟨p, _, rfl⟩ := List.mem_map.mp hc
    rfl
  rw [e]
  constructor
  · rintro ⟨es, hperm, hlen, h⟩
    obtain ⟨R', h1, h2⟩ := perm_map_inv (rxCmdM y) hperm R rfl
    refine ⟨R', h1, by rw [← hlen, ← h2, List.length_map], fun k p b hk hb => ?_⟩
    have hw := h k (rxCmdM y p) b (by rw [← h2, List.getElem?_map, hk]; rfl) hb
    exact (wants_masked (hp p (h1.mem_iff.mp (List.mem_of_getElem? hk))) b).mp hw
  · rintro ⟨R', hperm, hlen, h⟩
    refine ⟨R'.map (rxCmdM y), hperm.map _, by rw [List.length_map, hlen], fun k c b hk hb => ?_⟩
    rw [List.getElem?_map] at hk
    cases hR : R'[k]? with
    | none => rw [hR] at hk; simp at hk
    | some p =>
      rw [hR] at hk
      simp only [Option.map_some, Option.some.injEq] at hk
      subst hk
      exact (wants_masked (hp p (hperm.mem_iff.mp (List.mem_of_getElem? hR))) b).mpr (h k p b hR hb)

/-- **C131.** A test transmits frames on interface `x` and expects frames on interface `y`, of which parts may be ignored. If
it succeeds, then the frames received on `y` can be brought together with the expected ones, each with one of which all
compared bits and the length agree. If no two different expectations have a frame in common, it succeeds whenever this is so. -/
theorem C131_masked (w : World) (ms : Int) (caps : List CStr) (x y : CStr) (T R : List MDesc) (r : RunRes)
    (n : Int) (hxy : x ≠ y) (hTn : T ≠ []) (hRn : R ≠ []) (hT : ∀ p ∈ T, p.Ok) (hR : ∀ p ∈ R, p.Ok)
    (hlen : (maskedLine x y T R).length ≤ 101) (hox : w.env.canOpen x = true) (hoy : w.env.canOpen y = true)
    (h : argcCmds w ms caps (maskedLine x y T R) = .ok r) (hn : r.ret = some n) :
    (n = 0 → Together R (seen w ms)) ∧ (KeptApart R → Together R (seen w ms) → n = 0) := by
  unfold argcCmds at h
  rw [masked_parse hT hR hlen] at h
  simp only [Out.ok_bind, Out.bind_eq_ok] at h
  obtain ⟨r0, h0, h⟩ := h
  simp only [Out.ok.injEq] at h
  subst h
  simp only at hn ⊢
  have hif := masked_ifaces hxy hTn hRn
  have hfresh : Fresh (maskedCmds x y T R) := by
    intro c hc
    rcases List.mem_append.mp hc with hc | hc <;> obtain ⟨p, _, rfl⟩ := List.mem_map.mp hc <;> rfl
  have hr : Ready (maskedCmds x y T R) := by
    refine ⟨hfresh, ?_, by rw [hif]; simp⟩
    intro c hc _
    rcases List.mem_append.mp hc with hc | hc <;> obtain ⟨p, _, rfl⟩ := List.mem_map.mp hc <;> rfl
  have hu : ∀ c ∈ maskedCmds x y T R, unresolved (maskedCmds x y T R) c = false :=
    fun c hc => (resolve_framed (masked_framed c hc)).2
  have hopen : ∀ a ∈ ifaces (maskedCmds x y T R), w.env.canOpen a = true := by
    rw [hif]
    intro a ha
    simp only [List.mem_cons, List.not_mem_nil, or_false] at ha
    rcases ha with rfl | rfl
    · exact hox
    · exact hoy
  obtain ⟨hsx, hsy⟩ := masked_sockets hxy T R
  obtain ⟨hnf, hfin⟩ := C57_error_count { w.env with timeoutMs := ms } _ r0 hr hu hopen h0
  have hst : r0.status = .finished := by
    by_cases hs : r0.status = .finished
    · exact hs
    · rw [hnf hs] at hn
      simp at hn
  obtain ⟨_, m, out, hm, hcred, hsum⟩ := hfin hst
  have hrxex : ∃ c ∈ maskedCmds x y T R, c.type = .rx := by
    cases R with
    | nil => exact absurd rfl hRn
    | cons p R => exact ⟨rxCmdM y p, by simp [maskedCmds], rfl⟩
  have hm := hm hrxex
  subst hm
  have hc0 := hcred 0 x (by rw [hif]; rfl)
  have hc1 := hcred 1 y (by rw [hif]; rfl)
  rw [hsx] at hc0
  rw [hsy] at hc1
  have hrx0 : ∀ c ∈ T.map (txCmdM x), c.type ≠ .rx := by
    intro c hc
    obtain ⟨p, _, rfl⟩ := List.mem_map.mp hc
    exact CmdType.noConfusion
  have hout0 : out 0 = [] := by
    have := hc0.len
    unfold heard at this
    rw [if_neg (by
      rw [List.any_eq_true]
      rintro ⟨c, hc, ht⟩
      exact hrx0 c hc (by simpa using ht))] at this
    exact List.length_eq_zero_iff.mp this
  have hun0 : uncredited (T.map (txCmdM x)) [] = [] := by
    unfold uncredited
    rw [List.map_eq_nil_iff, List.filter_eq_nil_iff]
    rintro ⟨c, k⟩ hc
    have hcm := List.mem_zipIdx hc
    have := hrx0 c (by
      have := hcm.2.2
      rw [this]
      exact List.getElem_mem _)
    simp [this]
  have hseen : heard { w.env with timeoutMs := ms } (R.map (rxCmdM y)) 1
      (usable (deadline { w.env with timeoutMs := ms }) w.env.hist).length = seen w ms := by
    unfold heard seen
    rw [if_pos (by
      rw [List.any_eq_true]
      cases R with
      | nil => exact absurd rfl hRn
      | cons p R => exact ⟨rxCmdM y p, by simp, rfl⟩), List.take_length]
  have hallrx : ∀ c ∈ R.map (rxCmdM y), c.type = .rx := by
    intro c hc
    obtain ⟨p, _, rfl⟩ := List.mem_map.mp hc
    rfl
  have hcount : n = (((out 1).count none + (uncredited (R.map (rxCmdM y)) (out 1)).length : Nat) : Int) := by
    have hs : some n = some ((((ifaces (maskedCmds x y T R)).zipIdx.map (fun p => (out p.2).count none +
        (uncredited (onSocket p.1 (maskedCmds x y T R)) (out p.2)).length)).sum : Nat) : Int) := hn.symm.trans hsum
    rw [Option.some.inj hs, hif]
    simp only [List.zipIdx_cons, List.zipIdx_nil, List.map_cons, List.map_nil, List.sum_cons, List.sum_nil, hsx, hsy,
      hout0, hun0, Nat.zero_add]
    simp
  rw [← paired_masked (y := y) hR, ← hseen]
  constructor
  · intro h00
    rw [h00] at hcount
    exact credited_paired hc1 hallrx (by omega) (List.length_eq_zero_iff.mp (by omega))
  · intro hap hp
    have hno : NoOverlap (R.map (rxCmdM y)) := by
      intro c hc c' hc' hex b
      obtain ⟨p, hpm, rfl⟩ := List.mem_map.mp hc
      obtain ⟨q, hqm, rfl⟩ := List.mem_map.mp hc'
      rw [wants_masked (hR p hpm), wants_masked (hR q hqm)]
      obtain ⟨b0, g1, g2⟩ := hex
      exact hap p hpm q hqm ⟨b0, (wants_masked (hR p hpm) b0).mp g1, (wants_masked (hR q hqm) b0).mp g2⟩ b
    obtain ⟨h1, h2⟩ := paired_credited hc1 hallrx hno hp
    rw [hcount, h1, h2]
    rfl

/-- **C131, one expectation**: the test succeeds exactly if one frame is received on `y`, of the length of the expected frame and
with the same compared bits. -/
theorem C131_one (w : World) (ms : Int) (caps : List CStr) (x y : CStr) (T : List MDesc) (p : MDesc) (r : RunRes)
    (n : Int) (hxy : x ≠ y) (hTn : T ≠ []) (hT : ∀ p ∈ T, p.Ok) (hp : p.Ok)
    (hlen : (maskedLine x y T [p]).length ≤ 101) (hox : w.env.canOpen x = true) (hoy : w.env.canOpen y = true)
    (h : argcCmds w ms caps (maskedLine x y T [p]) = .ok r) (hn : r.ret = some n) :
    n = 0 ↔ ∃ b, seen w ms = [b] ∧ Accepted p b := by
  obtain ⟨h1, h2⟩ := C131_masked w ms caps x y T [p] r n hxy hTn (by simp) hT (by simpa using hp) hlen hox hoy h hn
  have key : Together [p] (seen w ms) ↔ ∃ b, seen w ms = [b] ∧ Accepted p b := by
    constructor
    · rintro ⟨R', hperm, hl, ha⟩
      rw [List.perm_singleton.mp hperm] at hl ha
      match hs : seen w ms, hl with
      | [b], _ =>
        rw [hs] at ha
        exact ⟨b, rfl, ha 0 p b rfl rfl⟩
    · rintro ⟨b, hs, ha⟩
      rw [hs]
      refine ⟨[p], .refl _, rfl, fun k q c hq hc => ?_⟩
      match k with
      | 0 =>
        simp only [List.getElem?_cons_zero, Option.some.injEq] at hq hc
        subst hq hc
        exact ha
      | k + 1 => simp at hq
  rw [← key]
  refine ⟨h1, h2 ?_⟩
  intro q hq q' hq' _ b
  rw [List.mem_singleton.mp hq, List.mem_singleton.mp hq']

/-- **C131, the fields**: an expected frame described by words accepts exactly the frames of its length that agree on all bits that
belong to a field that is not ignored, or to no header at all (`IsCompared`, see C20); without ignored fields these are all bits. -/
theorem C131_fields (p : MDesc) (hp : p.Ok) (hs : ShortWords p.1) (b : Buf) :
    (p.2.2.2 = none → (Accepted p b ↔ b = p.2.2.1)) ∧
    (p.2.2.2 ≠ none → (Accepted p b ↔ b.length = p.2.2.1.length ∧
      ∀ i, i < 8 * p.2.2.1.length → IsCompared p.2.1.stack i → bit b i = bit p.2.2.1 i)) := by
  obtain ⟨⟨hne, f0, h1, h2, hm⟩, hpad⟩ := hp
  refine ⟨fun h0 => ?_, fun h0 => ?_⟩
  · unfold Accepted
    rw [h0]
    constructor
    · rintro ⟨hl, hb⟩
      exact buf_ext hl (fun i _ => hb i trivial)
    · rintro rfl
      exact ⟨rfl, fun _ _ => rfl⟩
  · rcases hm with ⟨_, h3⟩ | ⟨_, m, h3, h4⟩
    · exact absurd h3 h0
    · obtain ⟨k1, k2⟩ := C20_parsed p.1 _ f0 p.2.1 p.2.2.1 hs h1 h2
      have hin : ComparedInside p.2.1.stack := by
        refine Classical.byContradiction fun hc => ?_
        rw [h4] at k2
        cases k2 hc
      obtain ⟨m', e1, e2, e3⟩ := k1 hin
      rw [h4] at e1
      cases e1
      unfold Accepted
      rw [h3]
      constructor
      · rintro ⟨hl, hb⟩
        exact ⟨hl, fun i hi hc => hb i (fun _ => (e3 i (by rw [e2]; exact hi)).mpr hc)⟩
      · rintro ⟨hl, hb⟩
        refine ⟨hl, fun i hc => ?_⟩
        by_cases hi : i < 8 * p.2.2.1.length
        · exact hb i hi ((e3 i (by rw [e2]; exact hi)).mp (hc (by rw [e2]; exact hi)))
        · rw [bit_of_ge _ _ (by omega), bit_of_ge _ _ (by omega)]

/-- **C131, a good connection**: the words of the expectation are those of the transmission with some values replaced by `ign`. If
nothing that is ignored shares bits with compared fields or goes into a compared checksum (see C85), then the test succeeds
exactly if one frame is received that agrees with the expected one on the compared bits, and the transmitted frame is such a frame. -/
theorem C131_relaxed (w : World) (ms : Int) (caps : List CStr) (x y : CStr) (p q : MDesc) (f g : Frame) (r : RunRes) (n : Int)
    (hxy : x ≠ y) (hp : p.Ok) (hq : q.Ok) (hlen : (maskedLine x y [p] [q]).length ≤ 101) (hox : w.env.canOpen x = true)
    (hoy : w.env.canOpen y = true) (h : argcCmds w ms caps (maskedLine x y [p] [q]) = .ok r) (hn : r.ret = some n)
    (hrel : Relaxed p.1 q.1) (hs : ShortWords p.1) (hs' : ShortWords q.1)
    (hf : argcFrame p.1 = .ok (some (p.1.length, f))) (hg : argcFrame q.1 = .ok (some (q.1.length, g)))
    (hmask : q.2.2.2 ≠ none) (hflex : ∀ x ∈ g.stack, x.name ∉ flexible)
    (hsep : ∀ x ∈ q.2.1.stack, ∀ p ∈ x.fields, ∀ q ∈ x.fields, p.rxSkip = true → q.rxSkip = false →
      ∀ i, covers p i → ¬ covers q i)
    (hchk : ∀ pre x post pre' x' post', f.stack = pre ++ x :: post → g.stack = pre' ++ x' :: post' →
      pre.length = pre'.length → ChecksumSafe pre x post pre' x' post') :
    (n = 0 ↔ ∃ b, seen w ms = [b] ∧ Accepted q b) ∧ Accepted q p.2.2.1 := by
  refine ⟨C131_one w ms caps x y [p] q r n hxy (by simp) (by simpa using hp) hq hlen hox hoy h hn, ?_⟩
  obtain ⟨⟨-, f0, a1, a2, -⟩, -⟩ := hp
  obtain ⟨⟨-, g0, b1, b2, b3⟩, -⟩ := hq
  rw [hf] at a1
  rw [hg] at b1
  cases a1
  cases b1
  obtain ⟨m, c1, c2⟩ := C85_ignored_values_partial hrel ⟨hs, ⟨_, hf⟩, a2⟩ ⟨hs', ⟨_, hg⟩, b2⟩ hf hg hflex hsep hchk
  rcases b3 with ⟨_, b3⟩ | ⟨_, m', b3, b4⟩
  · exact absurd b3 hmask
  · rw [c1] at b4
    cases b4
    obtain ⟨t, d1, d2⟩ := bequalMask_zero p.2.2.1 q.2.2.1 (some m)
    rw [c2] at d1
    cases d1
    unfold Accepted
    rw [b3]
    exact d2.mp rfl

/-! ### Examples -/

/-- Words that describe a frame, with the completed frame, bytes and mask. -/
def describe (ws : List CStr) : Option MDesc :=
  match argcFrame ws with
  | .ok (some (n, f0)) =>
    match frameToBuf f0 with
    | .ok (f, b) =>
      if n = ws.length ∧ ws ≠ [] ∧ f.padding = 0 then
        if f.hasMask then
          match frameMaskToBuf f with
          | .ok m => some (ws, f, b, some m)
          | _ => none
        else some (ws, f, b, none)
      else none
    | _ => none
  | _ => none

theorem describe_ok {ws : List CStr} {p : MDesc} (h : describe ws = some p) : p.Ok ∧ p.1 = ws := by
  unfold describe at h
  split at h
  · rename_i n f0 e1
    split at h
    · rename_i f b e2
      split at h
      · rename_i hc
        obtain ⟨rfl, hne, hpad⟩ := hc
        split at h
        · rename_i hm
          split at h
          · rename_i m e3
            cases h
            exact ⟨⟨⟨hne, f0, e1, e2, .inr ⟨hm, m, rfl, e3⟩⟩, hpad⟩, rfl⟩
          · simp at h
        · rename_i hm
          cases h
          exact ⟨⟨⟨hne, f0, e1, e2, .inl ⟨by simpa using hm, rfl⟩⟩, hpad⟩, rfl⟩
      · simp at h
    · simp at h
  · simp at h

/-- `tx a eth rx b eth smac ign` -/
def ignLine : List CStr := [c!"tx", c!"a", c!"eth", c!"rx", c!"b", c!"eth", c!"smac", c!"ign"]

/-- **C131, example**: with `smac ign` the test succeeds if the source address is changed on the way, and fails if another bit is. -/
theorem C131_example :
    (∃ p q : MDesc, p.Ok ∧ q.Ok ∧ ignLine = maskedLine c!"a" c!"b" [p] [q] ∧ q.2.2.2 ≠ none) ∧
    (toolResult (cable (ethBytes.set 7 4#8)) ignLine).ret = some 0 ∧ seen (cable (ethBytes.set 7 4#8)) 100 = [ethBytes.set 7 4#8] ∧
    (toolResult (cable (ethBytes.set 5 4#8)) ignLine).ret = some 2 ∧
    (toolResult (cable []) ignLine).ret = some 1 := by
  refine ⟨?_, by decide +kernel⟩
  have h1 : (describe [c!"eth"]).isSome = true := by decide +kernel
  have h2 : (describe [c!"eth", c!"smac", c!"ign"]).any (fun q => q.2.2.2.isSome) = true := by decide +kernel
  cases e1 : describe [c!"eth"] with
  | none => rw [e1] at h1; simp at h1
  | some p =>
    cases e2 : describe [c!"eth", c!"smac", c!"ign"] with
    | none => rw [e2] at h2; simp at h2
    | some q =>
      rw [e2] at h2
      obtain ⟨a1, a2⟩ := describe_ok e1
      obtain ⟨b1, b2⟩ := describe_ok e2
      refine ⟨p, q, a1, b1, by simp [maskedLine, a2, b2, ignLine], fun h0 => ?_⟩
      simp [h0] at h2

end Ef.Props
