import Verif.Props.Delivery
import Verif.Props.Commands
import Verif.Props.Tool

/-!
# Property of a test with two connected interfaces (C90)
-/

namespace Ef.Props

open Ef Ef.Spec

/-! ## C90: sending frames on one interface and expecting frames on another one -/

/-- All the words describe a frame with bytes `b`, without mask and without padding. -/
def Describes (ws : List CStr) (b : Buf) : Prop := ∃ f, FrameWords ws f b none ∧ f.padding = 0

/-- The words that transmit the frames described by `T` on interface `x`, and expect those of `R` on `y`. -/
def testLine (x y : CStr) (T R : List (List CStr × Buf)) : List CStr :=
  T.flatMap (fun p => c!"tx" :: x :: p.1) ++ R.flatMap (fun p => c!"rx" :: y :: p.1)

/-- The frames received on the second interface before the deadline. -/
def seen (w : World) (ms : Int) : List Buf :=
  (usable (deadline { w.env with timeoutMs := ms }) w.env.hist).flatMap (delivered w.env.cfg 1)

/-- How often the first interface is ready for transmission before the deadline. -/
def chances (w : World) (ms : Int) : Nat :=
  (usable (deadline { w.env with timeoutMs := ms }) w.env.hist).countP (fun s => s.writable 0)

/-! ### The commands -/

/-- Words, frame object and bytes. -/
abbrev Desc := List CStr × Frame × Buf

def txCmd (x : CStr) (p : Desc) : Cmd :=
  { type := .tx, arg0 := some x, rep := 1, frame := some p.2.1, buf := some p.2.2, mask := none }

def rxCmd (y : CStr) (p : Desc) : Cmd :=
  { type := .rx, arg0 := some y, frame := some p.2.1, buf := some p.2.2, mask := none }

def testCmds (x y : CStr) (T R : List Desc) : List Cmd := T.map (txCmd x) ++ R.map (rxCmd y)

def plainDesc (p : Desc) : List CStr × Buf := (p.1, p.2.2)

theorem describes_all {T : List (List CStr × Buf)} (h : ∀ p ∈ T, Describes p.1 p.2) :
    ∃ T' : List Desc, T'.map plainDesc = T ∧ ∀ p ∈ T', FrameWords p.1 p.2.1 p.2.2 none ∧ p.2.1.padding = 0 := by
  induction T with
  | nil => exact ⟨[], rfl, by simp⟩
  | cons p T ih =>
    obtain ⟨T', h1, h2⟩ := ih (fun q hq => h q (by simp [hq]))
    obtain ⟨f, hf, hp⟩ := h p (by simp)
    refine ⟨(p.1, f, p.2) :: T', by simp [plainDesc, h1], ?_⟩
    intro q hq
    rcases List.mem_cons.mp hq with rfl | hq
    · exact ⟨hf, hp⟩
    · exact h2 q hq

theorem separated_io {hp : Bool} {l : List (List CStr × Cmd)}
    (h : ∀ p ∈ l, (p.1.head? = some c!"tx" ∨ p.1.head? = some c!"rx") ∧ 2 < p.1.length) : Separated hp l := by
  induction l with
  | nil => trivial
  | cons p l ih =>
    cases l with
    | nil => trivial
    | cons q l =>
      refine ⟨?_, ih (fun x hx => h x (by simp [hx]))⟩
      intro w hw
      have hq := (h q (by simp)).1
      rw [hw] at hq
      simp only [Option.some.injEq] at hq
      refine ⟨fun _ => ?_, ?_⟩
      · rcases hq with rfl | rfl <;> decide
      · rintro ⟨ifc, he⟩
        have := (h p (by simp)).2
        rw [he] at this
        simp at this

theorem test_parse {hp : Bool} {x y : CStr} {T R : List Desc}
    (hT : ∀ p ∈ T, FrameWords p.1 p.2.1 p.2.2 none) (hR : ∀ p ∈ R, FrameWords p.1 p.2.1 p.2.2 none)
    (hl : (testLine x y (T.map plainDesc) (R.map plainDesc)).length ≤ 101) :
    parseCmds hp (testLine x y (T.map plainDesc) (R.map plainDesc)) = .ok (some (testCmds x y T R)) := by
  have e : testLine x y (T.map plainDesc) (R.map plainDesc) =
      allWords (T.map (fun p => ([c!"tx", x] ++ p.1, txCmd x p)) ++ R.map (fun p => ([c!"rx", y] ++ p.1, rxCmd y p))) := by
    simp [testLine, allWords, List.flatMap_map, plainDesc]
  rw [e] at hl ⊢
  rw [C52_commands_partial hp _ ?_ ?_ hl]
  · simp [testCmds, Function.comp_def]
  · intro p hq
    rcases List.mem_append.mp hq with hq | hq
    · obtain ⟨q, hqm, rfl⟩ := List.mem_map.mp hq
      exact Command.frame (.tx x) (hT q hqm)
    · obtain ⟨q, hqm, rfl⟩ := List.mem_map.mp hq
      exact Command.frame (.rx y) (hR q hqm)
  · apply separated_io
    intro p hq
    have hlen : ∀ q : Desc, FrameWords q.1 q.2.1 q.2.2 none → 0 < q.1.length :=
      fun q hq => List.length_pos_iff.mpr hq.1
    rcases List.mem_append.mp hq with hq | hq
    · obtain ⟨q, hqm, rfl⟩ := List.mem_map.mp hq
      have := hlen q (hT q hqm)
      exact ⟨.inl rfl, by simp; omega⟩
    · obtain ⟨q, hqm, rfl⟩ := List.mem_map.mp hq
      have := hlen q (hR q hqm)
      exact ⟨.inr rfl, by simp; omega⟩

theorem firsts_filter {x : CStr} (l : List CStr) (k : Nat) :
    (firsts (List.replicate k x ++ l)).filter (· ≠ x) = (firsts l).filter (· ≠ x) := by
  induction k with
  | zero => rfl
  | succ k ih =>
    rw [List.replicate_succ, List.cons_append, firsts, List.filter_cons]
    simp only [ne_eq, not_true_eq_false, decide_false, Bool.false_eq_true, ↓reduceIte]
    rw [List.filter_filter]
    simp only [ne_eq, Bool.and_self] at ih ⊢
    exact ih

theorem test_ifaces {x y : CStr} (hxy : x ≠ y) {T R : List Desc} (hT : T ≠ []) (hR : R ≠ []) :
    ifaces (testCmds x y T R) = [x, y] := by
  have e : (testCmds x y T R).filterMap ioIface = List.replicate T.length x ++ List.replicate R.length y := by
    have h1 : ∀ l : List Desc, (l.map (txCmd x)).filterMap ioIface = List.replicate l.length x := by
      intro l
      induction l with
      | nil => rfl
      | cons p l ih =>
        rw [List.map_cons, List.filterMap_cons]
        simp only [ioIface, txCmd, or_true, ↓reduceIte] at ih ⊢
        rw [ih]; rfl
    have h2 : ∀ l : List Desc, (l.map (rxCmd y)).filterMap ioIface = List.replicate l.length y := by
      intro l
      induction l with
      | nil => rfl
      | cons p l ih =>
        rw [List.map_cons, List.filterMap_cons]
        simp only [ioIface, rxCmd, true_or, ↓reduceIte] at ih ⊢
        rw [ih]; rfl
    rw [testCmds, List.filterMap_append, h1, h2]
  unfold ifaces
  rw [e]
  obtain ⟨k, hk⟩ : ∃ k, T.length = k + 1 := ⟨T.length - 1, by have := List.length_pos_iff.mpr hT; omega⟩
  obtain ⟨m, hm⟩ : ∃ m, R.length = m + 1 := ⟨R.length - 1, by have := List.length_pos_iff.mpr hR; omega⟩
  rw [hk, hm, List.replicate_succ, List.cons_append, firsts, firsts_filter]
  have e2 : firsts (List.replicate (m + 1) y) = [y] := by
    rw [List.replicate_succ, firsts]
    have := firsts_filter (x := y) [] m
    rw [List.append_nil] at this
    rw [this]
    rfl
  rw [e2]
  simp [Ne.symm hxy]

theorem resolve_framed {all : List Cmd} {c : Cmd} (h : c.buf.isSome) : resolve all c = c ∧ unresolved all c = false := by
  have : refersTo c = none := by
    unfold refersTo
    rw [if_neg]
    rintro ⟨_, h0⟩
    rw [h0] at h
    simp at h
  unfold resolve unresolved
  rw [this]
  exact ⟨rfl, rfl⟩

theorem test_framed {x y : CStr} {T R : List Desc} : ∀ c ∈ testCmds x y T R, c.buf.isSome := by
  intro c hc
  rcases List.mem_append.mp hc with hc | hc <;> obtain ⟨p, _, rfl⟩ := List.mem_map.mp hc <;> rfl

theorem test_sockets {x y : CStr} (hxy : x ≠ y) (T R : List Desc) :
    onSocket x (testCmds x y T R) = T.map (txCmd x) ∧ onSocket y (testCmds x y T R) = R.map (rxCmd y) := by
  have e : (testCmds x y T R).map (resolve (testCmds x y T R)) = testCmds x y T R := by
    have : (testCmds x y T R).map (resolve (testCmds x y T R)) = (testCmds x y T R).map id :=
      List.map_congr_left (fun c hc => (resolve_framed (test_framed c hc)).1)
    rw [this, List.map_id]
  unfold onSocket
  rw [e]
  unfold cmdsOn testCmds
  rw [List.filter_append, List.filter_append]
  have h1 : ∀ p, ioIface (txCmd x p) = some x := fun p => rfl
  have h2 : ∀ p, ioIface (rxCmd y p) = some y := fun p => rfl
  have f1 : (T.map (txCmd x)).filter (fun c => ioIface c == some x) = T.map (txCmd x) := by
    rw [List.filter_eq_self]; intro c hc; obtain ⟨p, _, rfl⟩ := List.mem_map.mp hc; simp [h1]
  have f2 : (R.map (rxCmd y)).filter (fun c => ioIface c == some x) = [] := by
    rw [List.filter_eq_nil_iff]; intro c hc; obtain ⟨p, _, rfl⟩ := List.mem_map.mp hc; simp [h2, Ne.symm hxy]
  have f3 : (T.map (txCmd x)).filter (fun c => ioIface c == some y) = [] := by
    rw [List.filter_eq_nil_iff]; intro c hc; obtain ⟨p, _, rfl⟩ := List.mem_map.mp hc; simp [h1, hxy]
  have f4 : (R.map (rxCmd y)).filter (fun c => ioIface c == some y) = R.map (rxCmd y) := by
    rw [List.filter_eq_self]; intro c hc; obtain ⟨p, _, rfl⟩ := List.mem_map.mp hc; simp [h2]
  rw [f1, f2, f3, f4]
  simp

/-! ### Pairing without masks -/

theorem perm_map_inv {α β : Type} (g : α → β) {F G : List β} (h : F.Perm G) : ∀ es : List α, es.map g = G →
    ∃ es' : List α, es'.Perm es ∧ es'.map g = F := by
  induction h with
  | nil => intro es he; exact ⟨es, .refl _, he⟩
  | cons b _ ih =>
    intro es he
    cases es with
    | nil => simp at he
    | cons a es =>
      simp only [List.map_cons, List.cons.injEq] at he
      obtain ⟨es', h1, h2⟩ := ih es he.2
      exact ⟨a :: es', h1.cons a, by simp [he.1, h2]⟩
  | swap a b l =>
    intro es he
    match es, he with
    | [], he => simp at he
    | [_], he => simp at he
    | p :: q :: es, he =>
      simp only [List.map_cons, List.cons.injEq] at he
      exact ⟨q :: p :: es, .swap p q es, by simp [he.1, he.2.1, he.2.2]⟩
  | trans _ _ ih1 ih2 =>
    intro es he
    obtain ⟨e2, h1, h2⟩ := ih2 es he
    obtain ⟨e3, h3, h4⟩ := ih1 e2 h2
    exact ⟨e3, h3.trans h1, h4⟩

theorem wants_rx {y : CStr} {p : Desc} (hp : p.2.1.padding = 0) (b : Buf) : Wants (rxCmd y p) b ↔ b = p.2.2 := by
  constructor
  · rintro ⟨e, f, he, hf, _, core, tr, rfl, ht, hlen, hbit⟩
    simp only [rxCmd, Option.some.injEq] at he hf
    subst he; subst hf
    rw [hp] at ht
    simp only [Int.toNat_zero, List.length_eq_zero_iff] at ht
    subst ht
    rw [List.append_nil]
    exact buf_ext hlen (fun i _ => hbit i trivial)
  · rintro rfl
    refine ⟨_, _, rfl, rfl, by rw [hp]; exact Int.le_refl _, p.2.2, [], by simp, ?_, rfl, fun _ _ => rfl⟩
    rw [hp]; rfl

theorem paired_rx {y : CStr} {R : List Desc} (hp : ∀ p ∈ R, p.2.1.padding = 0) (F : List Buf) :
    Paired (expectations (R.map (rxCmd y))) F ↔ F.Perm (R.map (fun p => p.2.2)) := by
  have e : expectations (R.map (rxCmd y)) = R.map (rxCmd y) := by
    unfold expectations
    rw [List.filter_eq_self]
    intro c hc
    obtain ⟨p, _, rfl⟩ := List.mem_map.mp hc
    rfl
  have eb : (R.map (rxCmd y)).map (fun c => c.buf.getD []) = R.map (fun p => p.2.2) := by
    rw [List.map_map]; rfl
  have hw : ∀ c ∈ R.map (rxCmd y), ∀ b, Wants c b ↔ b = c.buf.getD [] := by
    intro c hc b
    obtain ⟨p, hpm, rfl⟩ := List.mem_map.mp hc
    exact wants_rx (hp p hpm) b
  rw [e]
  constructor
  · rintro ⟨es, hperm, hlen, h⟩
    rw [← eb]
    refine List.Perm.trans ?_ (hperm.map _)
    have : F = es.map (fun c => c.buf.getD []) := by
      apply List.ext_getElem?
      intro k
      rw [List.getElem?_map]
      cases hk : es[k]? with
      | none =>
        rw [Option.map_none, List.getElem?_eq_none_iff]
        rw [List.getElem?_eq_none_iff] at hk
        omega
      | some c =>
        have hlt : k < F.length := by rw [← hlen]; exact (List.getElem?_eq_some_iff.mp hk).1
        rw [Option.map_some, List.getElem?_eq_getElem hlt]
        have := (hw c (hperm.mem_iff.mp (List.mem_of_getElem? hk)) F[k]).mp
          (h k c F[k] hk (List.getElem?_eq_getElem hlt))
        rw [this]
    rw [this]
  · intro h
    rw [← eb] at h
    obtain ⟨es, h1, h2⟩ := perm_map_inv (fun c : Cmd => c.buf.getD []) h _ rfl
    refine ⟨es, h1, by rw [← h2, List.length_map], ?_⟩
    intro k c b hc hb
    rw [hw c (h1.mem_iff.mp (List.mem_of_getElem? hc))]
    rw [← h2, List.getElem?_map, hc] at hb
    simpa using hb.symm

/-! ### The property -/

/-- **C90.** A test transmits the frames `T` on interface `x` and expects the frames `R` on interface `y`. The tool
succeeds exactly if the frames received on `y` are the frames of `R`, each as often as it is expected, in any order. If
no transmission fails and `x` is ready often enough, exactly the frames `T` are transmitted. So if the words of the
expectations are those of the transmissions, a connection that delivers exactly what is transmitted makes the tool
succeed, and any other one makes it fail. -/
theorem C90_connection (w : World) (ms : Int) (caps : List CStr) (x y : CStr) (T R : List (List CStr × Buf)) (r : RunRes)
    (n : Int) (hxy : x ≠ y) (hTn : T ≠ []) (hRn : R ≠ []) (hT : ∀ p ∈ T, Describes p.1 p.2)
    (hR : ∀ p ∈ R, Describes p.1 p.2) (hlen : (testLine x y T R).length ≤ 101) (hox : w.env.canOpen x = true)
    (hoy : w.env.canOpen y = true) (h : argcCmds w ms caps (testLine x y T R) = .ok r) (hn : r.ret = some n) :
    (n = 0 ↔ (seen w ms).Perm (R.map (·.2))) ∧
    ((∀ e ∈ r.events, ifaceOf e = some x → sendOk e = true) → T.length ≤ chances w ms →
      r.events.filterMap (sentOn x) = T.map (·.2) ∧
      (T = R → (n = 0 ↔ (seen w ms).Perm (r.events.filterMap (sentOn x))))) := by
  obtain ⟨T', rfl, hT'⟩ := describes_all hT
  obtain ⟨R', rfl, hR'⟩ := describes_all hR
  have hTn' : T' ≠ [] := by rintro rfl; exact hTn rfl
  have hRn' : R' ≠ [] := by rintro rfl; exact hRn rfl
  unfold argcCmds at h
  rw [test_parse (fun p hp => (hT' p hp).1) (fun p hp => (hR' p hp).1) hlen] at h
  simp only [Out.ok_bind, Out.bind_eq_ok] at h
  obtain ⟨r0, h0, h⟩ := h
  simp only [Out.ok.injEq] at h
  subst h
  simp only at hn ⊢
  have hif := test_ifaces hxy hTn' hRn'
  have hfresh : Fresh (testCmds x y T' R') := by
    intro c hc
    rcases List.mem_append.mp hc with hc | hc <;> obtain ⟨p, _, rfl⟩ := List.mem_map.mp hc <;> rfl
  have hr : Ready (testCmds x y T' R') := by
    refine ⟨hfresh, ?_, by rw [hif]; simp⟩
    intro c hc _
    rcases List.mem_append.mp hc with hc | hc <;> obtain ⟨p, _, rfl⟩ := List.mem_map.mp hc <;> rfl
  have hu : ∀ c ∈ testCmds x y T' R', unresolved (testCmds x y T' R') c = false :=
    fun c hc => (resolve_framed (test_framed c hc)).2
  have hopen : ∀ a ∈ ifaces (testCmds x y T' R'), w.env.canOpen a = true := by
    rw [hif]
    intro a ha
    simp only [List.mem_cons, List.not_mem_nil, or_false] at ha
    rcases ha with rfl | rfl
    · exact hox
    · exact hoy
  obtain ⟨hsx, hsy⟩ := test_sockets hxy T' R'
  obtain ⟨hnf, hfin⟩ := C57_error_count { w.env with timeoutMs := ms } _ r0 hr hu hopen h0
  have hst : r0.status = .finished := by
    by_cases hs : r0.status = .finished
    · exact hs
    · rw [hnf hs] at hn
      simp at hn
  obtain ⟨_, m, out, hm, hcred, hsum⟩ := hfin hst
  have hrxex : ∃ c ∈ testCmds x y T' R', c.type = .rx := by
    cases R' with
    | nil => exact absurd rfl hRn'
    | cons p R' => exact ⟨rxCmd y p, by simp [testCmds], rfl⟩
  have hm := hm hrxex
  subst hm
  -- nothing is received on the first interface
  have hc0 := hcred 0 x (by rw [hif]; rfl)
  have hc1 := hcred 1 y (by rw [hif]; rfl)
  rw [hsx] at hc0
  rw [hsy] at hc1
  have hrx0 : ∀ c ∈ T'.map (txCmd x), c.type ≠ .rx := by
    intro c hc
    obtain ⟨p, _, rfl⟩ := List.mem_map.mp hc
    exact CmdType.noConfusion
  have hout0 : out 0 = [] := by
    have := hc0.len
    unfold heard at this
    rw [if_neg (by
      rw [List.any_eq_true]
      rintro ⟨c, hc, ht⟩
      exact hrx0 c hc (by simpa using ht))] at this
    exact List.length_eq_zero_iff.mp this
  have hun0 : uncredited (T'.map (txCmd x)) [] = [] := by
    unfold uncredited
    rw [List.map_eq_nil_iff, List.filter_eq_nil_iff]
    rintro ⟨c, k⟩ hc
    have hcm := List.mem_zipIdx hc
    have := hrx0 c (by
      have := hcm.2.2
      rw [this]
      exact List.getElem_mem _)
    simp [this]
  have hseen : heard { w.env with timeoutMs := ms } (R'.map (rxCmd y)) 1
      (usable (deadline { w.env with timeoutMs := ms }) w.env.hist).length = seen w ms := by
    unfold heard seen
    rw [if_pos (by
      rw [List.any_eq_true]
      cases R' with
      | nil => exact absurd rfl hRn'
      | cons p R' => exact ⟨rxCmd y p, by simp, rfl⟩), List.take_length]
  have hallrx : ∀ c ∈ R'.map (rxCmd y), c.type = .rx := by
    intro c hc
    obtain ⟨p, _, rfl⟩ := List.mem_map.mp hc
    rfl
  have hno : NoOverlap (R'.map (rxCmd y)) := by
    apply noOverlap_exact
    intro c hc
    obtain ⟨p, hp, rfl⟩ := List.mem_map.mp hc
    refine ⟨rfl, fun f hf => ?_⟩
    simp only [rxCmd, Option.some.injEq] at hf
    rw [← hf]
    exact (hR' p hp).2
  have hcount : n = (((out 1).count none + (uncredited (R'.map (rxCmd y)) (out 1)).length : Nat) : Int) := by
    have hs : some n = some ((((ifaces (testCmds x y T' R')).zipIdx.map (fun p => (out p.2).count none +
        (uncredited (onSocket p.1 (testCmds x y T' R')) (out p.2)).length)).sum : Nat) : Int) := hn.symm.trans hsum
    rw [Option.some.inj hs, hif]
    simp only [List.zipIdx_cons, List.zipIdx_nil, List.map_cons, List.map_nil, List.sum_cons, List.sum_nil, hsx, hsy,
      hout0, hun0, Nat.zero_add]
    simp
  have hmapR : (R'.map plainDesc).map (·.2) = R'.map (fun p => p.2.2) := by rw [List.map_map]; rfl
  have hmapT : (T'.map plainDesc).map (·.2) = T'.map (fun p => p.2.2) := by rw [List.map_map]; rfl
  have main : n = 0 ↔ (seen w ms).Perm ((R'.map plainDesc).map (·.2)) := by
    rw [hmapR, ← paired_rx (y := y) (fun p hp => (hR' p hp).2), ← hseen]
    constructor
    · intro h00
      rw [h00] at hcount
      exact credited_paired hc1 hallrx (by omega) (List.length_eq_zero_iff.mp (by omega))
    · intro hp
      obtain ⟨h1, h2⟩ := paired_credited hc1 hallrx hno hp
      rw [hcount, h1, h2]
      rfl
  refine ⟨main, fun hsend hch => ?_⟩
  have hsent : r0.events.filterMap (sentOn x) = (T'.map plainDesc).map (·.2) := by
    have hc89 := (C89_sent_in_time { w.env with timeoutMs := ms } _ r0 0 x hr ?_ hu hopen h0
      (by rw [hst]; exact LoopEnd.noConfusion) (by rw [hif]; rfl) hsend ?_).2 (by rw [hsx]; exact hrx0)
    · rw [hc89, hsx, hmapT]
      unfold requested
      have key : ∀ l : List Desc, (l.map (txCmd x)).flatMap (fun c => if c.type = .tx then
          List.replicate c.rep (c.buf.getD []) else []) = l.map (fun p => p.2.2) := by
        intro l
        induction l with
        | nil => rfl
        | cons p l ih =>
          rw [List.map_cons, List.flatMap_cons, ih]
          rfl
      exact key T'
    · intro c hc ht
      rcases List.mem_append.mp hc with hc | hc
      · obtain ⟨p, _, rfl⟩ := List.mem_map.mp hc
        exact ⟨Nat.le_refl 1, by show 1 < 2 ^ 32; decide⟩
      · obtain ⟨p, _, rfl⟩ := List.mem_map.mp hc
        exact CmdType.noConfusion ht
    · rw [hsx]
      have : (T'.map (txCmd x)).countP (fun c => c.type == .tx) ≤ T'.length := by
        have := List.countP_le_length (p := fun c : Cmd => c.type == .tx) (l := T'.map (txCmd x))
        rw [List.length_map] at this
        exact this
      unfold chances at hch
      rw [List.length_map] at hch
      exact Nat.le_trans this hch
  refine ⟨hsent, fun hTR => ?_⟩
  rw [hsent, hTR]
  exact main

/-- A frame of 60 bytes. -/
def ethBytes : Buf := List.replicate 6 255#8 ++ zeros 5 ++ [1#8, 0xaa#8, 0xaa#8] ++ zeros 46

/-- A cable between the two interfaces: after the transmission of a frame, `b` arrives at the other end. -/
def cable (b : Buf) : World :=
  ⟨⟨⟨true, true⟩, fun _ => true, ⟨0, 0⟩, 100,
    [ ⟨1, ⟨0, 0⟩, fun _ => false, fun i => i == 0, fun _ => none, fun _ => 60⟩,
      ⟨1, ⟨0, 10⟩, fun i => i == 1, fun _ => false, fun _ => some ⟨b, none⟩, fun _ => 60⟩,
      ⟨0, ⟨1, 0⟩, fun _ => false, fun _ => false, fun _ => none, fun _ => 0⟩ ], 10⟩, false, ⟨0, 0⟩, ⟨1, 0⟩⟩

/-- The words `eth` describe these bytes. -/
theorem describes_eth : Describes [c!"eth"] ethBytes := by
  obtain ⟨f0, f, h1, h2, h3, h4⟩ : ∃ f0 f, argcFrame [c!"eth"] = .ok (some (1, f0)) ∧ frameToBuf f0 = .ok (f, ethBytes) ∧
      f.hasMask = false ∧ f.padding = 0 := by
    have h : (match argcFrame [c!"eth"] with
        | .ok (some (n, f0)) => n == 1 && (match frameToBuf f0 with
          | .ok (f, b) => b == ethBytes && !f.hasMask && f.padding == 0
          | _ => false)
        | _ => false) = true := by decide +kernel
    split at h
    · rename_i n f0 e1
      rw [Bool.and_eq_true] at h
      obtain ⟨hn, h⟩ := h
      split at h
      · rename_i f b e2
        simp only [Bool.and_eq_true, beq_iff_eq, Bool.not_eq_true'] at h hn
        exact ⟨f0, f, by rw [e1, hn], by rw [e2, h.1.1], h.1.2, h.2⟩
      · simp at h
    · simp at h
  exact ⟨f, ⟨by simp, f0, h1, h2, .inl ⟨h3, rfl⟩⟩, h4⟩

/-- Non-vacuity: the test succeeds with a good cable, and it fails if a bit is changed or if nothing arrives. -/
example : let T := [([c!"eth"], ethBytes)]
    let bad := ethBytes.set 20 4#8
    testLine c!"a" c!"b" T T = [c!"tx", c!"a", c!"eth", c!"rx", c!"b", c!"eth"] ∧
    (toolResult (cable ethBytes) (testLine c!"a" c!"b" T T)).ret = some 0 ∧
    (toolResult (cable ethBytes) (testLine c!"a" c!"b" T T)).events.filterMap (sentOn c!"a") = [ethBytes] ∧
    seen (cable ethBytes) 100 = [ethBytes] ∧ chances (cable ethBytes) 100 = 1 ∧
    (toolResult (cable bad) (testLine c!"a" c!"b" T T)).ret = some 2 ∧ seen (cable bad) 100 = [bad] ∧
    (toolResult (cable []) (testLine c!"a" c!"b" T T)).ret = some 1 := by decide +kernel

example : argcCmds (cable ethBytes) 100 [] (testLine c!"a" c!"b" [([c!"eth"], ethBytes)] [([c!"eth"], ethBytes)]) =
    .ok (toolResult (cable ethBytes) (testLine c!"a" c!"b" [([c!"eth"], ethBytes)] [([c!"eth"], ethBytes)])) :=
  toolResult_ok (by decide +kernel)

end Ef.Props
