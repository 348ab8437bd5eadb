import Verif.Props.Arrivals

/-!
# Interfaces where nothing is expected (C128)
-/

namespace Ef.Props

open Ef Ef.Spec

/-! ## C128: `rx IF` without a frame -/

/-- Nobody wants the frames. -/
theorem credited_nobody {cs : List Cmd} {F : List Buf} {out : List (Option Nat)} (h : Credited cs F out)
    (hno : ∀ c ∈ cs, c.buf = none) : out = List.replicate F.length none := by
  rw [← h.len]
  refine List.eq_replicate_iff.mpr ⟨rfl, fun o ho => ?_⟩
  cases o with
  | none => rfl
  | some j =>
    obtain ⟨k, hk⟩ := List.mem_iff_getElem?.mp ho
    obtain ⟨c, b, hc, -, ⟨e, f, he, -⟩, -⟩ := h.hit k j hk
    rw [hno c (List.mem_of_getElem? hc)] at he
    simp at he

theorem rxReport_nobody (a : CStr) (cs : List Cmd) (F : List Buf) :
    rxReport a cs F (List.replicate F.length none) = F.map (Event.rxErr a) := by
  unfold rxReport
  induction F with
  | nil => rfl
  | cons b F ih => rw [List.length_cons, List.replicate_succ, List.zipWith_cons_cons, ih]; rfl

/-- **C128**: if all commands for interface `a` are `rx a` without a frame, then every frame that is heard on this interface is reported as an
error, in order of arrival, nothing is reported missing, and the number of errors about `a` is the number of frames. -/
theorem C128_nothing_expected (env : Env) (cmds : List Cmd) (r : ExecRes) (hr : Ready cmds)
    (hu : ∀ c ∈ cmds, unresolved cmds c = false) (hopen : ∀ a ∈ ifaces cmds, env.canOpen a = true)
    (h : execCmds env cmds = .ok r) (hst : r.status = .finished) (i : Nat) (a : CStr) (hi : (ifaces cmds)[i]? = some a)
    (hno : ∀ c ∈ onSocket a cmds, c.type = .rx ∧ c.buf = none) :
    r.events.filter (isRx a) = (heardOn env a cmds i).map (Event.rxErr a) ∧ r.events.filter (isNoRx a) = [] ∧
    errorsOn a r.events = (heardOn env a cmds i).length := by
  obtain ⟨out, h1, h2, h3⟩ := socket_report hr hu hopen h hst hi
  have ho := credited_nobody h1 (fun c hc => (hno c hc).2)
  rw [ho, rxReport_nobody] at h2
  have h4 : uncredited (onSocket a cmds) out = [] := by
    unfold uncredited
    rw [List.map_eq_nil_iff, List.filter_eq_nil_iff]
    intro p hp
    have := (hno p.1 (List.mem_of_getElem? (List.mem_zipIdx_iff_getElem?.mp hp))).2
    simp [this]
  rw [h4] at h3
  refine ⟨h2, h3, ?_⟩
  rw [errorsOn_reports, h2, h3, List.countP_map]
  have : ∀ F : List Buf, F.countP (isError ∘ Event.rxErr a) = F.length := by
    intro F
    rw [List.countP_eq_length]
    intro b _
    rfl
  rw [this]
  rfl

/-- C128: nothing is said about frames that arrive at an interface without an rx command. -/
theorem C128_not_asked (env : Env) (cmds : List Cmd) (r : ExecRes) (hr : Ready cmds)
    (hu : ∀ c ∈ cmds, unresolved cmds c = false) (hopen : ∀ a ∈ ifaces cmds, env.canOpen a = true)
    (h : execCmds env cmds = .ok r) (hst : r.status = .finished) (i : Nat) (a : CStr) (hi : (ifaces cmds)[i]? = some a)
    (hno : ∀ c ∈ onSocket a cmds, c.type ≠ .rx) :
    r.events.filter (isRx a) = [] ∧ r.events.filter (isNoRx a) = [] ∧ errorsOn a r.events = 0 := by
  obtain ⟨out, h1, h2, h3⟩ := socket_report hr hu hopen h hst hi
  have hF : heardOn env a cmds i = [] := by
    unfold heardOn heard
    rw [if_neg]
    rw [List.any_eq_true]
    rintro ⟨c, hc, ht⟩
    exact hno c hc (by simpa using ht)
  rw [hF] at h1 h2
  have h2 : r.events.filter (isRx a) = [] := by rw [h2]; rfl
  have h4 : uncredited (onSocket a cmds) out = [] := by
    unfold uncredited
    rw [List.map_eq_nil_iff, List.filter_eq_nil_iff]
    intro p hp
    have := hno p.1 (List.mem_of_getElem? (List.mem_zipIdx_iff_getElem?.mp hp))
    simp [this]
  rw [h4] at h3
  refine ⟨h2, h3, ?_⟩
  rw [errorsOn_reports, h2, h3]
  rfl

/-! ## The words -/

/-- `rx A rx B ...` -/
def listenLine (L : List CStr) : List CStr := L.flatMap (fun a => [c!"rx", a])

/-- The command for `rx a`. -/
def listenCmd (a : CStr) : Cmd := { type := .rx, arg0 := some a }

theorem listen_parse (hp : Bool) (L : List CStr) (hl : L.length ≤ 50) :
    parseCmds hp (listenLine L) = .ok (some (L.map listenCmd)) := by
  have e : listenLine L = allWords (L.map (fun a => ([c!"rx", a], listenCmd a))) := by
    simp [listenLine, allWords, List.flatMap_map]
  have hlen : ∀ L : List CStr, (listenLine L).length = 2 * L.length := by
    intro L
    induction L with
    | nil => rfl
    | cons a L ih => simp only [listenLine, List.flatMap_cons, List.length_append, List.length_cons, List.length_nil] at ih ⊢; omega
  have hs : Separated hp (L.map (fun a => ([c!"rx", a], listenCmd a))) := by
    clear hl e
    induction L with
    | nil => trivial
    | cons a L ih =>
      cases L with
      | nil => trivial
      | cons b L =>
        refine ⟨?_, ih⟩
        intro w hw
        obtain rfl : c!"rx" = w := by simpa using hw
        exact ⟨fun _ => by decide, fun _ => by decide⟩
  rw [e, C52_commands_partial hp _ ?_ hs ?_]
  · simp [Function.comp_def]
  · intro p hq
    obtain ⟨a, _, rfl⟩ := List.mem_map.mp hq
    exact Command.listen a
  · rw [← e, hlen]; omega

/-- **C128, the words**: the result of `ef rx A rx B ...` is the number of frames that are heard on these interfaces (each
counted once, however often it is named). -/
theorem C128_words (w : World) (ms : Int) (caps : List CStr) (L : List CStr) (r : RunRes) (n : Int) (hl : L.length ≤ 50)
    (hopen : ∀ a ∈ L, w.env.canOpen a = true) (h : argcCmds w ms caps (listenLine L) = .ok r) (hn : r.ret = some n) :
    n = (((firsts L).zipIdx.map (fun p => ((usable (deadline { w.env with timeoutMs := ms }) w.env.hist).flatMap
      (delivered w.env.cfg p.2)).length)).sum : Nat) := by
  unfold argcCmds at h
  rw [listen_parse _ L hl] at h
  simp only [Out.ok_bind, Out.bind_eq_ok] at h
  obtain ⟨r0, h0, h⟩ := h
  simp only [Out.ok.injEq] at h
  subst h
  simp only at hn
  have hif : ifaces (L.map listenCmd) = firsts L := by
    unfold ifaces
    congr 1
    rw [List.filterMap_map]
    clear hl hopen h0
    induction L with
    | nil => rfl
    | cons a L ih => rw [List.filterMap_cons, ih]; rfl
  have hall : ∀ c ∈ L.map listenCmd, ∃ a ∈ L, c = listenCmd a := by
    intro c hc
    obtain ⟨a, ha, rfl⟩ := List.mem_map.mp hc
    exact ⟨a, ha, rfl⟩
  have hr : Ready (L.map listenCmd) := by
    refine ⟨?_, ?_, ?_⟩
    · intro c hc
      obtain ⟨a, -, rfl⟩ := hall c hc
      rfl
    · intro c hc _
      obtain ⟨a, -, rfl⟩ := hall c hc
      rfl
    · rw [hif]
      have := firsts_length L
      omega
  have hres : ∀ c ∈ L.map listenCmd, unresolved (L.map listenCmd) c = false ∧ resolve (L.map listenCmd) c = c := by
    intro c hc
    obtain ⟨a, -, rfl⟩ := hall c hc
    exact ⟨rfl, rfl⟩
  have hu := fun c hc => (hres c hc).1
  have hop : ∀ a ∈ ifaces (L.map listenCmd), ({ w.env with timeoutMs := ms } : Env).canOpen a = true := by
    intro a ha
    rw [hif, firsts_mem] at ha
    exact hopen a ha
  have hst : r0.status = .finished := by
    by_cases hs : r0.status = .finished
    · exact hs
    · rw [(C57_error_count _ _ r0 hr hu hop h0).1 hs] at hn
      simp at hn
  have hsum := C101_sum _ _ r0 hr hu hop h0 hst
  rw [hn, Option.some.injEq] at hsum
  rw [hsum, hif]
  congr 2
  apply List.ext_getElem?
  intro i
  rw [List.getElem?_map, List.getElem?_map, List.getElem?_zipIdx]
  cases hi : (firsts L)[i]? with
  | none => rfl
  | some a =>
    have hm : a ∈ L := (firsts_mem L a).mp (List.mem_of_getElem? hi)
    have hon : ∀ c ∈ onSocket a (L.map listenCmd), c.type = .rx ∧ c.buf = none := by
      intro c hc
      unfold onSocket cmdsOn at hc
      obtain ⟨c0, hc0, rfl⟩ := List.mem_map.mp (List.mem_filter.mp hc).1
      rw [(hres c0 hc0).2]
      obtain ⟨b, -, rfl⟩ := hall c0 hc0
      exact ⟨rfl, rfl⟩
    have hx : (onSocket a (L.map listenCmd)).any (fun c => c.type == .rx) = true := by
      rw [List.any_eq_true]
      refine ⟨listenCmd a, ?_, rfl⟩
      unfold onSocket cmdsOn
      refine List.mem_filter.mpr ⟨List.mem_map.mpr ⟨listenCmd a, List.mem_map.mpr ⟨a, hm, rfl⟩, rfl⟩, ?_⟩
      simp [listenCmd, ioIface]
    have he := (C128_nothing_expected _ _ r0 hr hu hop h0 hst i a (by rw [hif]; exact hi) hon).2.2
    simp only [Option.map_some, Option.some.injEq, Nat.zero_add]
    rw [he]
    unfold heardOn heard
    rw [if_pos hx, List.take_length]

/-- **C128, success**: if the last `select` returns 0, the result of `ef rx A rx B ...` is 0 exactly if no frame arrives at these
interfaces until the deadline. -/
theorem C128_silence (w : World) (ms : Int) (caps : List CStr) (L : List CStr) (r : RunRes) (n : Int) (hl : L.length ≤ 50)
    (hopen : ∀ a ∈ L, w.env.canOpen a = true) (h : argcCmds w ms caps (listenLine L) = .ok r) (hn : r.ret = some n) (wire : Wire)
    (tend : TimeVal) (ht : tend = deadline { w.env with timeoutMs := ms }) (htn : Normalised tend)
    (hclock : ∀ s ∈ w.env.hist, Normalised s.now) (hframes : ∀ i, ∀ e ∈ wire i, e.2 ≠ [] ∧ e.2.length < 32768)
    (hos : Follows w.env.cfg wire (fun j => decide (j < (firsts L).length)) tend (fun _ => 0) w.env.hist)
    (hx : Expires tend w.env.hist) :
    n = 0 ↔ ∀ i < (firsts L).length, inTime wire tend i = [] := by
  rw [C128_words w ms caps L r n hl hopen h hn, ← ht]
  have key : ∀ i < (firsts L).length, (usable tend w.env.hist).flatMap (delivered w.env.cfg i) = inTime wire tend i := by
    intro i hi
    obtain ⟨k, -, -, h3, h4⟩ := follows_heard htn (i := i) (by simpa using hi) (hframes i) hos hclock (Nat.zero_le _)
    unfold inTime
    rw [h3, List.drop_zero, h4 hx, ← arrivedBy_take]
  have hz : ∀ l : List Nat, (((l.sum : Nat) : Int) = 0 ↔ ∀ x ∈ l, x = 0) := by
    intro l
    induction l with
    | nil => simp
    | cons x l ih =>
      rw [List.sum_cons, List.forall_mem_cons, ← ih]
      omega
  rw [hz]
  constructor
  · intro h0 i hi
    have := h0 _ (List.mem_map.mpr ⟨((firsts L)[i], i), List.mem_zipIdx_iff_getElem?.mpr (List.getElem?_eq_getElem hi), rfl⟩)
    simp only at this
    rw [key i hi] at this
    exact List.length_eq_zero_iff.mp this
  · intro h0 x hx
    obtain ⟨p, hp, rfl⟩ := List.mem_map.mp hx
    have hi := (List.getElem?_eq_some_iff.mp (List.mem_zipIdx_iff_getElem?.mp hp)).1
    rw [key _ hi, h0 _ hi]
    rfl

/-- Non-vacuity: two frames on the first of two interfaces. -/
example : let w := world (listening [[1#8], [2#8]])
    (toolResult w (listenLine [c!"e"])).ret = some 2 ∧ (toolResult (world (listening [])) (listenLine [c!"e", c!"f", c!"e"])).ret = some 0 ∧
    (argcCmds w 100 [] (listenLine [c!"e"])).get?.isSome = true := by decide +kernel

/-- Non-vacuity: nothing arrives. -/
example : Follows ⟨true, true⟩ (fun _ => []) (fun j => decide (j < (firsts [c!"e"]).length)) ⟨0, 100000⟩ (fun _ => 0)
    [nothing ⟨0, 100000⟩] ∧ Expires ⟨0, 100000⟩ [nothing ⟨0, 100000⟩] :=
  ⟨.expired _ _ _ 100000 rfl (by decide) (by decide) (fun _ _ => Nat.le_refl 0), ⟨_, rfl, rfl⟩⟩

end Ef.Props
