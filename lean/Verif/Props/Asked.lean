import Verif.Props.MaskExact
import Verif.Props.Run
import Verif.Props.Values
import Verif.Spec.Command

/-!
# C109: an accepted frame has the values that were asked for
-/

namespace Ef.Props

open Ef Ef.Spec

/-- The frame of the words and its header with assignments, in the completed frame. -/
theorem asked_at {ws pre rest lead : List CStr} {f0 f1 f : Frame} {b : Buf} {t : Hdr} {as : List (CStr × CStr)} {n : Nat}
    (hA : Assigned ws pre f0 t lead as rest) (hne : as ≠ []) (h1 : argcFrame ws = .ok (some (n, f1)))
    (h2 : frameToBuf f1 = .ok (f, b)) :
    ∃ hp hq hp' hq' x', At f1 f hp (assignAll (leadHdr lead t) as) hq hp' x' hq' ∧ hp.length = f0.stack.length ∧
      hp' = f.stack.take f0.stack.length := by
  have h1' := h1
  rw [hA.words] at h1'
  obtain ⟨e1, _⟩ := asgn_header hA.pre hA.tmpl hA.kind hA.fresh hA.lead hA.plain hA.stop (Or.inr hne) h1'
  obtain ⟨hlt, e1⟩ := List.getElem?_eq_some_iff.mp e1
  have hst := (frameToBuf_stack h2).1
  have hsp : f1.stack = f1.stack.take f0.stack.length ++ assignAll (leadHdr lead t) as :: f1.stack.drop (f0.stack.length + 1) := by
    rw [← e1]; simp
  obtain ⟨p, y, q, k1, k2, _⟩ := fillStack_append hst hsp
  have hl : (f1.stack.take f0.stack.length).length = f0.stack.length := by rw [List.length_take]; omega
  refine ⟨_, _, p, q, y, ⟨hsp, k1, k2⟩, hl, ?_⟩
  rw [k1, ← hl, ← k2, List.take_left]

/-- A field with an assigned value is compared. -/
theorem asked_compared {ws pre rest lead : List CStr} {f0 f1 f : Frame} {b : Buf} {t : Hdr} {as : List (CStr × CStr)}
    (hA : Assigned ws pre f0 t lead as rest) (hB : Sent ws f1 f b) (hk : t.name ∉ reshaped)
    {hp hq hp' hq' : List Hdr} {x' : Hdr} (ha : At f1 f hp (assignAll (leadHdr lead t) as) hq hp' x' hq')
    (hpos : hp.length = f0.stack.length) {l1 l2 : List Field} {ft : Field} (hsp : t.fields = l1 ++ ft :: l2) (hfr : ∀ k ∈ l1, k.name ≠ ft.name)
    {v : CStr} (hl : lastOf as ft.name = some v) (hi : ¬ IgnWord v) :
    (8 * totalSize hp' + ft.offset, ft.width) ∈ comparedFields 0 f.stack ∧ ft.offset + ft.width ≤ 8 * x'.size := by
  obtain ⟨r1, _⟩ := reshaped_table t hA.tmpl hk
  obtain ⟨g1, _⟩ := assignAll_fill as lead t
  have hlay : lay x' = lay (assignAll (leadHdr lead t) as) := fillHdr_lay (by rw [g1]; exact r1) x' (hB.place ha).filled
  have hcore : (leadHdr lead t).fields.map core = t.fields.map core := leadHdr_core lead t
  rw [hsp, List.map_append, List.map_cons] at hcore
  obtain ⟨m1, m2', e1, e2, e3⟩ := List.map_eq_append_iff.mp hcore
  obtain ⟨y, m2, rfl, e4, e5⟩ := List.map_eq_cons_iff.mp e3
  have n1 : y.name = ft.name := by have := congrArg Field.name e4; exact this
  have n2 : y.offset = ft.offset := by have := congrArg Field.offset e4; exact this
  have n3 : y.width = ft.width := by have := congrArg Field.width e4; exact this
  have hget : (leadHdr lead t).fields[m1.length]? = some y := by rw [e1]; simp
  have hfirst : FirstAt (leadHdr lead t) m1.length y.name := by
    intro j hj z hz
    rw [e1, List.getElem?_append_left hj] at hz
    have : core z ∈ m1.map core := List.mem_map.mpr ⟨z, List.mem_of_getElem? hz, rfl⟩
    rw [e2] at this
    obtain ⟨z', hz', ez⟩ := List.mem_map.mp this
    have en : z'.name = z.name := by have := congrArg Field.name ez; exact this
    rw [n1, ← en]
    exact hfr z' hz'
  have hset : (assignAll (leadHdr lead t) as).fields[m1.length]? = some (setBy v y) := by
    rcases assignAll_get as _ _ _ hget with ⟨_, h | h⟩ | ⟨_, v', h, k⟩
    · exact absurd hfirst h
    · rw [n1, hl] at h; cases h
    · rw [n1, hl] at h; cases h; exact k
  have hx : (x'.fields.map (fun f => { f with val := none }))[m1.length]? = some { setBy v y with val := none } := by
    have e := congrArg (fun q => q.2.2.2.2) hlay
    simp only [lay] at e
    rw [e, List.getElem?_map, hset]
    rfl
  rw [List.getElem?_map] at hx
  obtain ⟨g, hg, eg⟩ := Option.map_eq_some_iff.mp hx
  have q1 : g.rxSkip = false := by
    have := congrArg Field.rxSkip eg
    exact this.trans (not_isIgn hi)
  have q2 : g.offset = ft.offset := by have := congrArg Field.offset eg; exact this.trans n2
  have q3 : g.width = ft.width := by have := congrArg Field.width eg; exact this.trans n3
  constructor
  · rw [ha.after]
    have key : ∀ (l : List Hdr) (s : Nat), (8 * (s + totalSize l) + ft.offset, ft.width) ∈ comparedFields s (l ++ x' :: hq') := by
      intro l
      induction l with
      | nil =>
        intro s
        refine List.mem_append_left _ (List.mem_map.mpr ⟨g, List.mem_filter.mpr ⟨List.mem_of_getElem? hg, by rw [q1]; rfl⟩, ?_⟩)
        rw [q2, q3]
        rfl
      | cons z l ih =>
        intro s
        refine List.mem_append_right _ ?_
        have := ih (s + z.size)
        rw [show s + totalSize (z :: l) = s + z.size + totalSize l by simp [totalSize]; omega]
        exact this
    have := key hp' 0
    rwa [Nat.zero_add] at this
  · have hin := ((tmpls_fit _ hA.tmpl).inside ft (by rw [hsp]; simp)).1
    have hne : as ≠ [] := by rintro rfl; simp [lastOf] at hl
    rw [wire_size hA hB hk ha hpos hne]
    exact hin

/-- Where field `ft` of header number `k` of the frame begins, in bits. -/
def fieldAt (f : Frame) (k : Nat) (ft : Field) : Nat := 8 * totalSize (f.stack.take k) + ft.offset

/-- **C109**: the words `ws` of `rx IF FRAME` assign a text `v` to field `ft` of some header; the text stands for the bytes
`w`. Every frame that is accepted has this value at the place of the field, no matter what else is ignored or padded. `ft` is
the first field of its name and shares no bits with later fields of its header. -/
theorem C109_values {ws pre rest lead : List CStr} {f0 f : Frame} {b : Buf} {m : Option Buf} {t : Hdr} {as : List (CStr × CStr)}
    (hw : FrameWords ws f b m) (hs : ShortWords ws) (hA : Assigned ws pre f0 t lead as rest) (hk : t.name ∉ reshaped)
    (l1 l2 : List Field) (ft : Field) (hsp : t.fields = l1 ++ ft :: l2) (hfr : ∀ k ∈ l1, k.name ≠ ft.name)
    (hov : ∀ k ∈ l2, ∀ i, ¬ (covers ft i ∧ covers k i)) (hpar : ft.parser = .none)
    (v : CStr) (w : Buf) (hl : lastOf as ft.name = some v) (hi : ¬ IgnWord v)
    (hv : parseBytes v (bitToByte ft.width) = .ok (some w))
    (a : CStr) (g : Buf) (hg : Wants { type := .rx, arg0 := some a, frame := some f, buf := some b, mask := m } g) :
    numAt g (fieldAt f f0.stack.length ft) ft.width = beNat w % 2 ^ ft.width := by
  obtain ⟨_, f1, p1, p2, p3⟩ := hw
  have hne : as ≠ [] := by rintro rfl; simp [lastOf] at hl
  have hB : Sent ws f1 f b := ⟨hs, ⟨_, p1⟩, p2⟩
  obtain ⟨hp, hq, hp', hq', x', ha, hpos, hp'e⟩ := asked_at hA hne p1 p2
  obtain ⟨o, e1, _, e3⟩ := wire_value hA hB hk ha hpos hsp hfr hov hl hi
  unfold parseVal at e1
  rw [hpar] at e1
  simp only at e1
  rw [hv] at e1
  simp only [Out.ok.injEq] at e1
  have hnum := e3 w e1.symm
  obtain ⟨c1, c2⟩ := asked_compared hA hB hk ha hpos hsp hfr hl hi
  have hlong := hB.long ha
  unfold fieldAt
  rw [← hp'e, ← hnum]
  obtain ⟨e, fr, he, _, _, core, tr, rfl, _, hlen, hbit⟩ := hg
  simp only [Option.some.injEq] at he
  subst he
  apply numAt_congr
  intro k hkw
  rw [bit_append, if_pos (by omega)]
  apply hbit
  rcases p3 with ⟨_, rfl⟩ | ⟨_, mb, rfl, p3⟩
  · trivial
  · intro hmi
    obtain ⟨k1, k2⟩ := C20_parsed ws _ f1 f b hs p1 p2
    have hin : ComparedInside f.stack := by
      refine Classical.byContradiction fun hc => ?_
      rw [p3] at k2
      cases k2 hc
    obtain ⟨m', q1, q2, q3⟩ := k1 hin
    rw [p3] at q1
    cases q1
    exact (q3 _ hmi).mpr (Or.inr ⟨_, c1, Nat.le_add_right _ _, by simp only; omega⟩)

/-- **C109, numbers.** -/
theorem C109_numbers {ws pre rest lead : List CStr} {f0 f : Frame} {b : Buf} {m : Option Buf} {t : Hdr} {as : List (CStr × CStr)}
    (hw : FrameWords ws f b m) (hs : ShortWords ws) (hA : Assigned ws pre f0 t lead as rest) (hk : t.name ∉ reshaped)
    (l1 l2 : List Field) (ft : Field) (hsp : t.fields = l1 ++ ft :: l2) (hfr : ∀ k ∈ l1, k.name ≠ ft.name)
    (hov : ∀ k ∈ l2, ∀ i, ¬ (covers ft i ∧ covers k i)) (hpar : ft.parser = .none) (h64 : ft.width ≤ 64)
    (v : CStr) (N : Nat) (hl : lastOf as ft.name = some v) (hv : Literal v N) (hN : N < 2 ^ 64)
    (a : CStr) (g : Buf) (hg : Wants { type := .rx, arg0 := some a, frame := some f, buf := some b, mask := m } g) :
    numAt g (fieldAt f f0.stack.length ft) ft.width = N % 2 ^ ft.width := by
  have hb : bitToByte ft.width ≤ 8 := by unfold bitToByte; omega
  have e := C01_integer_literals hv _ hb
  rw [if_pos hN] at e
  rw [C109_values hw hs hA hk l1 l2 ft hsp hfr hov hpar v _ hl (literal_not_ign hv) e a g hg, beNat_beBytes]
  have : 256 ^ bitToByte ft.width = 2 ^ ft.width * 2 ^ (8 * bitToByte ft.width - ft.width) := by
    rw [← Nat.pow_add, show (256 : Nat) = 2 ^ 8 from rfl, ← Nat.pow_mul]
    congr 1
    unfold bitToByte; omega
  rw [this, Nat.mod_mul_right_mod]

/-- A run that returns 0 has received, on each interface, a frame for every expectation. -/
theorem success_wanted {env : Env} {cmds : List Cmd} {r : ExecRes} (hr : Ready cmds)
    (hu : ∀ c ∈ cmds, unresolved cmds c = false) (hopen : ∀ a ∈ ifaces cmds, env.canOpen a = true)
    (h : execCmds env cmds = .ok r) (h0 : r.ret = some 0) {c : Cmd} (hc : c ∈ cmds) (ht : c.type = .rx) (hb : c.buf.isSome)
    {i : Nat} {a : CStr} (ha : c.arg0 = some a) (hi : (ifaces cmds)[i]? = some a) :
    ∃ g ∈ heard env (onSocket a cmds) i (usable (deadline env) env.hist).length, Wants c g := by
  obtain ⟨hnf, hfin⟩ := C57_error_count env cmds r hr hu hopen h
  have hst : r.status = .finished := by
    refine Classical.byContradiction fun hc => ?_
    have := hnf hc
    rw [this] at h0; cases h0
  obtain ⟨_, n, out, hn, hcr, hret⟩ := hfin hst
  have hn' := hn ⟨c, hc, ht⟩
  subst hn'
  have hcr' := hcr i a hi
  rw [h0] at hret
  have hret : (0 : Int) = _ := Option.some.inj hret
  have hz : ((ifaces cmds).zipIdx.map (fun p =>
      (out p.2).count none + (uncredited (onSocket p.1 cmds) (out p.2)).length)).sum = 0 := by omega
  have hmem : (a, i) ∈ (ifaces cmds).zipIdx := by
    rw [List.mk_mem_zipIdx_iff_getElem?]; exact hi
  have hzi := List.sum_eq_zero_iff_forall_eq_nat.mp hz _ (List.mem_map.mpr ⟨_, hmem, rfl⟩)
  have hzi' : (out i).count none + (uncredited (onSocket a cmds) (out i)).length = 0 := hzi
  have hunc : uncredited (onSocket a cmds) (out i) = [] := List.length_eq_zero_iff.mp (by omega)
  have hres : resolve cmds c = c := by
    unfold resolve
    have : refersTo c = none := by
      unfold refersTo
      rw [if_neg]
      rintro ⟨_, q⟩
      rw [q] at hb; cases hb
    rw [this]
  have hon : c ∈ onSocket a cmds := by
    refine List.mem_filter.mpr ⟨List.mem_map.mpr ⟨c, hc, hres⟩, ?_⟩
    unfold ioIface
    rw [if_pos (Or.inl ht), ha]
    simp
  obtain ⟨j, hj⟩ := List.mem_iff_getElem?.mp hon
  have hout : some j ∈ out i := by
    refine Classical.byContradiction fun hno => ?_
    have : c ∈ uncredited (onSocket a cmds) (out i) := by
      refine List.mem_map.mpr ⟨(c, j), List.mem_filter.mpr ⟨?_, ?_⟩, rfl⟩
      · rw [List.mk_mem_zipIdx_iff_getElem?]; exact hj
      · simp [ht, hb, hno]
    rw [hunc] at this
    cases this
  obtain ⟨k, hk⟩ := List.mem_iff_getElem?.mp hout
  obtain ⟨c', g, q1, q2, q3, _⟩ := hcr'.hit k j hk
  rw [hj] at q1
  cases q1
  exact ⟨g, List.mem_of_getElem? q2, q3⟩

/-- **C109, whole runs**: if a command line with `rx IF FRAME` was executed with result 0, a frame with the value asked for
was received on this interface in time. -/
theorem C109_success (hp : Bool) (argv : List CStr) (cmds : List Cmd) (hparse : parseCmds hp argv = .ok (some cmds))
    (env : Env) (r : ExecRes) (hu : ∀ c ∈ cmds, unresolved cmds c = false) (hopen : ∀ a ∈ ifaces cmds, env.canOpen a = true)
    (h : execCmds env cmds = .ok r) (h0 : r.ret = some 0)
    {ws pre rest lead : List CStr} {f0 f : Frame} {b : Buf} {m : Option Buf} {t : Hdr} {as : List (CStr × CStr)}
    (hw : FrameWords ws f b m) (hs : ShortWords ws) (hA : Assigned ws pre f0 t lead as rest) (hk : t.name ∉ reshaped)
    (l1 l2 : List Field) (ft : Field) (hsp : t.fields = l1 ++ ft :: l2) (hfr : ∀ k ∈ l1, k.name ≠ ft.name)
    (hov : ∀ k ∈ l2, ∀ i, ¬ (covers ft i ∧ covers k i)) (hpar : ft.parser = .none)
    (v : CStr) (w : Buf) (hl : lastOf as ft.name = some v) (hi : ¬ IgnWord v)
    (hv : parseBytes v (bitToByte ft.width) = .ok (some w))
    (a : CStr) (hc : { type := .rx, arg0 := some a, frame := some f, buf := some b, mask := m } ∈ cmds)
    (i : Nat) (hif : (ifaces cmds)[i]? = some a) :
    ∃ g ∈ heard env (onSocket a cmds) i (usable (deadline env) env.hist).length,
      numAt g (fieldAt f f0.stack.length ft) ft.width = beNat w % 2 ^ ft.width := by
  obtain ⟨g, h1, h2⟩ := success_wanted (parsed_ready hp argv cmds hparse).2 hu hopen h h0 hc rfl rfl rfl hif
  exact ⟨g, h1, C109_values hw hs hA hk l1 l2 ft hsp hfr hov hpar v w hl hi hv a g h2⟩

/-- Non-vacuity: the words of `assigned_case` behind `rx e`. A frame with another identification (byte 18) is accepted, one
with another time to live (byte 22, 300 is reduced to 44) is not. -/
def askedWords : List CStr := [c!"eth", c!"ipv4", c!"ign", c!"ttl", c!"1", c!"proto", c!"0x11", c!"ttl", c!"300", c!"data"]

example : (match parseCmds false (c!"rx" :: c!"e" :: askedWords) with
    | .ok (some [c]) =>
      match c.buf with
      | some b =>
        decide ((result (listening [b.set 18 0x55#8]) [c]).ret = some 0 ∧ (result (listening [b.set 22 0x55#8]) [c]).ret = some 2 ∧
          numAt b 176 8 = 44)
      | none => false
    | _ => false) = true := by decide +kernel

end Ef.Props
