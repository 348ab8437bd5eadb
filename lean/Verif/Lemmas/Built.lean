import Verif.Lemmas.FillStack
import Verif.Spec.Built

/-! # From the words on the command line to the bytes -/

namespace Ef

open Spec

theorem argcFrameLoop_len (fuel : Nat) (f : Frame) (i : Nat) (argv : List CStr) (n : Nat) (g : Frame)
    (hl : f.stack.length ≤ 100) (h : argcFrameLoop frameStackMax fuel f i argv = .ok (some (n, g))) : g.stack.length ≤ 100 := by
  induction fuel generalizing f i argv with
  | zero =>
    simp only [argcFrameLoop, Out.ok.injEq, Option.some.injEq, Prod.mk.injEq] at h
    rw [← h.2]; exact hl
  | succ fuel ih =>
    unfold argcFrameLoop at h
    cases argv with
    | nil =>
      simp only [Out.ok.injEq, Option.some.injEq, Prod.mk.injEq] at h
      rw [← h.2]; exact hl
    | cons w rest =>
      simp only at h
      split at h
      · simp at h
      · split at h
        · simp only [Out.ok.injEq, Option.some.injEq, Prod.mk.injEq] at h
          rw [← h.2]; exact hl
        · rw [Out.bind_eq_ok] at h
          obtain ⟨f1, h1, h⟩ := h
          unfold pushHdr at h1
          split at h1
          · rename_i hlt
            rw [Out.bind_eq_ok] at h
            obtain ⟨r, h2, h⟩ := h
            cases r with
            | none => simp at h
            | some q =>
              refine ih _ _ _ ?_ h
              unfold frameStackMax at hlt
              simp only [List.length_append, List.length_singleton]
              omega
          · simp at h1

/-- An accepted frame has at most 100 headers. -/
theorem argcFrame_len {argv : List CStr} {n : Nat} {f : Frame} (h : argcFrame argv = .ok (some (n, f))) :
    f.stack.length ≤ 100 := by
  unfold argcFrame at h
  split at h
  · simp at h
  · exact argcFrameLoop_len _ _ _ _ _ _ (by simp) h

theorem Spec.Sent.inst {argv f f' b} (h : Sent argv f f' b) : ∀ x ∈ f.stack, IsInst x := by
  obtain ⟨n, hn⟩ := h.parsed
  exact argcFrame_inst h.short hn

theorem Spec.Sent.goods {argv f f' b} (h : Sent argv f f' b) : Goods f'.stack ∧ f'.stack.length = f.stack.length ∧
    ∀ (i : Nat) x y, f.stack[i]? = some x → f'.stack[i]? = some y → FillRes0 x y ∧ (Tame x → HdrFits y) := by
  obtain ⟨n, hn⟩ := h.parsed
  have hl := argcFrame_len hn
  exact fillStack_any (below := []) (by simp) h.inst (by omega) (frameToBuf_stack h.bytes).1

theorem Spec.Built.res {argv f f' b} (h : Built argv f f' b) :
    ∀ (i : Nat) x y, f.stack[i]? = some x → f'.stack[i]? = some y → FillRes x y := by
  obtain ⟨n, hn⟩ := h.parsed
  have hl := argcFrame_len hn
  have h1 := (frameToBuf_stack h.bytes).1
  rcases fillStack_good (below := []) (hs := f.stack) (by simp) (fun x hx => ⟨h.inst x hx, h.tame x hx⟩) (by omega) with
    ⟨hs', e1, e2, e3, e4⟩ | ⟨e1, _⟩
  · rw [h1] at e1
    cases e1
    exact e4
  · rw [h1] at e1; simp at e1

theorem Spec.Built.fits {argv f f' b} (h : Built argv f f' b) : ∀ x ∈ f'.stack, HdrFits x := by
  intro y hy
  obtain ⟨g1, g2, g3⟩ := h.goods
  obtain ⟨i, hi, rfl⟩ := List.mem_iff_getElem.mp hy
  have hi' : i < f.stack.length := by omega
  exact (g3 i f.stack[i] _ (List.getElem?_eq_getElem hi') (List.getElem?_eq_getElem hi)).2 (h.tame _ (List.getElem_mem hi'))

/-- The headers before a place keep inside of themselves if the user's do. -/
theorem Spec.Sent.fitsBefore {argv f f' b} (h : Sent argv f f' b) {pre x post pre' x' post'}
    (ha : At f f' pre x post pre' x' post') (ht : ∀ y ∈ pre, Tame y) : ∀ y ∈ pre', HdrFits y := by
  intro y hy
  obtain ⟨g1, g2, g3⟩ := h.goods
  obtain ⟨i, hi, rfl⟩ := List.mem_iff_getElem.mp hy
  have hi' : i < pre.length := by rw [← ha.same]; exact hi
  refine (g3 i pre[i] _ ?_ ?_).2 (ht _ (List.getElem_mem hi'))
  · rw [ha.before, List.getElem?_append_left hi', List.getElem?_eq_getElem hi']
  · rw [ha.after, List.getElem?_append_left hi, List.getElem?_eq_getElem hi]

/-- What is known about a header at some place. -/
structure Place (pre : List Hdr) (x : Hdr) (post' : List Hdr) (x' : Hdr) : Prop where
  inst : IsInst x
  below : ∀ y ∈ pre, IsInst y
  goods : Goods post'
  filled : fillHdr pre x post' = .ok x'
  res : FillRes0 x x'
  fits : Tame x → HdrFits x'

theorem Spec.Sent.place {argv f f' b} (h : Sent argv f f' b) {pre x post pre' x' post'}
    (ha : At f f' pre x post pre' x' post') : Place pre x post' x' := by
  obtain ⟨g1, g2, g3⟩ := h.goods
  have h1 := (frameToBuf_stack h.bytes).1
  obtain ⟨p, y, q, e1, e2, e3, e4, e5⟩ := fillStack_append h1 ha.before
  rw [ha.after] at e1
  obtain ⟨rfl, e6⟩ := List.append_inj e1 (by rw [ha.same, e2])
  simp only [List.cons.injEq] at e6
  obtain ⟨rfl, rfl⟩ := e6
  simp only [List.nil_append] at e5
  have hr := g3 pre.length x x' (by rw [ha.before]; simp) (by rw [ha.after, ← ha.same]; simp)
  refine ⟨h.inst x (by rw [ha.before]; simp),
    fun y hy => h.inst y (by rw [ha.before]; simp [hy]), ⟨fun y hy => g1.good y (by rw [ha.after]; simp [hy]), ?_⟩, e5, hr.1, hr.2⟩
  have := g1.len
  rw [ha.after] at this
  simp only [List.length_append, List.length_cons] at this
  omega

theorem Spec.Built.fitsAfter {argv f f' b} (h : Built argv f f' b) {pre x post pre' x' post'}
    (ha : At f f' pre x post pre' x' post') : ∀ y ∈ post', HdrFits y :=
  fun y hy => h.fits y (by rw [ha.after]; simp [hy])

theorem Spec.Built.tameAt {argv f f' b} (h : Built argv f f' b) {pre x post pre' x' post'}
    (ha : At f f' pre x post pre' x' post') : Tame x ∧ ∀ y ∈ pre, Tame y :=
  ⟨h.tame x (by rw [ha.before]; simp), fun y hy => h.tame y (by rw [ha.before]; simp [hy])⟩

/-- The bytes of a header and of what follows it, inside the frame. -/
theorem Spec.Built.slices {argv f f' b} (h : Built argv f f' b) {pre x post pre' x' post'}
    (ha : At f f' pre x post pre' x' post') :
    slice b (totalSize pre') x'.size = hdrBytes x' ∧
    slice b (totalSize pre') (totalSize (x' :: post')) = ((x' :: post').map hdrBytes).flatten := by
  have hb := (Props.C15_frame_bytes f f' b h.bytes h.fits).1
  rw [ha.after] at hb
  simp only [List.map_append, List.flatten_append, List.append_assoc] at hb
  have hl : (pre'.map hdrBytes).flatten.length = totalSize pre' := Props.flatten_hdrBytes_length pre'
  have hl2 : ((x' :: post').map hdrBytes).flatten.length = totalSize (x' :: post') := Props.flatten_hdrBytes_length _
  have hd : b.drop (totalSize pre') = ((x' :: post').map hdrBytes).flatten ++ zeros (60 - totalSize (pre' ++ x' :: post')) := by
    rw [hb, List.drop_append_of_le_length (by omega), List.drop_of_length_le (by omega), List.nil_append]
  constructor
  · unfold slice
    rw [hd, List.map_cons, List.flatten_cons, List.append_assoc,
      List.take_append_of_le_length (by rw [Props.hdrBytes_length]; omega), List.take_of_length_le (by rw [Props.hdrBytes_length]; omega)]
  · unfold slice
    rw [hd, List.take_append_of_le_length (by omega), List.take_of_length_le (by omega)]

theorem totalSize_cons (x : Hdr) (hs : List Hdr) : totalSize (x :: hs) = x.size + totalSize hs := by
  simp [totalSize]

/-- The frame is at least as long as its headers. -/
theorem Spec.Sent.long {argv f f' b} (h : Sent argv f f' b) {pre x post pre' x' post'}
    (ha : At f f' pre x post pre' x' post') : totalSize pre' + x'.size ≤ b.length := by
  have hb := h.bytes
  unfold frameToBuf at hb
  rw [Out.bind_eq_ok] at hb
  obtain ⟨st, h1, h2⟩ := hb
  rw [Out.bind_eq_ok] at h2
  obtain ⟨b', h2, h3⟩ := h2
  simp only [Out.ok.injEq, Prod.mk.injEq] at h3
  obtain ⟨rfl, rfl⟩ := h3
  rw [(copyHdrs_rel _ _ _ _ _ h2).1]
  have hs : st = pre' ++ x' :: post' := ha.after
  have : totalSize st = totalSize pre' + (x'.size + totalSize post') := by rw [hs]; simp [totalSize]
  rw [totalSize_eq] at this
  unfold balloc frameSize
  rw [List.length_replicate]
  split <;> omega

/-- The number in a field of a header inside the frame. Where the field has neither a value nor a default, the headers
before have to keep inside of themselves. -/
theorem Spec.Sent.num {argv f f' b} (h : Sent argv f f' b) {pre x post pre' x' post'}
    (ha : At f f' pre x post pre' x' post') {t : Hdr} (hi : Inst t x') (ht : TFits t) (hd : disjB t = true) {n : CStr}
    {ft : Field} (hft : findField t n = some ft) (hz : given x' n = none → ft.dflt = none → ∀ y ∈ pre, Tame y) :
    numAt b (8 * totalSize pre' + ft.offset) ft.width = numOf ft (given x' n) := by
  obtain ⟨c1, c2, c3⟩ := frame_field h.bytes ha.after hi ht hd hft
  unfold numOf
  cases hg : given x' n with
  | some v => simp only [Option.or]; exact c1 v hg
  | none =>
    simp only [Option.or]
    cases hdf : ft.dflt with
    | none => exact c3 (h.fitsBefore ha (hz hg hdf)) hg hdf
    | some d => exact c2 hg d hdf

theorem Spec.Built.num {argv f f' b} (h : Built argv f f' b) {pre x post pre' x' post'}
    (ha : At f f' pre x post pre' x' post') {t : Hdr} (hi : Inst t x') (ht : TFits t) (hd : disjB t = true) {n : CStr}
    {ft : Field} (hft : findField t n = some ft) :
    numAt b (8 * totalSize pre' + ft.offset) ft.width = numOf ft (given x' n) :=
  h.toSent.num ha hi ht hd hft (fun _ _ => (h.tameAt ha).2)

end Ef
