import Verif.Lemmas.Built

/-! # A checksum computed over a header and what surrounds it, put into the header -/

namespace Ef

open Spec

theorem sep_of_disj {t : Hdr} {n : CStr} {ft : Field} (hd : disjB t = true) (hf : findField t n = some ft) :
    ∃ l1 l2, Sep t n ft l1 l2 := by
  obtain ⟨h1, l1, l2, hx, h2⟩ := List.find?_eq_some_iff_append.mp hf
  have ho := disjB_iff hd
  rw [hx] at ho
  obtain ⟨o1, o2⟩ := ordered_split ho
  exact ⟨l1, l2, hx, by simpa using h1, fun k hk => by simpa using h2 k hk, o1, o2⟩

theorem placed {t y : Hdr} {n : CStr} {ft : Field} {l1 l2 : List Field} (hs : Sep t n ft l1 l2) (hi : Inst t y) {k : Nat}
    (hk : ft.offset = 8 * k) (hm : ft.width = 16) (hin : k + 2 ≤ t.size) (hd : ft.dflt = none) (hg : given y n = none)
    (hk2 : k % 2 = 0) (P R : Buf) (hP : P.length % 2 = 0) (D' : Buf)
    (hD : D' = P ++ hdrBytes (setVal y n (some (beBytes 2 (inetChksum 0 (P ++ hdrBytes y ++ R))))) ++ R) :
    ValidIffOneFold D' (P.length + k) := by
  obtain ⟨e1, e2⟩ := hs.place hi (m := 2) hk (by rw [hm]) hin hd hg (inetChksum 0 (P ++ hdrBytes y ++ R)) (by omega)
  have hl : (hdrBytes y).length = t.size := by rw [Props.hdrBytes_length, hi.size]
  generalize hc : inetChksum 0 (P ++ hdrBytes y ++ R) = c at *
  have t1 : (P ++ hdrBytes y ++ R).take (P.length + k) = P ++ (hdrBytes y).take k := by
    rw [List.append_assoc, List.take_length_add_append, List.take_append_of_le_length (by omega)]
  have t2 : (P ++ hdrBytes y ++ R).drop (P.length + k + 2) = (hdrBytes y).drop (k + 2) ++ R := by
    rw [List.append_assoc, Nat.add_assoc, List.drop_length_add_append, List.drop_append_of_le_length (by omega)]
  have key := valid_iff (D := P ++ hdrBytes y ++ R) (D' := D') (k := P.length + k) (by omega)
    (by simp only [List.length_append]; omega) (by
      rw [t1, t2]
      conv => lhs; rw [e2]
      have : zeros 2 = [0#8, 0#8] := rfl
      rw [this]
      simp only [List.append_assoc]) (by
      rw [t1, t2, hc, hD, e1]
      simp only [List.append_assoc])
  obtain ⟨k1, k2, k3⟩ := key
  rw [k1] at k2 k3
  exact ⟨k2, k3⟩

/-- Bytes inside a header, read from the frame. -/
theorem slice_slice (b : Buf) (o n k m : Nat) (h : k + m ≤ n) : slice (slice b o n) k m = slice b (o + k) m := by
  unfold slice
  rw [List.drop_take, List.take_take, List.drop_drop]
  congr 1
  omega

/-- The field `n` of `t` has no default, lies inside `t`, and shares no bits with any other field. -/
def aloneB (t : Hdr) (n : CStr) (o w : Nat) : Bool :=
  match findField t n with
  | none => false
  | some ft => decide (ft.offset = o) && decide (ft.width = w) && decide (o + w ≤ 8 * t.size) && ft.dflt.isNone &&
      t.fields.all (fun k => decide (k.name = n) || decide (k.width = 0) || decide (k.offset + k.width ≤ o) ||
        decide (o + w ≤ k.offset))

/-- The number in a field of a header inside the frame that shares no bits with others. -/
theorem Spec.Sent.alone {argv f f' b} (h : Sent argv f f' b) {pre x post pre' x' post'}
    (ha : At f f' pre x post pre' x' post') {t : Hdr} (hi : Inst t x') (hnd : (t.fields.map (·.name)).Nodup) {n : CStr}
    {o w : Nat} (hal : aloneB t n o w = true) (hf : HdrFits x')
    (hz : given x' n = none → ∀ y ∈ pre, Tame y) :
    numAt b (8 * totalSize pre' + o) w = asNum w (given x' n) := by
  unfold aloneB at hal
  cases hft : findField t n with
  | none => rw [hft] at hal; simp at hal
  | some ft =>
    rw [hft] at hal
    simp only [Bool.and_eq_true, decide_eq_true_eq, List.all_eq_true, Bool.or_eq_true, Option.isNone_iff_eq_none] at hal
    obtain ⟨⟨⟨⟨h1, h2⟩, h3⟩, h4⟩, h5⟩ := hal
    obtain ⟨g, _, hg, hgi, hgv⟩ := hi.getField hft
    obtain ⟨hgn, l1, l2, hx, hl1⟩ := List.find?_eq_some_iff_append.mp hg
    have hnd' : (x'.fields.map (·.name)).Nodup := by rw [allRel_names hi.fields]; exact hnd
    obtain ⟨c1, c2⟩ := Props.C17_values_appear f f' b h.bytes pre' post' x' ha.after hf l1 l2 g hx
    have hgn' : g.name = n := by simpa using hgn
    have hoth : ∀ k ∈ x'.fields, k.name ≠ n → ∀ i, ¬ (covers g i ∧ covers k i) := by
      intro k hk hkn i hc
      obtain ⟨a, ha', hak⟩ := allRel_right hi.fields k hk
      have := h5 a ha'
      rw [← hak.name, ← hak.width, ← hak.offset] at this
      unfold covers at hc
      rw [hgi.offset, hgi.width, h1, h2] at hc
      rcases this with ((q | q) | q) | q
      · exact hkn q
      · omega
      · omega
      · omega
    have hl2 : ∀ k ∈ l2, k.name ≠ n := by
      intro k hk e
      rw [hx, List.map_append, List.map_cons] at hnd'
      have := (List.nodup_append.mp hnd').2.1
      rw [List.nodup_cons] at this
      exact this.1 (List.mem_map.mpr ⟨k, hk, by rw [e, hgn']⟩)
    rw [← h1, ← h2, ← hgi.offset, ← hgi.width]
    unfold asNum
    cases hv : given x' n with
    | some v =>
      refine c1 v ?_ (fun k hk _ => hoth k (by rw [hx]; simp [hk]) (hl2 k hk))
      unfold fieldValue; rw [hgv, hv]
    | none =>
      have hno : fieldValue g = none := by unfold fieldValue; rw [hgv, hv, hgi.dflt]; exact h4
      refine c2 (h.fitsBefore ha (hz hv)) hno (by rw [hgi.offset, hgi.width, h1, h2, hi.size]; exact h3) (fun k hk hks => ?_)
      by_cases hkg : k.name = n
      · rw [hx] at hk
        rcases List.mem_append.mp hk with hk | hk
        · exact absurd hkg (by simpa using hl1 k hk)
        · rcases List.mem_cons.mp hk with rfl | hk
          · rw [hno] at hks; simp at hks
          · exact absurd hkg (hl2 k hk)
      · exact hoth k hk hkg

theorem Spec.Built.alone {argv f f' b} (h : Built argv f f' b) {pre x post pre' x' post'}
    (ha : At f f' pre x post pre' x' post') {t : Hdr} (hi : Inst t x') (hnd : (t.fields.map (·.name)).Nodup) {n : CStr}
    {o w : Nat} (hal : aloneB t n o w = true) :
    numAt b (8 * totalSize pre' + o) w = asNum w (given x' n) :=
  h.toSent.alone ha hi hnd hal (h.fits x' (by rw [ha.after]; simp)) (fun _ => (h.tameAt ha).2)

/-- Decidable form of `Sep`. -/
def sepB (t : Hdr) (n : CStr) (o w : Nat) : Bool :=
  match t.fields.dropWhile (fun k => k.name != n) with
  | [] => false
  | ft :: l2 => decide (ft.offset = o) && decide (ft.width = w) && decide (o + w ≤ 8 * t.size) && ft.dflt.isNone &&
      (t.fields.takeWhile (fun k => k.name != n)).all (fun k => decide (k.offset + k.width ≤ o)) &&
      l2.all (fun k => decide (o + w ≤ k.offset))

theorem sep_of_sepB {t : Hdr} {n : CStr} {o w : Nat} (h : sepB t n o w = true) :
    ∃ ft l1 l2, Sep t n ft l1 l2 ∧ ft.offset = o ∧ ft.width = w ∧ o + w ≤ 8 * t.size ∧ ft.dflt = none := by
  unfold sepB at h
  cases hd : t.fields.dropWhile (fun k => k.name != n) with
  | nil => rw [hd] at h; simp at h
  | cons ft l2 =>
    rw [hd] at h
    simp only [Bool.and_eq_true, decide_eq_true_eq, List.all_eq_true, Option.isNone_iff_eq_none] at h
    obtain ⟨⟨⟨⟨⟨h1, h2⟩, h3⟩, h4⟩, h5⟩, h6⟩ := h
    have hsplit : t.fields = t.fields.takeWhile (fun k => k.name != n) ++ ft :: l2 := by
      rw [← hd, List.takeWhile_append_dropWhile]
    refine ⟨ft, _, l2, ⟨hsplit, ?_, ?_, ?_, ?_⟩, h1, h2, h3, h4⟩
    · have := List.head?_dropWhile_not (fun k : Field => k.name != n) t.fields
      rw [hd] at this
      simpa using this
    · intro k hk
      have := List.all_takeWhile (l := t.fields) (p := fun k => k.name != n)
      rw [List.all_eq_true] at this
      simpa using this k hk
    · rw [h1]; exact h5
    · rw [h1, h2]; exact h6

end Ef
