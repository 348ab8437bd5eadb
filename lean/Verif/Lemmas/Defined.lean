import Verif.Lemmas.Written

/-! # Serialisation of an arbitrary frame: no access outside of a buffer -/

namespace Ef

open Spec

/-- Only these ends: a result, a failed assertion, or (under `q`) `exit(-1)`. -/
def Ends {α : Type} (q : Prop) (x : Out α) : Prop := (∃ a, x = .ok a) ∨ x = .abort ∨ (x = .exit (-1) ∧ q)

theorem Ends.ok {α : Type} {q : Prop} (a : α) : Ends q (.ok a) := Or.inl ⟨a, rfl⟩

theorem Ends.bind {α β : Type} {q : Prop} {x : Out α} {g : α → Out β} (h : Ends q x) (hg : ∀ a, x = .ok a → Ends q (g a)) :
    Ends q (x >>= g) := by
  rcases h with ⟨a, rfl⟩ | rfl | ⟨rfl, hq⟩
  · rw [Out.ok_bind]; exact hg a rfl
  · exact Or.inr (Or.inl rfl)
  · exact Or.inr (Or.inr ⟨rfl, hq⟩)

theorem Ends.mono {α : Type} {q r : Prop} {x : Out α} (h : Ends q x) (hqr : q → r) : Ends r x := by
  rcases h with h | h | ⟨h, hq⟩
  · exact Or.inl h
  · exact Or.inr (Or.inl h)
  · exact Or.inr (Or.inr ⟨h, hqr hq⟩)

theorem Roomy.setType {h : Hdr} (hr : Roomy h) (k : Nat) : Roomy { h with type := k } := hr

theorem copyHdrs_ends (q : Prop) {hs : List Hdr} {start : Nat} {b : Buf} (hr : ∀ h ∈ hs, Roomy h)
    (hl : start + sumSizes hs ≤ b.length) : Ends q (copyHdrs false hs start b) := by
  obtain ⟨k1, k2⟩ := copyHdrs_written hs start b hr hl
  by_cases h : ∀ p ∈ writtenFields start hs, p.1 + p.2.1 ≤ 8 * b.length
  · obtain ⟨b', e, _⟩ := k1 h
    rw [e]; exact Ends.ok _
  · exact Or.inr (Or.inl (k2 h))

theorem copyHdr_len {h : Hdr} {start : Nat} {b : Buf} (hr : Roomy h) (hl : start + h.size ≤ b.length) :
    Ends False (copyHdr false h start b) ∧ ∀ b', copyHdr false h start b = .ok b' → b'.length = b.length := by
  obtain ⟨k1, k2⟩ := copyHdr_written start h b hr hl
  unfold copyHdr
  by_cases h : ∀ p ∈ writtenH start h.fields, p.1 + p.2.1 ≤ 8 * b.length
  · obtain ⟨b', e, l, _⟩ := k1 h
    rw [e]
    refine ⟨Ends.ok _, fun b1 h1 => ?_⟩
    cases h1
    exact l
  · rw [k2 h]
    exact ⟨Or.inr (Or.inl rfl), fun b1 h1 => by cases h1⟩

theorem decChk (q : Prop) (b : Buf) (s : Nat) : Ends q (parseBytes (decStr (inetChksum s b)) 2) := by
  rw [parseBytes_decStr _ 2 (by omega) (by have := inetChksum_lt s b; omega)]
  exact Ends.ok _

theorem fillUdpChksum_ends {t x : Hdr} {fc : Field} (hi : Inst t x) (hx : Roomy x) (hfc : findField t c!"chksum" = some fc)
    (below above : List Hdr) (hb : ∀ y ∈ below, IsInst y) (ha : Goods above) (hr : ∀ y ∈ above, Roomy y) (hsz : x.size < 2 ^ 51)
    (hty : x.type < 2 ^ 32) : Ends False (fillUdpChksum below x above) := by
  have hrs : ∀ y ∈ x :: above, Roomy y := by
    intro y hy
    rcases List.mem_cons.mp hy with rfl | hy
    · exact hx
    · exact hr y hy
  have hlen := ha.sum' hsz
  obtain ⟨g, e1, _, _, v1⟩ := hi.getField hfc
  unfold fillUdpChksum
  rw [e1, Out.ok_bind]
  split
  · exact Ends.ok _
  · cases hl : below.getLast? with
    | none => exact Ends.ok _
    | some ll =>
      have hll : IsInst ll := hb ll (List.mem_of_getLast? hl)
      simp only
      have key : ∀ ps p, fillPseudo ps ll (decStr x.type) (sumSizes (x :: above)) = .ok p → HdrFits p →
          Ends False (do
            let p ← fillPseudo ps ll (decStr x.type) (sumSizes (x :: above))
            let b ← copyHdr false p 0 (balloc (sumSizes (x :: above) + p.size))
            let b ← copyHdrs false (x :: above) p.size b
            let v ← parseBytes (decStr (inetChksum 0 b)) 2
            .ok (setVal x c!"chksum" v)) := by
        intro ps p hp hf
        rw [hp, Out.ok_bind]
        obtain ⟨c1, c2⟩ := copyHdr_len (start := 0) (b := balloc (sumSizes (x :: above) + p.size)) hf.roomy
          (by simp [balloc])
        refine c1.bind fun b h1 => ?_
        refine (copyHdrs_ends False hrs ?_).bind fun b2 _ => (decChk _ _ _).bind fun v _ => Ends.ok _
        rw [c2 b h1]
        simp only [balloc, List.length_replicate]
        omega
      unfold pseudoFor
      by_cases h4 : ll.name = c!"ipv4"
      · rw [if_pos h4]
        obtain ⟨p, p1, p2, p3, p4⟩ := fillPseudo4 (inst_ipv4 hll h4).1 (pn := x.type) (sumSizes (x :: above))
          (parseBytes_decStr x.type 1 (by omega) (by omega)) hlen
        exact key _ p p1 p3
      · rw [if_neg h4]
        by_cases h6 : ll.name = c!"ipv6"
        · rw [if_pos h6]
          obtain ⟨p, p1, p2, p3, p4⟩ := fillPseudo6 (inst_ipv6 hll h6).1 (pn := x.type) (sumSizes (x :: above))
            (parseBytes_decStr x.type 1 (by omega) (by omega)) hlen
          exact key _ p p1 p3
        · rw [if_neg h6]
          exact Ends.ok _

theorem fillIcmp_ends {x : Hdr} (hi : Inst HDR_ICMP x) (below above : List Hdr) (hb : ∀ y ∈ below, IsInst y)
    (ha : Goods above) (hr : ∀ y ∈ above, Roomy y) : Ends False (fillIcmp below x above) := by
  have hsz : x.size < 2 ^ 51 := by rw [hi.size]; decide +kernel
  obtain ⟨fc, hfc⟩ := look HDR_ICMP c!"chksum" (by decide +kernel)
  have hlen := ha.sum' hsz
  have hx : Roomy x := (hi.hdrFits icmp_tfits).roomy
  obtain ⟨g, e1, _, _, v1⟩ := hi.getField hfc
  unfold fillIcmp
  rw [e1, Out.ok_bind]
  split
  · exact Ends.ok _
  · cases hl : ipv6Below below with
    | none =>
      simp only
      refine (copyHdrs_ends False ?_ (by simp [balloc])).bind fun b2 _ => (decChk _ _ _).bind fun v _ => Ends.ok _
      intro y hy
      rcases List.mem_cons.mp hy with rfl | hy
      · exact hx
      · exact hr y hy
    | some ll =>
      obtain ⟨hl1, hl2⟩ := ipv6Below_some hl
      have hll : IsInst ll := hb ll (List.mem_of_getLast? hl1)
      obtain ⟨p, p1, p2, p3, p4⟩ := fillPseudo6 (inst_ipv6 hll hl2).1 (proto := c!"58") (pn := 58) (sumSizes (x :: above))
        (by decide +kernel) hlen
      simp only
      rw [p1, Out.ok_bind]
      obtain ⟨c1, c2⟩ := copyHdr_len (start := 0) (b := balloc (sumSizes (x :: above) + p.size)) p3.roomy
        (by simp [balloc])
      refine c1.bind fun b h1 => ?_
      refine (copyHdrs_ends False ?_ ?_).bind fun b2 _ => (decChk _ _ _).bind fun v _ => Ends.ok _
      · intro y hy
        rcases List.mem_cons.mp hy with rfl | hy
        · exact hx.setType 58
        · exact hr y hy
      · rw [c2 b h1]
        simp only [balloc, List.length_replicate, sumSizes]
        omega

theorem hexChk (q : Prop) (b : Buf) (s : Nat) : Ends q (parseBytes (hexStr (inetChksum s b)) 2) := by
  rw [parseBytes_hexStr _ 2 (by omega) (by have := inetChksum_lt s b; omega)]
  exact Ends.ok _

theorem fillIgmp_ends {x : Hdr} (hi : Inst HDR_IGMP x) (above : List Hdr) (hr : ∀ y ∈ above, Roomy y) :
    Ends False (fillIgmp x above) := by
  obtain ⟨a1, a2, a3⟩ := igmpAdj_inst hi
  obtain ⟨fc, hfc, wfc⟩ := Option.map_eq_some_iff.mp (chk_look (queryGiven x) (reportGiven x))
  unfold fillIgmp
  have : (adjustQuery x >>= fun h => adjustReportIgmp h >>= fun h => fillIgmpChksum h above) =
      ((adjustQuery x >>= adjustReportIgmp) >>= fun h => fillIgmpChksum h above) := by rw [bind_assoc]
  rw [this, a1, Out.ok_bind]
  obtain ⟨g, e1, _, _, v1⟩ := a2.getField hfc
  unfold fillIgmpChksum
  rw [e1, Out.ok_bind]
  split
  · exact Ends.ok _
  · refine (copyHdrs_ends False ?_ (by simp [balloc])).bind fun b2 _ => (hexChk _ _ _).bind fun v _ => Ends.ok _
    intro y hy
    rcases List.mem_cons.mp hy with rfl | hy
    · exact a2.roomy (igmp_narrow _ _) (igmp_room _ _)
    · exact hr y hy

theorem fillMld_ends {x : Hdr} (hi : Inst HDR_MLD x) (below above : List Hdr) (hb : ∀ y ∈ below, IsInst y)
    (hr : ∀ y ∈ above, Roomy y) : Ends True (fillMld below x above) := by
  obtain ⟨a1, a2, a3⟩ := mldAdj_inst hi
  have hchk : ∀ q r : Bool, (findField (mldShape q r) c!"chksum").map (·.width) = some 16 := by decide +kernel
  obtain ⟨fc, hfc, wfc⟩ := Option.map_eq_some_iff.mp (hchk (queryGiven x) (reportGiven x))
  unfold fillMld
  have : (adjustQuery x >>= fun h => adjustReportMld h >>= fun h => fillMldChksum below h above) =
      ((adjustQuery x >>= adjustReportMld) >>= fun h => fillMldChksum below h above) := by rw [bind_assoc]
  rw [this, a1, Out.ok_bind]
  obtain ⟨g, e1, _, _, v1⟩ := a2.getField hfc
  unfold fillMldChksum
  rw [e1, Out.ok_bind]
  split
  · exact Ends.ok _
  · cases hl : below.find? (fun y => y.name == c!"ipv6") with
    | none => exact Or.inr (Or.inr ⟨rfl, trivial⟩)
    | some ip =>
      have hm := List.mem_of_find?_eq_some hl
      have hn : ip.name = c!"ipv6" := by simpa using List.find?_some hl
      have hip := (inst_ipv6 (hb ip hm) hn).1
      have haddr : ∀ (c : Prop) [Decidable c] (v : Buf), Ends True (if c then Out.ok v else Out.exit (-1)) := by
        intro c _ v
        split
        · exact Ends.ok _
        · exact Or.inr (Or.inr ⟨rfl, trivial⟩)
      simp only
      rw [mldAddr_eq (o := 8) hip c!"sip" (Or.inl ⟨rfl, rfl⟩), mldAddr_eq (o := 24) hip c!"dip" (Or.inr ⟨rfl, rfl⟩)]
      refine (haddr _ _).bind fun _ _ => (haddr _ _).bind fun _ _ => ?_
      refine (copyHdrs_ends True ?_ (by simp [balloc])).bind fun b2 _ => (hexChk _ _ _).bind fun v _ => Ends.ok _
      intro y hy
      rcases List.mem_cons.mp hy with rfl | hy
      · exact a2.roomy (mld_narrow _ _) (mld_room _ _)
      · exact hr y hy

theorem fillHdr_ends {below above : List Hdr} {x : Hdr} (hb : ∀ y ∈ below, IsInst y) (ha : Goods above)
    (hr : ∀ y ∈ above, Roomy y) (hx : IsInst x) : Ends (x.name = c!"mld") (fillHdr below x above) := by
  have hg := inst_good hx
  by_cases h1 : x.fill = .udpTcp ∨ x.fill = .icmp ∨ x.fill = .igmp ∨ x.fill = .mld ∨ x.fill = .sv
  · unfold fillHdr
    rcases h1 with hf | hf | hf | hf | hf
    · rw [hf]
      simp only
      unfold fillUdpTcp
      obtain ⟨t, g1, g2, g3, g4⟩ := inst_of_fill hx (by rw [hf]; decide)
      have g5 := (fill_names t g1).2.2.2.2.2.2 (by rw [g2, hf])
      have hw : ∀ ft, findField t c!"len" = some ft → ft.width = 16 := by
        have : ∀ t, t = HDR_UDP ∨ t = HDR_TCP → ∀ ft, findField t c!"len" = some ft → ft.width = 16 := by
          rintro t (rfl | rfl)
          · intro ft hft; exact width_of hft (by decide +kernel)
          · intro ft hft
            have : findField HDR_TCP c!"len" = none := by decide +kernel
            rw [this] at hft; cases hft
        exact this t g5
      obtain ⟨e, ei⟩ := fillUdpLen_eq g3 hw hg.small above ha
      rw [e, Out.ok_bind]
      obtain ⟨fc, hfc⟩ := look t c!"chksum" (by rcases g5 with rfl | rfl <;> decide +kernel)
      refine (fillUdpChksum_ends ei (ei.hdrFits (tmpls_fit t g1)).roomy hfc below above hb ha hr ?_ ?_).mono False.elim
      · rw [ei.size, ← g3.size]; exact hg.small
      · rw [lenFilled_type]; exact hg.type
    · rw [hf]
      obtain ⟨h3, _⟩ := tmpl_of_fill hx .icmp HDR_ICMP hf (by decide) (by decide +kernel)
      exact (fillIcmp_ends h3 below above hb ha hr).mono False.elim
    · rw [hf]
      obtain ⟨h3, _⟩ := tmpl_of_fill hx .igmp HDR_IGMP hf (by decide) (by decide +kernel)
      exact (fillIgmp_ends h3 above hr).mono False.elim
    · rw [hf]
      obtain ⟨h3, _⟩ := tmpl_of_fill hx .mld HDR_MLD hf (by decide) (by decide +kernel)
      exact (fillMld_ends h3 below above hb hr).mono fun _ => by rw [h3.name]; decide +kernel
    · rw [hf]
      obtain ⟨h3, _⟩ := tmpl_of_fill hx .sv HDR_SV hf (by decide) (by decide +kernel)
      simp only
      rw [fillSv_eq h3]
      exact Ends.ok _
  · simp only [not_or] at h1
    rcases fillHdr_good hb ha hx (fun hw => by
        rcases hw with hw | hw | hw | hw
        · exact absurd hw h1.1
        · exact absurd hw h1.2.1
        · exact absurd hw h1.2.2.1
        · exact absurd hw h1.2.2.2.1) (tame_of_fill hx h1.2.2.2.2 h1.2.2.2.1) with ⟨z, e1, e2⟩ | ⟨e1, e2⟩
    · rw [e1]; exact Ends.ok _
    · exact Or.inr (Or.inr ⟨e1, e2⟩)

theorem fillStack_ends {below hs : List Hdr} (hb : ∀ y ∈ below, IsInst y) (hx : ∀ x ∈ hs, IsInst x) (hl : hs.length ≤ 1000) :
    Ends (∃ x ∈ hs, x.name = c!"mld") (fillStack below hs) := by
  induction hs generalizing below with
  | nil => exact Ends.ok _
  | cons x hs ih =>
    have hx0 := hx x (by simp)
    have hb' : ∀ y ∈ below ++ [x], IsInst y := by
      intro y hy
      rcases List.mem_append.mp hy with h | h
      · exact hb y h
      · rw [List.mem_singleton] at h; subst h; exact hx0
    simp only [List.length_cons] at hl
    have hxs : ∀ y ∈ hs, IsInst y := fun y hy => hx y (by simp [hy])
    unfold fillStack
    refine ((ih hb' hxs (by omega)).mono ?_).bind fun hs1 h1 => ?_
    · rintro ⟨y, hy, e⟩; exact ⟨y, by simp [hy], e⟩
    · obtain ⟨e2, _, _⟩ := fillStack_any hb' hxs (by omega) h1
      refine ((fillHdr_ends hb e2 (fillStack_roomy hb' hxs (by omega) h1) hx0).mono ?_).bind fun y _ => Ends.ok _
      intro e; exact ⟨x, by simp, e⟩

end Ef
