import Verif.Lemmas.MemFields

/-! # Default values with pointers -/

namespace Ef

theorem isSome_val (f : PField) : f.erase.val.isSome = f.val.isSome := by
  cases h : f.val <;> simp [PField.erase, h]

theorem isSome_dflt (f : PField) : f.erase.dflt.isSome = f.dflt.isSome := by
  cases h : f.dflt <;> simp [PField.erase, h]

/-- The end of all these functions: a value is computed and stored where there was none. -/
theorem tri_store {F : List Ptr} (h : PHdr) (n : CStr) (f : PField) (hf : h.find n = some f) (hv : f.val = none)
    (v : Option PBuf) {L : List Ptr} (hL : ∀ p, L.count p = h.own.count p + (ownBuf v).count p) :
    Tri L F (Pure.pure (h.setVal n v)) PHdr.erase (.ok (setVal h.erase n (v.map (·.data)))) PHdr.own :=
  Tri.pure (setVal_erase h n v) (fun p => by rw [hL, count_setVal h n v f hf hv])

theorem val_none {f : PField} (h : ¬ f.val.isSome = true) : f.val = none := by
  cases hv : f.val with
  | none => rfl
  | some v => simp [hv] at h

theorem tri_storeBytes {F : List Ptr} (h : PHdr) (n : CStr) (f : PField) (hf : h.find n = some f) (hv : f.val = none)
    (text : CStr) (k : Nat) :
    Tri h.own F (parseBytesM text k >>= fun v => Pure.pure (h.setVal n v)) PHdr.erase
      (parseBytes text k >>= fun v => .ok (setVal h.erase n v)) PHdr.own :=
  Tri.bind [] h.own (tri_parseBytes text k) (by cnt) (fun v _ => tri_store h n f hf hv v (by cnt))

theorem tri_fillField {F : List Ptr} (h : PHdr) (n text : CStr) (k : Nat) :
    Tri h.own F (fillFieldM h n text k) PHdr.erase
      (getField h.erase n >>= fun f =>
        if f.val.isSome then .ok h.erase else parseBytes text k >>= fun v => .ok (setVal h.erase n v)) PHdr.own := by
  unfold fillFieldM
  refine Tri.getFieldS (fun f hf => ?_)
  rw [isSome_val]
  split
  · exact Tri.pure rfl (by simp)
  · rename_i hv
    exact tri_storeBytes h n f hf (val_none hv) text k

theorem tri_fillFieldOpt {F : List Ptr} (h : PHdr) (n text : CStr) (k : Nat) :
    Tri h.own F (fillFieldOptM h n text k) PHdr.erase
      (match findField h.erase n with
        | none => .ok h.erase
        | some f =>
          if f.val.isSome then .ok h.erase else parseBytes text k >>= fun v => .ok (setVal h.erase n v)) PHdr.own := by
  unfold fillFieldOptM
  rw [find_erase]
  cases hf : h.find n with
  | none => exact Tri.pure rfl (by simp)
  | some f =>
    simp only [Option.map]
    rw [isSome_val]
    split
    · exact Tri.pure rfl (by simp)
    · rename_i hv
      exact tri_storeBytes h n f hf (val_none hv) text k

theorem nextProto_erase (above : List PHdr) : nextProtoP above = nextProto (above.map PHdr.erase) := by
  cases above <;> rfl

theorem tri_fillEtherType {F : List Ptr} (h : PHdr) (above : List PHdr) :
    Tri h.own F (fillEtherTypeM h above) PHdr.erase (fillEtherType h.erase (above.map PHdr.erase)) PHdr.own := by
  unfold fillEtherTypeM fillEtherType
  refine Tri.getFieldS (fun f hf => ?_)
  rw [isSome_val]
  split
  · exact Tri.pure rfl (by simp)
  · rename_i hv
    cases above with
    | nil => exact Tri.pure rfl (by simp)
    | cons n above => exact tri_storeBytes h _ f hf (val_none hv) _ _

/-- The checksum over headers in a temporary buffer. -/
theorem tri_chksum {F : List Ptr} (h : PHdr) (n : CStr) (f : PField) (hf : h.find n = some f) (hv : f.val = none)
    (text : Buf → CStr) (b : PBuf) (R : List Ptr) :
    Tri ([b.ptr] ++ h.own ++ R) F (do
        use b.ptr
        let v ← parseBytesM (text b.data) 2
        free b.ptr
        Pure.pure (h.setVal n v)) PHdr.erase
      (parseBytes (text b.data) 2 >>= fun v => .ok (setVal h.erase n v)) (fun x => x.own ++ R) := by
  refine Tri.useS (.inl (by simp)) ?_
  refine Tri.bind [] ([b.ptr] ++ h.own ++ R) (tri_parseBytes _ _) (by cnt) (fun v _ => ?_)
  refine Tri.freeS (ownBuf v ++ h.own ++ R) (by cnt) ?_
  refine Tri.pure (setVal_erase h n v) (fun p => ?_)
  simp only [List.count_append]
  rw [count_setVal h n v f hf hv]
  omega

theorem tri_fillIpv4Chksum {F : List Ptr} (h : PHdr) :
    Tri h.own F (fillIpv4ChksumM h) PHdr.erase (fillIpv4Chksum h.erase) PHdr.own := by
  unfold fillIpv4ChksumM fillIpv4Chksum
  refine Tri.getFieldS (fun f hf => ?_)
  rw [isSome_val]
  split
  · exact Tri.pure rfl (by simp)
  · rename_i hv
    refine Tri.stepV [] h.own (tri_balloc _) (by cnt) (fun b hb => ?_)
    rw [← hb]
    refine Tri.bind [b.ptr] h.own (tri_copyHdr false h 0 b (fun p hp => by simp [hp])) (by cnt) (fun b' _ => ?_)
    exact (tri_chksum h _ f hf (val_none hv) (fun d => decStr (inetChksum 0 d)) b' []).congr (by cnt) (by cnt)

theorem tri_fillIpv4 {F : List Ptr} (h : PHdr) (above : List PHdr) :
    Tri h.own F (fillIpv4M h above) PHdr.erase (fillIpv4 h.erase (above.map PHdr.erase)) PHdr.own := by
  unfold fillIpv4M fillIpv4
  rw [nextProto_erase]
  refine Tri.bind h.own [] (tri_fillField h _ _ _) (by cnt) (fun h1 _ => ?_)
  rw [sumSizes_erase]
  refine Tri.bind h1.own [] (tri_fillField h1 _ _ _) (by cnt) (fun h2 _ => ?_)
  exact (tri_fillIpv4Chksum h2).congr (by cnt) (by cnt)

theorem tri_fillIpv6 {F : List Ptr} (h : PHdr) (above : List PHdr) :
    Tri h.own F (fillIpv6M h above) PHdr.erase (fillIpv6 h.erase (above.map PHdr.erase)) PHdr.own := by
  unfold fillIpv6M fillIpv6
  rw [nextProto_erase]
  refine Tri.bind h.own [] (tri_fillField h _ _ _) (by cnt) (fun h1 _ => ?_)
  rw [sumSizes_erase]
  exact (tri_fillField h1 _ _ _).congr (by cnt) (by cnt)

/-! ## Pseudo headers -/

/-- A pseudo header: the four fields are there and have no values. -/
def Pseudo (h : Hdr) : Prop := NoVal h c!"sip" ∧ NoVal h c!"dip" ∧ NoVal h c!"proto" ∧ NoVal h c!"len"

theorem NoVal.setVal {h : PHdr} {n m : CStr} (hm : NoVal h.erase m) (v : Option PBuf) (hne : n ≠ m) :
    NoVal (h.setVal n v).erase m := by
  obtain ⟨f, hf, hv⟩ := hm.find
  refine ⟨f.erase, ?_, by simp [PField.erase, hv]⟩
  rw [find_erase, find_setValP, if_neg hne, hf]
  rfl

/-- Storing a value in a field that certainly exists. -/
theorem Tri.setValS {α' β' : Type} {F L : List Ptr} {h : PHdr} {n : CStr} {v : Option PBuf} {k : PHdr → Mem α'}
    {e' : α' → β'} {o' : Out β'} {own' : α' → List Ptr} (R : List Ptr) (hn : NoVal h.erase n)
    (hL : ∀ p, L.count p = h.own.count p + (ownBuf v).count p + R.count p)
    (hk : ∀ h', h' = h.setVal n v → Tri (h'.own ++ R) F (k h') e' o' own') :
    Tri L F (setValM h n v >>= k) e' o' own' := by
  obtain ⟨f, hf, hv⟩ := hn.find
  unfold setValM
  rw [hf]
  refine Tri.pureS ((hk _ rfl).congr (fun p => ?_) (fun _ _ => rfl))
  rw [List.count_append, count_setVal h n v f hf hv, hL]

theorem tri_fillPseudo {F : List Ptr} (ps ll : PHdr) (proto : CStr) (len : Nat) (hps : Pseudo ps.erase)
    (h1 : ∀ p ∈ ps.own, p ∈ F) (h2 : ∀ p ∈ ll.own, p ∈ F) :
    Tri [] F (fillPseudoM ps ll proto len) PHdr.erase (fillPseudo ps.erase ll.erase proto len) PHdr.own := by
  unfold fillPseudoM fillPseudo
  refine Tri.stepV [] [] (tri_hdrClone ps (by simpa using h1)) (by cnt) (fun q hq => ?_)
  rw [← hq] at hps
  obtain ⟨p1, p2, p3, p4⟩ := hps
  refine Tri.getFieldS (fun sip hsip => Tri.getFieldS (fun dip hdip => ?_))
  simp only
  refine Tri.stepV [] q.own (tri_bclone sip.val (fun p hp => ?_)) (by cnt) (fun s hs => ?_)
  · exact List.mem_append_right _ (h2 p (own_find ll _ sip hsip p (own_val sip p hp)))
  refine Tri.setValS [] p1 (by cnt) (fun q1 hq1 => ?_)
  have e1 : q1.erase = setVal ps.erase c!"sip" (bclone sip.erase.val) := by
    rw [hq1, setVal_erase, hq, hs]
    cases h : sip.val <;> simp [PField.erase, h, bclone]
  have d1 : NoVal q1.erase c!"dip" := by rw [hq1]; exact p2.setVal s (by decide)
  have r1 : NoVal q1.erase c!"proto" := by rw [hq1]; exact p3.setVal s (by decide)
  have l1 : NoVal q1.erase c!"len" := by rw [hq1]; exact p4.setVal s (by decide)
  rw [← e1]
  refine Tri.stepV [] q1.own (tri_bclone dip.val (fun p hp => ?_)) (by cnt) (fun d hd => ?_)
  · exact List.mem_append_right _ (h2 p (own_find ll _ dip hdip p (own_val dip p hp)))
  refine Tri.setValS [] d1 (by cnt) (fun q2 hq2 => ?_)
  have e2 : q2.erase = setVal q1.erase c!"dip" (bclone dip.erase.val) := by
    rw [hq2, setVal_erase, hd]
    cases h : dip.val <;> simp [PField.erase, h, bclone]
  have r2 : NoVal q2.erase c!"proto" := by rw [hq2]; exact r1.setVal d (by decide)
  have l2 : NoVal q2.erase c!"len" := by rw [hq2]; exact l1.setVal d (by decide)
  rw [← e2]
  refine Tri.bind [] q2.own (tri_parseBytes proto 1) (by cnt) (fun pr _ => ?_)
  refine Tri.setValS [] r2 (by cnt) (fun q3 hq3 => ?_)
  have e3 : q3.erase = setVal q2.erase c!"proto" (pr.map (·.data)) := by rw [hq3, setVal_erase]
  have l3 : NoVal q3.erase c!"len" := by rw [hq3]; exact l2.setVal pr (by decide)
  rw [← e3]
  refine Tri.getFieldS (fun lf hlf => ?_)
  refine Tri.bind [] q3.own (tri_parseBytes _ _) (by cnt) (fun l _ => ?_)
  obtain ⟨f, hf, hv⟩ := l3.find
  unfold setValM
  rw [hf]
  exact tri_store q3 _ f hf hv l (by cnt)

/-- The static headers are those of the tables. -/
structure TmplsOk (t : PTmpls) : Prop where
  tmpls : t.tmpls.map PHdr.erase = hdrTmpls
  pseudo4 : t.pseudo4.erase = HDR_IPV4_PSEUDO
  pseudo6 : t.pseudo6.erase = HDR_IPV6_PSEUDO

/-- Decides `Pseudo`. -/
def isPseudo (h : Hdr) : Bool :=
  [c!"sip", c!"dip", c!"proto", c!"len"].all (fun n =>
    match findField h n with
    | some f => f.val.isNone
    | none => false)

theorem isPseudo_spec {h : Hdr} (hp : isPseudo h = true) : Pseudo h := by
  have key : ∀ n ∈ [c!"sip", c!"dip", c!"proto", c!"len"], NoVal h n := by
    intro n hn
    have := List.all_eq_true.1 hp n hn
    cases hf : findField h n with
    | none => rw [hf] at this; cases this
    | some f =>
      rw [hf] at this
      exact ⟨f, hf, by simpa using this⟩
  exact ⟨key _ (by simp), key _ (by simp), key _ (by simp), key _ (by simp)⟩

theorem pseudo4_ok : Pseudo HDR_IPV4_PSEUDO := isPseudo_spec (by decide +kernel)
theorem pseudo6_ok : Pseudo HDR_IPV6_PSEUDO := isPseudo_spec (by decide +kernel)

theorem pseudoFor_erase {t : PTmpls} (ht : TmplsOk t) (ll : PHdr) :
    pseudoFor ll.erase = (pseudoForP t ll).map PHdr.erase := by
  unfold pseudoFor pseudoForP
  have hn : ll.erase.name = ll.base.name := rfl
  rw [hn]
  split
  · simp [ht.pseudo4]
  · split
    · simp [ht.pseudo6]
    · rfl

theorem pseudoForP_ok {t : PTmpls} (ht : TmplsOk t) {ll ps : PHdr} (h : pseudoForP t ll = some ps) :
    Pseudo ps.erase ∧ ∀ p ∈ ps.own, p ∈ t.own := by
  unfold pseudoForP at h
  split at h
  · cases h
    exact ⟨by rw [ht.pseudo4]; exact pseudo4_ok, fun p hp => by simp [PTmpls.own, hp]⟩
  · split at h
    · cases h
      exact ⟨by rw [ht.pseudo6]; exact pseudo6_ok, fun p hp => by simp [PTmpls.own, hp]⟩
    · cases h

theorem getLast_map (l : List PHdr) : (l.map PHdr.erase).getLast? = l.getLast?.map PHdr.erase := by
  simp [List.getLast?_map]

theorem mem_getLast {l : List PHdr} {x : PHdr} (h : l.getLast? = some x) : x ∈ l := List.mem_of_getLast? h

theorem tri_fillUdpChksum {F : List Ptr} {t : PTmpls} (ht : TmplsOk t) (below : List PHdr) (h : PHdr)
    (above : List PHdr) (hT : ∀ p ∈ t.own, p ∈ F) (hB : ∀ p ∈ ownHdrs below, p ∈ F) (hA : ∀ p ∈ ownHdrs above, p ∈ F) :
    Tri h.own F (fillUdpChksumM t below h above) PHdr.erase
      (fillUdpChksum (below.map PHdr.erase) h.erase (above.map PHdr.erase)) PHdr.own := by
  unfold fillUdpChksumM fillUdpChksum
  refine Tri.getFieldS (fun f hf => ?_)
  rw [isSome_val, getLast_map]
  split
  · exact Tri.pure rfl (by simp)
  · rename_i hv
    cases hl : below.getLast? with
    | none => exact Tri.pure rfl (by simp)
    | some ll =>
      simp only [Option.map]
      rw [pseudoFor_erase ht]
      cases hps : pseudoForP t ll with
      | none => exact Tri.pure rfl (by simp)
      | some ps =>
        obtain ⟨ok, hin⟩ := pseudoForP_ok ht hps
        simp only [Option.map]
        have hs : sumSizesP (h :: above) = sumSizes (h.erase :: above.map PHdr.erase) := sumSizes_erase (h :: above)
        rw [hs]
        refine Tri.bind [] h.own (tri_fillPseudo ps ll _ _ ok (fun p hp => by simp [hT p (hin p hp)])
          (fun p hp => by simp [hB p (mem_ownHdrs (mem_getLast hl) p hp)])) (by cnt) (fun q _ => ?_)
        have hqs : q.erase.size = q.base.size := rfl
        rw [hqs]
        refine Tri.stepV [] (q.own ++ h.own) (tri_balloc _) (by cnt) (fun b hb => ?_)
        rw [← hb]
        refine Tri.bind [b.ptr] (q.own ++ h.own) (tri_copyHdr false q 0 b (fun p hp => by simp [hp])) (by cnt)
          (fun b1 _ => ?_)
        refine Tri.bind [b1.ptr] (q.own ++ h.own) (tri_copyHdrs false (h :: above) q.base.size b1 (fun p hp => ?_))
          (by cnt) (fun b2 _ => ?_)
        · simp only [ownHdrs, List.mem_append] at hp ⊢
          cases hp with
          | inl hp => exact .inl (.inr hp)
          | inr hp => exact .inr (hA p hp)
        refine Tri.useS (.inl (by simp)) ?_
        refine Tri.bind [] ([b2.ptr] ++ (q.own ++ h.own)) (tri_parseBytes _ _) (by cnt) (fun v _ => ?_)
        refine Tri.freeS (ownBuf v ++ (q.own ++ h.own)) (by cnt) ?_
        refine Tri.dropS q.own (ownBuf v ++ h.own) (tri_hdrFree q) (by cnt) ?_
        exact tri_store h _ f hf (val_none hv) v (by cnt)

theorem tri_fillUdpTcp {F : List Ptr} {t : PTmpls} (ht : TmplsOk t) (below : List PHdr) (h : PHdr)
    (above : List PHdr) (hT : ∀ p ∈ t.own, p ∈ F) (hB : ∀ p ∈ ownHdrs below, p ∈ F) (hA : ∀ p ∈ ownHdrs above, p ∈ F) :
    Tri h.own F (fillUdpTcpM t below h above) PHdr.erase
      (fillUdpTcp (below.map PHdr.erase) h.erase (above.map PHdr.erase)) PHdr.own := by
  unfold fillUdpTcpM fillUdpTcp
  have hs : sumSizesP (h :: above) = sumSizes (h.erase :: above.map PHdr.erase) := sumSizes_erase (h :: above)
  rw [hs]
  refine Tri.bind h.own [] (tri_fillFieldOpt h _ _ _) (by cnt) (fun h1 _ => ?_)
  exact (tri_fillUdpChksum ht below h1 above hT hB hA).congr (by cnt) (by cnt)

theorem ipv6Below_erase (below : List PHdr) :
    ipv6Below (below.map PHdr.erase) = (ipv6BelowP below).map PHdr.erase := by
  unfold ipv6Below ipv6BelowP
  rw [getLast_map]
  cases below.getLast? with
  | none => rfl
  | some ll =>
    simp only [Option.map]
    have hn : ll.erase.name = ll.base.name := rfl
    rw [hn]
    split <;> rfl

theorem tri_fillIcmp {F : List Ptr} {t : PTmpls} (ht : TmplsOk t) (below : List PHdr) (h : PHdr)
    (above : List PHdr) (hT : ∀ p ∈ t.own, p ∈ F) (hB : ∀ p ∈ ownHdrs below, p ∈ F) (hA : ∀ p ∈ ownHdrs above, p ∈ F) :
    Tri h.own F (fillIcmpM t below h above) PHdr.erase
      (fillIcmp (below.map PHdr.erase) h.erase (above.map PHdr.erase)) PHdr.own := by
  unfold fillIcmpM fillIcmp
  refine Tri.getFieldS (fun f hf => ?_)
  rw [isSome_val]
  split
  · exact Tri.pure rfl (by simp)
  · rename_i hv
    have hs : sumSizesP (h :: above) = sumSizes (h.erase :: above.map PHdr.erase) := sumSizes_erase (h :: above)
    simp only
    rw [hs, ipv6Below_erase]
    cases hl : ipv6BelowP below with
    | none =>
      simp only [Option.map]
      refine Tri.stepV [] h.own (tri_balloc _) (by cnt) (fun b hb => ?_)
      rw [← hb]
      refine Tri.bind [b.ptr] h.own (tri_copyHdrs false (h :: above) 0 b (fun p hp => ?_)) (by cnt) (fun b' _ => ?_)
      · simp only [ownHdrs, List.mem_append] at hp ⊢
        exact hp.imp id (hA p)
      exact (tri_chksum h _ f hf (val_none hv) (fun d => decStr (inetChksum 0 d)) b' []).congr (by cnt) (by cnt)
    | some ll =>
      have hll : ll ∈ below := by
        unfold ipv6BelowP at hl
        split at hl
        · rename_i x hx
          split at hl
          · cases hl; exact mem_getLast hx
          · cases hl
        · cases hl
      simp only [Option.map]
      rw [← ht.pseudo6]
      refine Tri.bind [] h.own (tri_fillPseudo t.pseudo6 ll _ _ (by rw [ht.pseudo6]; exact pseudo6_ok)
        (fun p hp => by simp [hT p (by simp [PTmpls.own, hp])])
        (fun p hp => by simp [hB p (mem_ownHdrs hll p hp)])) (by cnt) (fun q _ => ?_)
      have hqs : q.erase.size = q.base.size := rfl
      rw [hqs]
      generalize hh : ({ h with base := { h.base with type := 58 } } : PHdr) = h1
      have e1 : ({ h.erase with type := 58 } : Hdr) = h1.erase := by rw [← hh]; rfl
      have o1 : h1.own = h.own := by rw [← hh]; rfl
      have f1 : h1.find c!"chksum" = some f := by rw [← hh]; exact hf
      rw [e1]
      refine Tri.stepV [] (q.own ++ h1.own) (tri_balloc _) (by rw [o1]; cnt) (fun b hb => ?_)
      rw [← hb]
      refine Tri.bind [b.ptr] (q.own ++ h1.own) (tri_copyHdr false q 0 b (fun p hp => by simp [hp])) (by cnt)
        (fun b1 _ => ?_)
      refine Tri.bind [b1.ptr] (q.own ++ h1.own) (tri_copyHdrs false (h1 :: above) q.base.size b1 (fun p hp => ?_))
        (by cnt) (fun b2 _ => ?_)
      · simp only [ownHdrs, List.mem_append] at hp ⊢
        cases hp with
        | inl hp => exact .inl (.inr hp)
        | inr hp => exact .inr (hA p hp)
      refine Tri.useS (.inl (by simp)) ?_
      refine Tri.bind [] ([b2.ptr] ++ (q.own ++ h1.own)) (tri_parseBytes _ _) (by cnt) (fun v _ => ?_)
      refine Tri.freeS (ownBuf v ++ (q.own ++ h1.own)) (by cnt) ?_
      refine Tri.dropS q.own (ownBuf v ++ h1.own) (tri_hdrFree q) (by cnt) ?_
      exact tri_store h1 _ f f1 (val_none hv) v (by cnt)

/-! ## igmp, mld, sv -/

theorem tri_anyGiven {F : List Ptr} (h : PHdr) (ns : List CStr) :
    Tri [] F (anyGivenM h ns) id (anyGiven h.erase ns) (fun _ => []) := by
  induction ns with
  | nil => exact Tri.pure rfl (by simp)
  | cons n ns ih =>
    unfold anyGivenM anyGiven
    refine Tri.getFieldS (fun f hf => ?_)
    rw [isSome_val, isSome_dflt]
    split
    · exact Tri.pure rfl (by simp)
    · exact ih

theorem tri_anyVal {F : List Ptr} (h : PHdr) (ns : List CStr) :
    Tri [] F (anyValM h ns) id (anyVal h.erase ns) (fun _ => []) := by
  induction ns with
  | nil => exact Tri.pure rfl (by simp)
  | cons n ns ih =>
    unfold anyValM anyVal
    refine Tri.getFieldS (fun f hf => ?_)
    rw [isSome_val]
    split
    · exact Tri.pure rfl (by simp)
    · exact ih

theorem zeroWidths_erase (h : PHdr) (ns : List CStr) : (zeroWidthsP h ns).erase = zeroWidths h.erase ns := by
  induction ns generalizing h with
  | nil => rfl
  | cons n ns ih =>
    simp only [zeroWidthsP, zeroWidths, ih]
    rw [upd_erase h n (PField.width 0) (fun f => { f with width := 0 }) (fun _ => rfl)]

theorem zeroWidths_own (h : PHdr) (ns : List CStr) : (zeroWidthsP h ns).own = h.own := by
  induction ns generalizing h with
  | nil => rfl
  | cons n ns ih =>
    simp only [zeroWidthsP, ih]
    rw [upd_own h n (PField.width 0) (fun _ => rfl)]

theorem bsize_erase (h : PHdr) : h.base.size = h.erase.size := rfl

theorem size_erase (h : PHdr) (n : Nat) : (h.size n).erase = { h.erase with size := n } := rfl

theorem size_own (h : PHdr) (n : Nat) : (h.size n).own = h.own := rfl

theorem offset_erase (h : PHdr) (n : CStr) (o : Nat) :
    (h.upd n (PField.offset o)).erase = updField h.erase n (fun f => { f with offset := o }) :=
  upd_erase h n (PField.offset o) (fun f => { f with offset := o }) (fun _ => rfl)

theorem offset_own (h : PHdr) (n : CStr) (o : Nat) : (h.upd n (PField.offset o)).own = h.own :=
  upd_own h n (PField.offset o) (fun _ => rfl)

theorem tri_adjustQuery {F : List Ptr} (h : PHdr) :
    Tri h.own F (adjustQueryM h) PHdr.erase (adjustQuery h.erase) PHdr.own := by
  unfold adjustQueryM adjustQuery
  refine Tri.bind [] h.own (tri_anyGiven h _) (by cnt) (fun b _ => ?_)
  cases b with
  | true => exact Tri.pure rfl (by simp)
  | false =>
    rw [if_neg Bool.false_ne_true, id, if_neg Bool.false_ne_true]
    refine Tri.pure ?_ (by intro p; rw [zeroWidths_own, size_own, List.nil_append])
    rw [zeroWidths_erase, size_erase, bsize_erase]

theorem tri_adjustReportIgmp {F : List Ptr} (h : PHdr) :
    Tri h.own F (adjustReportIgmpM h) PHdr.erase (adjustReportIgmp h.erase) PHdr.own := by
  unfold adjustReportIgmpM adjustReportIgmp
  refine Tri.bind [] h.own (tri_anyGiven h _) (by cnt) (fun b _ => ?_)
  cases b with
  | true =>
    rw [if_pos rfl, id, if_pos rfl]
    refine Tri.pure ?_ (by intro p; rw [offset_own, offset_own, zeroWidths_own, size_own, List.nil_append])
    rw [offset_erase, offset_erase, zeroWidths_erase, size_erase, bsize_erase]
  | false =>
    rw [if_neg Bool.false_ne_true, id, if_neg Bool.false_ne_true]
    refine Tri.pure ?_ (by intro p; rw [zeroWidths_own, size_own, List.nil_append])
    rw [zeroWidths_erase, size_erase, bsize_erase]

theorem tri_adjustReportMld {F : List Ptr} (h : PHdr) :
    Tri h.own F (adjustReportMldM h) PHdr.erase (adjustReportMld h.erase) PHdr.own := by
  unfold adjustReportMldM adjustReportMld
  refine Tri.bind [] h.own (tri_anyGiven h _) (by cnt) (fun b _ => ?_)
  cases b with
  | true =>
    rw [if_pos rfl, id, if_pos rfl]
    refine Tri.pure ?_ (by intro p; rw [offset_own, offset_own, zeroWidths_own, size_own, List.nil_append])
    rw [offset_erase, offset_erase, zeroWidths_erase, size_erase, bsize_erase]
  | false =>
    rw [if_neg Bool.false_ne_true, id, if_neg Bool.false_ne_true]
    refine Tri.pure ?_ (by intro p; rw [zeroWidths_own, size_own, List.nil_append])
    rw [zeroWidths_erase, size_erase, bsize_erase]

theorem tri_fillSv {F : List Ptr} (h : PHdr) : Tri h.own F (fillSvM h) PHdr.erase (fillSv h.erase) PHdr.own := by
  unfold fillSvM fillSv
  refine Tri.bind [] h.own (tri_anyVal h _) (by cnt) (fun b _ => ?_)
  cases b with
  | true => exact Tri.pure rfl (by simp)
  | false =>
    rw [if_neg Bool.false_ne_true, id, if_neg Bool.false_ne_true]
    refine Tri.pure ?_ (by intro p; rw [zeroWidths_own, size_own, List.nil_append])
    rw [zeroWidths_erase, size_erase, bsize_erase]

theorem tri_fillIgmpChksum {F : List Ptr} (h : PHdr) (above : List PHdr) (hA : ∀ p ∈ ownHdrs above, p ∈ F) :
    Tri h.own F (fillIgmpChksumM h above) PHdr.erase (fillIgmpChksum h.erase (above.map PHdr.erase)) PHdr.own := by
  unfold fillIgmpChksumM fillIgmpChksum
  refine Tri.getFieldS (fun f hf => ?_)
  rw [isSome_val]
  split
  · exact Tri.pure rfl (by simp)
  · rename_i hv
    have hs : sumSizesP (h :: above) = sumSizes (h.erase :: above.map PHdr.erase) := sumSizes_erase (h :: above)
    rw [hs]
    refine Tri.stepV [] h.own (tri_balloc _) (by cnt) (fun b hb => ?_)
    rw [← hb]
    refine Tri.bind [b.ptr] h.own (tri_copyHdrs false (h :: above) 0 b (fun p hp => ?_)) (by cnt) (fun b' _ => ?_)
    · simp only [ownHdrs, List.mem_append] at hp ⊢
      exact hp.imp id (hA p)
    exact (tri_chksum h _ f hf (val_none hv) (fun d => hexStr (inetChksum 0 d)) b' []).congr (by cnt) (by cnt)

theorem tri_fillIgmp {F : List Ptr} (h : PHdr) (above : List PHdr) (hA : ∀ p ∈ ownHdrs above, p ∈ F) :
    Tri h.own F (fillIgmpM h above) PHdr.erase (fillIgmp h.erase (above.map PHdr.erase)) PHdr.own := by
  unfold fillIgmpM fillIgmp
  refine Tri.bind h.own [] (tri_adjustQuery h) (by cnt) (fun h1 _ => ?_)
  refine Tri.bind h1.own [] (tri_adjustReportIgmp h1) (by cnt) (fun h2 _ => ?_)
  exact (tri_fillIgmpChksum h2 above hA).congr (by cnt) (by cnt)

theorem tri_mldAddr {F : List Ptr} (ip : PHdr) (n : CStr) (hI : ∀ p ∈ ip.own, p ∈ F) :
    Tri [] F (mldAddrM ip n) id (mldAddr ip.erase n) (fun _ => []) := by
  unfold mldAddrM mldAddr
  rw [find_erase]
  cases hf : ip.find n with
  | none => exact Tri.fail _ _ (fun a ha => by cases ha) rfl
  | some f =>
    simp only [Option.map]
    cases hv : f.val with
    | none =>
      have : f.erase.val = none := by simp [PField.erase, hv]
      rw [this]
      exact Tri.fail _ _ (fun a ha => by cases ha) rfl
    | some a =>
      have : f.erase.val = some a.data := by simp [PField.erase, hv]
      rw [this]
      refine Tri.useS (.inr (hI _ (own_find ip n f hf _ (own_val f _ (by simp [hv, ownBuf]))))) ?_
      simp only
      split
      · exact Tri.fail _ _ (fun a ha => by cases ha) rfl
      · exact Tri.pure rfl (by simp)

theorem find_map_name (l : List PHdr) (n : CStr) :
    (l.map PHdr.erase).find? (fun x => x.name == n) = (l.find? (fun x => x.base.name == n)).map PHdr.erase := by
  induction l with
  | nil => rfl
  | cons x l ih =>
    simp only [List.map_cons, List.find?_cons]
    have : (x.erase.name == n) = (x.base.name == n) := rfl
    rw [this]
    cases x.base.name == n
    · exact ih
    · rfl

theorem tri_fillMldChksum {F : List Ptr} (below : List PHdr) (h : PHdr) (above : List PHdr)
    (hB : ∀ p ∈ ownHdrs below, p ∈ F) (hA : ∀ p ∈ ownHdrs above, p ∈ F) :
    Tri h.own F (fillMldChksumM below h above) PHdr.erase
      (fillMldChksum (below.map PHdr.erase) h.erase (above.map PHdr.erase)) PHdr.own := by
  unfold fillMldChksumM fillMldChksum
  refine Tri.getFieldS (fun f hf => ?_)
  rw [isSome_val]
  split
  · exact Tri.pure rfl (by simp)
  · rename_i hv
    rw [find_map_name]
    cases hi : below.find? (fun x => x.base.name == c!"ipv6") with
    | none => exact Tri.fail _ _ (fun a ha => by cases ha) rfl
    | some ip =>
      simp only [Option.map]
      have hin : ∀ p ∈ ip.own, p ∈ h.own ++ F := fun p hp => by
        simp [hB p (mem_ownHdrs (List.mem_of_find?_eq_some hi) p hp)]
      have hs : sumSizesP (h :: above) = sumSizes (h.erase :: above.map PHdr.erase) := sumSizes_erase (h :: above)
      rw [hs]
      refine Tri.bind [] h.own (tri_mldAddr ip _ hin) (by cnt) (fun sip _ => ?_)
      refine Tri.bind [] h.own (tri_mldAddr ip _ hin) (by cnt) (fun dip _ => ?_)
      refine Tri.stepV [] h.own (tri_balloc _) (by cnt) (fun b hb => ?_)
      rw [← hb]
      refine Tri.bind [b.ptr] h.own (tri_copyHdrs false (h :: above) 0 b (fun p hp => ?_)) (by cnt) (fun b' _ => ?_)
      · simp only [ownHdrs, List.mem_append] at hp ⊢
        exact hp.imp id (hA p)
      exact (tri_chksum h _ f hf (val_none hv) (fun d => hexStr (inetChksum _ d)) b' []).congr (by cnt) (by cnt)

theorem tri_fillMld {F : List Ptr} (below : List PHdr) (h : PHdr) (above : List PHdr)
    (hB : ∀ p ∈ ownHdrs below, p ∈ F) (hA : ∀ p ∈ ownHdrs above, p ∈ F) :
    Tri h.own F (fillMldM below h above) PHdr.erase
      (fillMld (below.map PHdr.erase) h.erase (above.map PHdr.erase)) PHdr.own := by
  unfold fillMldM fillMld
  refine Tri.bind h.own [] (tri_adjustQuery h) (by cnt) (fun h1 _ => ?_)
  refine Tri.bind h1.own [] (tri_adjustReportMld h1) (by cnt) (fun h2 _ => ?_)
  exact (tri_fillMldChksum below h2 above hB hA).congr (by cnt) (by cnt)

/-! ## coap -/

theorem tri_fillCoap {F : List Ptr} (h : PHdr) :
    Tri h.own F (fillCoapM h) PHdr.erase (fillCoap h.erase) PHdr.own := by
  unfold fillCoapM fillCoap
  refine Tri.getFieldS (fun tkl htkl => Tri.getFieldS (fun tok htok => ?_))
  rw [isSome_val]
  have hno : tok.erase.val.isNone = tok.val.isNone := by cases hv : tok.val <;> simp [PField.erase, hv]
  rw [hno]
  split
  · exact Tri.pure rfl (by simp)
  · rename_i hv
    split
    · exact Tri.pure rfl (by simp)
    · have h5 : h.erase.fields[5]? = h.fields[5]?.map PField.erase := by simp [PHdr.erase]
      rw [h5]
      cases h.fields[5]? with
      | none => exact Tri.fail _ _ (fun a ha => by cases ha) rfl
      | some x => exact tri_storeBytes h _ tkl htkl (val_none hv) _ _

theorem tri_fillCoapOpt {F : List Ptr} (h : PHdr) :
    Tri h.own F (fillCoapOptM h) PHdr.erase (fillCoapOpt h.erase) PHdr.own := by
  unfold fillCoapOptM fillCoapOpt
  refine Tri.getFieldS (fun fnum hnum => Tri.getFieldS (fun fval hval => ?_))
  cases hn : fnum.val with
  | none =>
    have : fnum.erase.val = none := by simp [PField.erase, hn]
    rw [this]
    cases hv : fval.val with
    | none => exact Tri.pure rfl (by simp)
    | some v => exact Tri.pure rfl (by simp)
  | some n =>
    have e1 : fnum.erase.val = some n.data := by simp [PField.erase, hn]
    rw [e1]
    cases hv : fval.val with
    | none =>
      have : fval.erase.val = none := by simp [PField.erase, hv]
      rw [this]
      exact Tri.pure rfl (by simp)
    | some v =>
      have e2 : fval.erase.val = some v.data := by simp [PField.erase, hv]
      rw [e2]
      refine Tri.useS (.inl (own_find h _ fval hval _ (own_val fval _ (by simp [hv, ownBuf])))) ?_
      refine Tri.useS (.inl (own_find h _ fnum hnum _ (own_val fnum _ (by simp [hn, ownBuf])))) ?_
      have hmain : ∀ delta : Nat,
          Tri h.own F (do
            let b ← ballocM (balloc 5)
            use b.ptr
            let bb ← ballocM (coapOptHdr delta (v.data.length % 2 ^ 16))
            use b.ptr
            free n.ptr
            let h := h.setVal c!"num" (some bb)
            use bb.ptr
            let h := { h with fields := h.fields.modify 0 (PField.width (bb.data.length * 8)) }
            free b.ptr
            Pure.pure (relayoutHdrP h)) PHdr.erase
            (let bb := coapOptHdr delta (v.data.length % 2 ^ 16)
            let h := setVal h.erase c!"num" (some bb)
            let h := { h with fields := h.fields.modify 0 (fun f => { f with width := bb.length * 8 }) }
            .ok (relayoutHdr h)) PHdr.own := by
        intro delta
        refine Tri.stepV [] h.own (tri_balloc _) (by cnt) (fun b _ => ?_)
        refine Tri.useS (.inl (by simp)) ?_
        refine Tri.stepV [] ([b.ptr] ++ h.own) (tri_balloc _) (by cnt) (fun bb hbb => ?_)
        refine Tri.useS (.inl (by simp)) ?_
        have hc : ∀ p, h.own.count p + (if bb.ptr == p then 1 else 0) =
            (h.setVal c!"num" (some bb)).own.count p + (if n.ptr == p then 1 else 0) := by
          intro p
          have := count_upd h c!"num" (fun f => { f with val := some bb }) fnum hnum p
          simp only [PField.own, hn, ownBuf_some, List.count_append, List.count_cons, List.count_nil] at this
          show _ = (h.upd c!"num" (fun f => { f with val := some bb })).own.count p + _
          omega
        refine Tri.freeS ((h.setVal c!"num" (some bb)).own ++ [b.ptr]) ?_ ?_
        · intro p
          have := hc p
          simp only [List.count_append, List.count_cons, List.count_nil, List.cons_append]
          omega
        have hfind : (h.setVal c!"num" (some bb)).find c!"num" = some { fnum with val := some bb } := by
          rw [find_setValP, if_pos rfl, hnum]
          rfl
        refine Tri.useS (.inl ?_) ?_
        · refine List.mem_append_left _ ?_
          exact own_find _ _ _ hfind _ (own_val _ _ (by simp [ownBuf]))
        obtain ⟨r1, r2⟩ := relayout_modify (h.setVal c!"num" (some bb)) 0 (bb.data.length * 8)
        refine Tri.freeS (h.setVal c!"num" (some bb)).own (by cnt) ?_
        refine Tri.pure ?_ (by rw [r2]; simp)
        rw [r1, setVal_erase]
        simp only [Option.map, hbb]
      obtain ⟨q, d⟩ := n
      match d with
      | [] =>
        exact Tri.liftS (o := .ub .oobRead) (k' := fun _ => .ub .oobRead) (fun a ha => by cases ha)
      | [_] =>
        exact Tri.liftS (o := .ub .oobRead) (k' := fun _ => .ub .oobRead) (fun a ha => by cases ha)
      | d0 :: d1 :: r =>
        exact Tri.liftS (o := .ok ((d0.toNat * 256 + d1.toNat) % 2 ^ 16))
          (k' := fun delta =>
            let bb := coapOptHdr delta (v.data.length % 2 ^ 16)
            let h := setVal h.erase c!"num" (some bb)
            let h := { h with fields := h.fields.modify 0 (fun f => { f with width := bb.length * 8 }) }
            .ok (relayoutHdr h)) (fun a _ => hmain a)

/-! ## The whole frame -/

theorem tri_fillHdr {F : List Ptr} {t : PTmpls} (ht : TmplsOk t) (below : List PHdr) (h : PHdr)
    (above : List PHdr) (hT : ∀ p ∈ t.own, p ∈ F) (hB : ∀ p ∈ ownHdrs below, p ∈ F) (hA : ∀ p ∈ ownHdrs above, p ∈ F) :
    Tri h.own F (fillHdrM t below h above) PHdr.erase
      (fillHdr (below.map PHdr.erase) h.erase (above.map PHdr.erase)) PHdr.own := by
  unfold fillHdrM fillHdr
  have hf : h.erase.fill = h.base.fill := rfl
  have hs : sumSizesP (h :: above) = sumSizes (h.erase :: above.map PHdr.erase) := sumSizes_erase (h :: above)
  rw [hf]
  cases h.base.fill with
  | none => exact Tri.pure rfl (by simp)
  | etherType => exact tri_fillEtherType h above
  | ipv4 => exact tri_fillIpv4 h above
  | ipv6 => exact tri_fillIpv6 h above
  | udpTcp => exact tri_fillUdpTcp ht below h above hT hB hA
  | icmp => exact tri_fillIcmp ht below h above hT hB hA
  | igmp => exact tri_fillIgmp h above hA
  | mld => exact tri_fillMld below h above hB hA
  | sv => exact tri_fillSv h
  | coap => exact tri_fillCoap h
  | coapOpt => exact tri_fillCoapOpt h
  | ptp =>
    simp only
    rw [hs]
    exact tri_fillFieldOpt h _ _ _
  | ptpTlv =>
    simp only
    rw [hs]
    exact tri_fillFieldOpt h _ _ _

theorem tri_fillStack {F : List Ptr} {t : PTmpls} (ht : TmplsOk t) (below hs : List PHdr)
    (hT : ∀ p ∈ t.own, p ∈ F) (hB : ∀ p ∈ ownHdrs below, p ∈ F) :
    Tri (ownHdrs hs) F (fillStackM t below hs) (List.map PHdr.erase)
      (fillStack (below.map PHdr.erase) (hs.map PHdr.erase)) ownHdrs := by
  induction hs generalizing below F with
  | nil => exact Tri.pure rfl (by simp)
  | cons h hs ih =>
    unfold fillStackM
    simp only [List.map_cons, fillStack]
    have hih := ih (F := h.own ++ F) (below ++ [h]) (fun p hp => by simp [hT p hp]) (fun p hp => by
      simp only [ownHdrs_append, ownHdrs, List.append_nil, List.mem_append] at hp ⊢
      cases hp with
      | inl hp => exact .inr (hB p hp)
      | inr hp => exact .inl hp)
    rw [List.map_append] at hih
    refine Tri.bind (ownHdrs hs) h.own hih (by intro p; simp only [ownHdrs, List.count_append]; omega) (fun hs' _ => ?_)
    refine Tri.useAllS (fun p hp => ?_) ?_
    · simp only [List.mem_append] at hp ⊢
      rcases hp with hp | hp | hp
      · exact .inr (hB p hp)
      · exact .inl (.inr hp)
      · exact .inl (.inl hp)
    refine Tri.bind h.own (ownHdrs hs') (tri_fillHdr ht below h hs' (fun p hp => by simp [hT p hp])
      (fun p hp => by simp [hB p hp]) (fun p hp => by simp [hp])) (by cnt) (fun h' _ => ?_)
    exact Tri.pure rfl (by intro p; simp [ownHdrs])

/-- A serialised frame as a value. -/
def eraseFB (x : PFrame × PBuf) : Frame × Buf := (x.1.erase, x.2.data)

/-- Blocks of a serialised frame. -/
def ownFB (x : PFrame × PBuf) : List Ptr := x.1.own ++ [x.2.ptr]

theorem tri_frameToBuf {F : List Ptr} {t : PTmpls} (ht : TmplsOk t) (f : PFrame) (hT : ∀ p ∈ t.own, p ∈ F) :
    Tri f.own F (frameToBufM t f) eraseFB (frameToBuf f.erase) ownFB := by
  unfold frameToBufM frameToBuf
  refine Tri.useS (.inl (by simp [PFrame.own])) ?_
  refine Tri.bind (ownHdrs f.stack) [f.self] (tri_fillStack ht [] f.stack (fun p hp => by simp [hT p hp])
    (fun p hp => by cases hp)) (by intro p; simp only [PFrame.own, List.count_cons, List.count_nil]; omega)
    (fun st _ => ?_)
  have hsz : (if sumSizesP st < 60 then 60 else sumSizesP st) = frameSize (st.map PHdr.erase) := by
    rw [sumSizes_erase]
    rfl
  rw [hsz]
  refine Tri.stepV [] (ownHdrs st ++ [f.self]) (tri_balloc _) (by cnt) (fun b hb => ?_)
  rw [← hb]
  refine Tri.bind [b.ptr] (ownHdrs st ++ [f.self]) (tri_copyHdrs false st 0 b (fun p hp => by simp [hp])) (by cnt)
    (fun b' _ => ?_)
  refine Tri.pure rfl ?_
  intro p
  simp only [ownFB, PFrame.own, List.count_append, List.count_cons, List.count_nil, List.cons_append]
  omega

theorem tri_frameMaskToBuf {F : List Ptr} (f : PFrame) (hF : ∀ p ∈ f.own, p ∈ F) :
    Tri [] F (frameMaskToBufM f) (·.data) (frameMaskToBuf f.erase) (fun x => [x.ptr]) := by
  unfold frameMaskToBufM frameMaskToBuf
  have hs : sumSizesP f.stack = sumSizes f.erase.stack := sumSizes_erase f.stack
  have hsz : (if sumSizesP f.stack < 60 then 60 else sumSizesP f.stack) = frameSize f.erase.stack := by
    rw [hs]
    rfl
  simp only [PFrame.own, List.mem_cons] at hF
  refine Tri.useS (.inr (hF _ (.inl rfl))) ?_
  simp only
  rw [hsz, hs]
  refine Tri.stepV [] [] (tri_balloc _) (by cnt) (fun b hb => ?_)
  rw [← hb]
  exact (tri_copyHdrs true f.stack 0 b (fun p hp => hF p (.inr hp))).congr (by cnt) (by cnt)

end Ef
