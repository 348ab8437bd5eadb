import Verif.Model.FillMemory
import Verif.Props.PayloadMemory

/-!
# Computed fields when memory runs out (C137)
-/

namespace Ef.Props

open Ef Ef.Spec

/-- Storing NULL where there is no value changes nothing. -/
theorem setVal_null (h : Hdr) (name : CStr) (f : Field) (hf : findField h name = some f) (hv : f.val = none) : setVal h name none = h := by
  have key : ∀ fs : List Field, fs.find? (fun f => f.name == name) = some f →
      updFirst (fun f => f.name == name) (fun f => { f with val := none }) fs = fs := by
    intro fs
    induction fs with
    | nil => intro h; rfl
    | cons g gs ih =>
      intro h
      rw [updFirst]
      rw [List.find?_cons] at h
      cases hg : (g.name == name) with
      | true =>
        rw [hg] at h
        cases h
        simp only [if_true]
        rw [← hv]
      | false =>
        rw [hg] at h
        simp only [Bool.false_eq_true, if_false]
        rw [ih h]
  unfold setVal updField
  rw [key h.fields hf]

/-- For short values every request is checked. -/
theorem parseBytesA_short (s : CStr) (n : Nat) (hn : n ≤ 8) (as : List Bool) : parseBytesA s n as = checkedA (parseBytes s n) as := by
  unfold parseBytesA
  split
  · rfl
  · rename_i h
    split
    · rename_i h'
      refine absurd ⟨?_, hn⟩ h
      rcases h' with h' | h' <;> omega
    · rfl

/-- With answers of the allocator a field is computed as usual, or left as it is, the latter only if a request is refused. -/
def FillsOrNot (o : Hdr → Out Hdr) (f : Hdr → List Bool → Out (Hdr × List Bool)) : Prop :=
  ∀ h as, (∀ h' as', f h as = .ok (h', as') → (∀ a ∈ as', a ∈ as) ∧ (o h = .ok h' ∨ (h' = h ∧ false ∈ as))) ∧
    (false ∉ as → ∀ h', o h = .ok h' → ∃ as', f h as = .ok (h', as'))

theorem grant_mem (as : List Bool) : (∀ a ∈ (grant as).2, a ∈ as) ∧ ((grant as).1 = false → false ∈ as) := by
  cases as with
  | nil => exact ⟨fun a h => h, fun h => by cases h⟩
  | cons a as => exact ⟨fun b h => List.mem_cons_of_mem _ h, fun h => by cases h; exact List.mem_cons_self ..⟩

theorem fills_value (name t : CStr) (n : Nat) (hn : n ≤ 8) (h : Hdr) (f : Field) (hf : findField h name = some f) (hv : f.val.isSome = false)
    (as : List Bool) :
    (∀ h' as', (do let v ← parseBytesA t n as; Out.ok (setVal h name v.1, v.2)) = .ok (h', as') → (∀ a ∈ as', a ∈ as) ∧
      ((do let v ← parseBytes t n; Out.ok (setVal h name v)) = .ok h' ∨ (h' = h ∧ false ∈ as))) ∧
    (false ∉ as → ∀ h', (do let v ← parseBytes t n; Out.ok (setVal h name v)) = .ok h' →
      ∃ as', (do let v ← parseBytesA t n as; Out.ok (setVal h name v.1, v.2)) = .ok (h', as')) := by
  have hv' : f.val = none := by cases h : f.val <;> simp_all
  rw [parseBytesA_short t n hn]
  unfold checkedA
  cases parseBytes t n with
  | ok o =>
    cases o with
    | none =>
      refine ⟨fun h' as' hh => ?_, fun _ h' hh => ⟨as, ?_⟩⟩
      · cases hh; exact ⟨fun a ha => ha, Or.inl rfl⟩
      · cases hh; rfl
    | some b =>
      simp only [Out.ok_bind]
      cases hg : (grant as).1 with
      | false =>
        refine ⟨fun h' as' hh => ?_, fun hn h' hh => absurd ((grant_mem as).2 hg) hn⟩
        cases hh
        exact ⟨(grant_mem as).1, Or.inr ⟨setVal_null h name f hf hv', (grant_mem as).2 hg⟩⟩
      | true =>
        refine ⟨fun h' as' hh => ?_, fun hn h' hh => ⟨(grant as).2, ?_⟩⟩
        · cases hh
          exact ⟨(grant_mem as).1, Or.inl rfl⟩
        · cases hh; rfl
  | ub u => exact ⟨fun _ _ h => (nomatch h), fun _ _ h => (nomatch h)⟩
  | abort => exact ⟨fun _ _ h => (nomatch h), fun _ _ h => (nomatch h)⟩
  | exit c => exact ⟨fun _ _ h => (nomatch h), fun _ _ h => (nomatch h)⟩

theorem getField_ok {h : Hdr} {name : CStr} {f : Field} (hf : findField h name = some f) : getField h name = .ok f := by
  unfold getField
  rw [hf]

theorem fills_field (name : CStr) (t : Hdr → CStr) (n : Nat) (hn : n ≤ 8) :
    FillsOrNot (fun h => do
      let f ← getField h name
      if f.val.isSome then .ok h
      else do
        let v ← parseBytes (t h) n
        .ok (setVal h name v)) (fun h as => do
      let f ← getField h name
      if f.val.isSome then .ok (h, as)
      else do
        let v ← parseBytesA (t h) n as
        .ok (setVal h name v.1, v.2)) := by
  intro h as
  cases hf : findField h name with
  | none =>
    have : getField h name = .ub .nullDeref := by unfold getField; rw [hf]
    simp only [this]
    exact ⟨fun _ _ h => (nomatch h), fun _ _ h => (nomatch h)⟩
  | some f =>
    simp only [getField_ok hf, Out.ok_bind]
    cases hv : f.val.isSome with
    | true =>
      simp only [if_true]
      refine ⟨fun h' as' hh => ?_, fun _ h' hh => ⟨as, ?_⟩⟩
      · cases hh; exact ⟨fun a ha => ha, Or.inl rfl⟩
      · cases hh; rfl
    | false =>
      simp only [Bool.false_eq_true, if_false]
      exact fills_value name (t h) n hn h f hf hv as

theorem fills_chksum : FillsOrNot fillIpv4Chksum fillIpv4ChksumA := by
  intro h as
  unfold fillIpv4Chksum fillIpv4ChksumA
  cases hf : findField h c!"chksum" with
  | none =>
    have : getField h c!"chksum" = .ub .nullDeref := by unfold getField; rw [hf]
    simp only [this]
    exact ⟨fun _ _ h => (nomatch h), fun _ _ h => (nomatch h)⟩
  | some f =>
    simp only [getField_ok hf, Out.ok_bind]
    cases hv : f.val.isSome with
    | true =>
      simp only [if_true]
      refine ⟨fun h' as' hh => ?_, fun _ h' hh => ⟨as, ?_⟩⟩
      · cases hh; exact ⟨fun a ha => ha, Or.inl rfl⟩
      · cases hh; rfl
    | false =>
      simp only [Bool.false_eq_true, if_false]
      cases hg : (grant as).1 with
      | false => exact ⟨fun _ _ h => (nomatch h), fun hn => absurd ((grant_mem as).2 hg) hn⟩
      | true =>
        simp only [if_true]
        cases copyHdr false h 0 (balloc 20) with
        | ok b =>
          obtain ⟨h1, h2⟩ := fills_value c!"chksum" (decStr (inetChksum 0 b)) 2 (by omega) h f hf hv (grant as).2
          have hm := (grant_mem as).1
          refine ⟨fun h' as' hh => ?_, fun hn h' hh => h2 (fun hm' => hn (hm _ hm')) h' hh⟩
          obtain ⟨h3, h4⟩ := h1 h' as' hh
          exact ⟨fun a ha => hm _ (h3 a ha), h4.imp id (fun ⟨e, hm'⟩ => ⟨e, hm _ hm'⟩)⟩
        | ub u => exact ⟨fun _ _ h => (nomatch h), fun _ _ h => (nomatch h)⟩
        | abort => exact ⟨fun _ _ h => (nomatch h), fun _ _ h => (nomatch h)⟩
        | exit c => exact ⟨fun _ _ h => (nomatch h), fun _ _ h => (nomatch h)⟩

theorem fills_et (above : List Hdr) : FillsOrNot (fun h => fillEtherType h above) (fun h as => fillEtherTypeA h above as) := by
  cases above with
  | cons n above => exact fills_field c!"et" (fun _ => decStr n.type) 2 (by omega)
  | nil =>
    intro h as
    have e1 : fillEtherType h [] = (getField h c!"et" >>= fun _ => .ok h) := by
      unfold fillEtherType
      congr 1
      funext f
      cases f.val.isSome <;> rfl
    have e2 : fillEtherTypeA h [] as = (getField h c!"et" >>= fun _ => .ok (h, as)) := by
      unfold fillEtherTypeA
      congr 1
      funext f
      cases f.val.isSome <;> rfl
    dsimp only
    rw [e1, e2]
    cases getField h c!"et" with
    | ok f =>
      refine ⟨fun h' as' hh => ?_, fun _ h' hh => ⟨as, ?_⟩⟩
      · cases hh; exact ⟨fun a ha => ha, Or.inl rfl⟩
      · cases hh; rfl
    | ub u => exact ⟨fun _ _ h => (nomatch h), fun _ _ h => (nomatch h)⟩
    | abort => exact ⟨fun _ _ h => (nomatch h), fun _ _ h => (nomatch h)⟩
    | exit c => exact ⟨fun _ _ h => (nomatch h), fun _ _ h => (nomatch h)⟩

theorem fills_proto (above : List Hdr) : FillsOrNot (fun h => fillIpv4Proto h above) (fun h as => fillIpv4ProtoA h above as) :=
  fills_field c!"proto" (fun _ => nextProto above) 1 (by omega)

theorem fills_len (above : List Hdr) : FillsOrNot (fun h => fillIpv4Len h above) (fun h as => fillIpv4LenA h above as) :=
  fills_field c!"len" (fun h => decStr (sumSizes (h :: above))) 2 (by omega)

theorem fills_next (above : List Hdr) : FillsOrNot (fun h => fillIpv6Next h above) (fun h as => fillIpv6NextA h above as) :=
  fills_field c!"next" (fun _ => nextProto above) 1 (by omega)

theorem fills_len6 (above : List Hdr) : FillsOrNot (fun h => fillIpv6Len h above) (fun h as => fillIpv6LenA h above as) :=
  fills_field c!"len" (fun _ => decStr (sumSizes above)) 2 (by omega)

/-- The full claim: if the memory does not suffice to compute a field, the frame is not built. False. -/
def C137_statement : Prop :=
  ∀ (h h' : Hdr) (above : List Hdr) (as as' : List Bool), fillIpv4A h above as = .ok (h', as') → fillIpv4 h above = .ok h'

/-- A field is computed as usual by `o`, or left as it is, the latter only if a request is refused. -/
def ComputedOrLeft (o : Out Hdr) (h h' : Hdr) (as : List Bool) : Prop := o = .ok h' ∨ (h' = h ∧ false ∈ as)

/-- **C137** (partial): the Ethernet type is computed as usual or left out. -/
theorem C137_ether_type_partial (h h' : Hdr) (above : List Hdr) (as as' : List Bool) (hh : fillEtherTypeA h above as = .ok (h', as')) :
    ComputedOrLeft (fillEtherType h above) h h' as := ((fills_et above h as).1 h' as' hh).2

/-- **C137** (partial): in an IPv4 header protocol, length and checksum are each computed as usual or left out; nothing else changes. The
checksum is that of the header as it is then. -/
theorem C137_ipv4_partial (h h' : Hdr) (above : List Hdr) (as as' : List Bool) (hh : fillIpv4A h above as = .ok (h', as')) :
    ∃ h1 h2, ComputedOrLeft (fillIpv4Proto h above) h h1 as ∧ ComputedOrLeft (fillIpv4Len h1 above) h1 h2 as ∧
      ComputedOrLeft (fillIpv4Chksum h2) h2 h' as := by
  obtain ⟨⟨h1, a1⟩, e1, hh⟩ := Out.bind_eq_ok.mp hh
  obtain ⟨⟨h2, a2⟩, e2, e3⟩ := Out.bind_eq_ok.mp hh
  obtain ⟨m1, c1⟩ := (fills_proto above h as).1 h1 a1 e1
  obtain ⟨m2, c2⟩ := (fills_len above h1 a1).1 h2 a2 e2
  obtain ⟨-, c3⟩ := (fills_chksum h2 a2).1 h' as' e3
  exact ⟨h1, h2, c1, c2.imp id (fun ⟨e, m⟩ => ⟨e, m1 _ m⟩), c3.imp id (fun ⟨e, m⟩ => ⟨e, m1 _ (m2 _ m)⟩)⟩

/-- **C137** (partial): likewise the next header and the length of an IPv6 header. -/
theorem C137_ipv6_partial (h h' : Hdr) (above : List Hdr) (as as' : List Bool) (hh : fillIpv6A h above as = .ok (h', as')) :
    ∃ h1, ComputedOrLeft (fillIpv6Next h above) h h1 as ∧ ComputedOrLeft (fillIpv6Len h1 above) h1 h' as := by
  obtain ⟨⟨h1, a1⟩, e1, e2⟩ := Out.bind_eq_ok.mp hh
  obtain ⟨m1, c1⟩ := (fills_next above h as).1 h1 a1 e1
  obtain ⟨-, c2⟩ := (fills_len6 above h1 a1).1 h' as' e2
  exact ⟨h1, c1, c2.imp id (fun ⟨e, m⟩ => ⟨e, m1 _ m⟩)⟩

/-- **C137**: with enough memory all fields are computed. -/
theorem C137_enough (h h' : Hdr) (above : List Hdr) (as : List Bool) (ha : false ∉ as) :
    (fillEtherType h above = .ok h' → ∃ as', fillEtherTypeA h above as = .ok (h', as')) ∧
    (fillIpv4 h above = .ok h' → ∃ as', fillIpv4A h above as = .ok (h', as')) ∧
    (fillIpv6 h above = .ok h' → ∃ as', fillIpv6A h above as = .ok (h', as')) := by
  refine ⟨(fills_et above h as).2 ha h', fun hh => ?_, fun hh => ?_⟩
  · obtain ⟨h1, e1, hh⟩ := Out.bind_eq_ok.mp hh
    obtain ⟨h2, e2, e3⟩ := Out.bind_eq_ok.mp hh
    obtain ⟨a1, f1⟩ := (fills_proto above h as).2 ha h1 e1
    have n1 : false ∉ a1 := fun m => ha (((fills_proto above h as).1 h1 a1 f1).1 _ m)
    obtain ⟨a2, f2⟩ := (fills_len above h1 a1).2 n1 h2 e2
    have n2 : false ∉ a2 := fun m => n1 (((fills_len above h1 a1).1 h2 a2 f2).1 _ m)
    obtain ⟨a3, f3⟩ := (fills_chksum h2 a2).2 n2 h' e3
    refine ⟨a3, ?_⟩
    dsimp only at f1 f2
    show (fillIpv4ProtoA h above as >>= _) = _
    rw [f1]
    show (fillIpv4LenA h1 above a1 >>= _) = _
    rw [f2]
    exact f3
  · obtain ⟨h1, e1, e2⟩ := Out.bind_eq_ok.mp hh
    obtain ⟨a1, f1⟩ := (fills_next above h as).2 ha h1 e1
    have n1 : false ∉ a1 := fun m => ha (((fills_next above h as).1 h1 a1 f1).1 _ m)
    obtain ⟨a2, f2⟩ := (fills_len6 above h1 a1).2 n1 h' e2
    refine ⟨a2, ?_⟩
    dsimp only at f1 f2
    show (fillIpv6NextA h above as >>= _) = _
    rw [f1]
    exact f2

/-- The bytes of an IPv4 header filled with the given answers. -/
def ipv4Bytes (as : List Bool) : Option Buf :=
  match fillIpv4A HDR_IPV4 [] as with
  | .ok (h, _) =>
    match copyHdr false h 0 (balloc 20) with
    | .ok b => some b
    | _ => none
  | _ => none

/-- Bytes 2 and 3 are the length, 9 is the protocol, 10 and 11 are the checksum. Each of them may be 0 in a frame that is sent. Without the
buffer for the checksum NULL is used. -/
theorem C137_examples :
    let fields := fun as => (ipv4Bytes as).map (fun b => (b.extract 2 4, b.extract 9 10, b.extract 10 12))
    fields [] = some ([0#8, 20#8], [17#8], [0x9b#8, 0xda#8]) ∧
    fields [false] = some ([0#8, 20#8], [0#8], [0x9b#8, 0xeb#8]) ∧
    fields [true, false] = some ([0#8, 0#8], [17#8], [0x9b#8, 0xee#8]) ∧
    fields [true, true, false] = none ∧
    fields [true, true, true, false] = some ([0#8, 20#8], [17#8], [0#8, 0#8]) := by
  decide +kernel

/-- Whether each field has a value after filling. -/
def haveValues (names : List CStr) (o : Out (Hdr × List Bool)) : Option (List Bool) :=
  match o with
  | .ok (h, _) => some (names.map (fun n => ((findField h n).bind (·.val)).isSome))
  | _ => none

/-- The requests for the fields of an IPv6 header come one after the other, and the Ethernet type has one. -/
theorem C137_left_out :
    let ipv6 := fun as => haveValues [c!"next", c!"len"] (fillIpv6A HDR_IPV6 [] as)
    let eth := fun as => haveValues [c!"et"] (fillEtherTypeA HDR_ETH [HDR_IPV6] as)
    ipv6 [true, true, false] = some [true, true] ∧ ipv6 [false] = some [false, true] ∧ ipv6 [true, false] = some [true, false] ∧
    ipv6 [false, false] = some [false, false] ∧ eth [true, false] = some [true] ∧ eth [false] = some [false] := by
  decide +kernel

/-- **C137** is false in full. -/
theorem C137_false : ¬ C137_statement := by
  intro h
  have hk : ∀ (as : List Bool) (b : Buf), ipv4Bytes as = some b → ∃ h' as', fillIpv4A HDR_IPV4 [] as = .ok (h', as') ∧
      copyHdr false h' 0 (balloc 20) = .ok b := by
    intro as b hb
    unfold ipv4Bytes at hb
    split at hb
    · rename_i h' as' e
      split at hb
      · rename_i c e'
        cases hb
        exact ⟨h', as', e, e'⟩
      · cases hb
    · cases hb
  have key : ∀ as b, ipv4Bytes as = some b → ∃ h', fillIpv4 HDR_IPV4 [] = .ok h' ∧ copyHdr false h' 0 (balloc 20) = .ok b := by
    intro as b hb
    obtain ⟨h', as', e, e'⟩ := hk as b hb
    exact ⟨h', h _ _ _ _ _ e, e'⟩
  have hne : ipv4Bytes [] ≠ ipv4Bytes [false] ∧ (ipv4Bytes []).isSome ∧ (ipv4Bytes [false]).isSome := by decide +kernel
  obtain ⟨n1, n2, n3⟩ := hne
  obtain ⟨b, hb⟩ := Option.isSome_iff_exists.mp n2
  obtain ⟨c, hc⟩ := Option.isSome_iff_exists.mp n3
  obtain ⟨h1, e1, e2⟩ := key _ _ hb
  obtain ⟨h2, e3, e4⟩ := key _ _ hc
  rw [e1] at e3
  cases e3
  rw [e2] at e4
  cases e4
  exact n1 (hb.trans hc.symm)

end Ef.Props
