import Verif.Model.Memory

/-! # Rules for computations on the heap -/

namespace Ef

/-- Apply a function to the value of a computation. -/
def Out.map {α β : Type} (g : α → β) : Out α → Out β
  | .ok a => .ok (g a)
  | .ub u => .ub u
  | .abort => .abort
  | .exit c => .exit c

@[simp] theorem Out.map_ok {α β : Type} (g : α → β) (a : α) : Out.map g (.ok a) = .ok (g a) := rfl
@[simp] theorem Out.map_ub {α β : Type} (g : α → β) (u : UB) : Out.map g (.ub u : Out α) = .ub u := rfl
@[simp] theorem Out.map_abort {α β : Type} (g : α → β) : Out.map g (.abort : Out α) = .abort := rfl
@[simp] theorem Out.map_exit {α β : Type} (g : α → β) (c : Int) : Out.map g (.exit c : Out α) = .exit c := rfl

/-- The live blocks are those of `L` and the lost ones. -/
def Has (L : List Ptr) (hp : Heap) : Prop := ∀ p, hp.live.count p = L.count p + (hp.lost.map (·.1)).count p

/-- `m` takes the blocks `L` and leaves the blocks `own a` of its result `a`; the blocks `F` stay. Whatever the
outcome, no block is used or released that is not live, and the blocks `F` are live. Without the pointers the outcome
is `o`. -/
def Tri {α β : Type} (L F : List Ptr) (m : Mem α) (e : α → β) (o : Out β) (own : α → List Ptr) : Prop :=
  ∀ hp, hp.bad = false → Has (L ++ F) hp →
    Out.map e (m hp).1 = o ∧ (m hp).2.bad = false ∧ (∀ p, F.count p ≤ (m hp).2.live.count p) ∧
      ∀ a, (m hp).1 = .ok a → Has (own a ++ F) (m hp).2

theorem Has.congr {L L' : List Ptr} {hp : Heap} (h : Has L hp) (c : ∀ p, L'.count p = L.count p) : Has L' hp := by
  intro p
  rw [c p]
  exact h p

theorem Has.mem {L : List Ptr} {hp : Heap} (h : Has L hp) {p : Ptr} (hm : p ∈ L) : p ∈ hp.live := by
  have h1 := h p
  have h2 := List.count_pos_iff.2 hm
  exact List.count_pos_iff.1 (by omega)

theorem Has.le {L F : List Ptr} {hp : Heap} (h : Has (L ++ F) hp) (p : Ptr) : F.count p ≤ hp.live.count p := by
  have h1 := h p
  rw [List.count_append] at h1
  omega

theorem Tri.pure {α β : Type} {L F : List Ptr} {e : α → β} {own : α → List Ptr} {a : α} {b : β}
    (hb : e a = b) (hc : ∀ p, (own a).count p = L.count p) : Tri L F (Pure.pure a) e (.ok b) own := by
  intro hp hbad hh
  refine ⟨congrArg Out.ok hb, hbad, fun p => hh.le p, fun a' ha => ?_⟩
  cases ha
  exact hh.congr (fun p => by simp [List.count_append, hc])

theorem Tri.lift {α : Type} {L F : List Ptr} (o : Out α) : Tri L F (lift o) id o (fun _ => L) := by
  intro hp hbad hh
  refine ⟨?_, hbad, fun p => hh.le p, fun _ _ => hh⟩
  show Out.map id o = o
  cases o <;> rfl

/-- A computation that certainly does not end normally. -/
theorem Tri.fail {α β : Type} {L F : List Ptr} {e : α → β} {own : α → List Ptr} (o : Out α) (o' : Out β)
    (ho : ∀ a, o ≠ .ok a) (he : Out.map e o = o') : Tri L F (Ef.lift o) e o' own := by
  intro hp hbad hh
  exact ⟨he, hbad, fun p => hh.le p, fun a ha => absurd ha (ho a)⟩

theorem Tri.bind {α β α' β' : Type} {L F : List Ptr} (L1 R : List Ptr) {m : Mem α} {e : α → β} {o : Out β}
    {own : α → List Ptr} {k : α → Mem α'} {e' : α' → β'} {k' : β → Out β'} {own' : α' → List Ptr}
    (h1 : Tri L1 (R ++ F) m e o own) (hs : ∀ p, L.count p = L1.count p + R.count p)
    (h2 : ∀ a, o = .ok (e a) → Tri (own a ++ R) F (k a) e' (k' (e a)) own') :
    Tri L F (m >>= k) e' (o >>= k') own' := by
  intro hp hbad hh
  have hh1 : Has (L1 ++ (R ++ F)) hp := hh.congr (fun p => by simp [List.count_append, hs]; omega)
  obtain ⟨ho, hb, hf, hq⟩ := h1 hp hbad hh1
  have hbind : (m >>= k) hp = Mem.bind m k hp := rfl
  rw [hbind]
  unfold Mem.bind
  generalize hm : m hp = r at ho hb hf hq
  obtain ⟨v, hp'⟩ := r
  have hf' : ∀ p, F.count p ≤ hp'.live.count p := fun p => by
    have := hf p
    rw [List.count_append] at this
    have : R.count p + F.count p ≤ hp'.live.count p := this
    omega
  cases v with
  | ok a =>
    have ho' : o = .ok (e a) := ho.symm
    have := h2 a ho' hp' hb ((hq a rfl).congr (fun p => by simp [List.count_append]))
    rw [ho']
    exact this
  | ub u => exact ⟨by rw [← ho]; rfl, hb, hf', fun a ha => by cases ha⟩
  | abort => exact ⟨by rw [← ho]; rfl, hb, hf', fun a ha => by cases ha⟩
  | exit c => exact ⟨by rw [← ho]; rfl, hb, hf', fun a ha => by cases ha⟩

/-- A step that is not in the model without pointers. -/
theorem Tri.step {α α' β' : Type} {L F : List Ptr} (L1 R : List Ptr) {m : Mem α} {own : α → List Ptr}
    {k : α → Mem α'} {e' : α' → β'} {o' : Out β'} {own' : α' → List Ptr}
    (h1 : Tri L1 (R ++ F) m (fun _ => ()) (.ok ()) own) (hs : ∀ p, L.count p = L1.count p + R.count p)
    (h2 : ∀ a, Tri (own a ++ R) F (k a) e' o' own') : Tri L F (m >>= k) e' o' own' :=
  Tri.bind L1 R (k' := fun _ => o') h1 hs (fun a _ => h2 a)

/-- A step whose value without pointers is known. -/
theorem Tri.stepV {α β α' β' : Type} {L F : List Ptr} (L1 R : List Ptr) {m : Mem α} {e : α → β} {b : β}
    {own : α → List Ptr} {k : α → Mem α'} {e' : α' → β'} {o' : Out β'} {own' : α' → List Ptr}
    (h1 : Tri L1 (R ++ F) m e (.ok b) own) (hs : ∀ p, L.count p = L1.count p + R.count p)
    (h2 : ∀ a, e a = b → Tri (own a ++ R) F (k a) e' o' own') : Tri L F (m >>= k) e' o' own' :=
  Tri.bind L1 R (k' := fun _ => o') h1 hs (fun a ha => h2 a (by simpa using ha.symm))

/-- Only the counts matter. -/
theorem Tri.congr {α β : Type} {L L' F : List Ptr} {m : Mem α} {e : α → β} {o : Out β} {own own' : α → List Ptr}
    (h : Tri L F m e o own) (c : ∀ p, L'.count p = L.count p) (c' : ∀ a p, (own' a).count p = (own a).count p) :
    Tri L' F m e o own' := by
  intro hp hbad hh
  obtain ⟨h1, h2, h3, h4⟩ := h hp hbad (hh.congr (fun p => by simp [List.count_append, c]))
  exact ⟨h1, h2, h3, fun a ha => (h4 a ha).congr (fun p => by simp [List.count_append, c'])⟩

/-- The blocks that only have to be there. -/
theorem Tri.frame {α β : Type} {L F : List Ptr} (L1 R : List Ptr) {m : Mem α} {e : α → β} {o : Out β}
    {own : α → List Ptr} (h : Tri L1 (R ++ F) m e o own) (hs : ∀ p, L.count p = L1.count p + R.count p) :
    Tri L F m e o (fun a => own a ++ R) := by
  intro hp hbad hh
  obtain ⟨h1, h2, h3, h4⟩ := h hp hbad (hh.congr (fun p => by simp [List.count_append, hs]; omega))
  refine ⟨h1, h2, fun p => ?_, fun a ha => (h4 a ha).congr (fun p => by simp [List.count_append])⟩
  have := h3 p
  rw [List.count_append] at this
  omega

/-- The value without pointers may be described in another way. -/
theorem Tri.conv {α β γ : Type} {L F : List Ptr} {m : Mem α} {e : α → β} {e' : α → γ} {o : Out β} {o' : Out γ}
    {own : α → List Ptr} (h : Tri L F m e o own) (g : β → γ) (hg : ∀ a, e' a = g (e a)) (ho : o' = Out.map g o) :
    Tri L F m e' o' own := by
  intro hp hbad hh
  obtain ⟨h1, h2, h3, h4⟩ := h hp hbad hh
  refine ⟨?_, h2, h3, h4⟩
  rw [ho, ← h1]
  cases (m hp).1 <;> simp [hg]

theorem Tri.alloc {L F : List Ptr} : Tri L F alloc (fun _ => ()) (.ok ()) (fun p => p :: L) := by
  intro hp hbad hh
  refine ⟨rfl, hbad, fun p => ?_, fun a ha => ?_⟩
  · have := hh.le p
    show _ ≤ (hp.next :: hp.live).count p
    rw [List.count_cons]
    omega
  · cases ha
    intro p
    have := hh p
    show (hp.next :: hp.live).count p = _ + (hp.lost.map (·.1)).count p
    simp only [List.cons_append, List.count_cons]
    rw [this]
    omega

theorem Tri.free {L F : List Ptr} (p : Ptr) : Tri (p :: L) F (free p) (fun _ => ()) (.ok ()) (fun _ => L) := by
  intro hp hbad hh
  have hm : p ∈ hp.live := hh.mem (by simp)
  have he : Ef.free p hp = (.ok (), { hp with live := hp.live.erase p }) := by simp [Ef.free, hm]
  rw [he]
  have hc : ∀ q, (hp.live.erase p).count q = (L ++ F).count q + (hp.lost.map (·.1)).count q := by
    intro q
    have h1 := hh q
    simp only [List.cons_append, List.count_cons] at h1
    rw [List.count_erase]
    by_cases hq : p = q
    · subst hq
      simp at h1 ⊢
      omega
    · have : (p == q) = false := by simpa using hq
      simp [this] at h1
      simp [h1, hq]
  refine ⟨rfl, hbad, fun q => ?_, fun _ _ => hc⟩
  have := hc q
  rw [List.count_append] at this
  show _ ≤ (hp.live.erase p).count q
  omega

theorem Tri.use {L F : List Ptr} (p : Ptr) (hm : p ∈ L ∨ p ∈ F) :
    Tri L F (use p) (fun _ => ()) (.ok ()) (fun _ => L) := by
  intro hp hbad hh
  have hm : p ∈ hp.live := hh.mem (by simpa using hm)
  have he : Ef.use p hp = (.ok (), hp) := by simp [Ef.use, hm]
  rw [he]
  exact ⟨rfl, hbad, fun q => hh.le q, fun _ _ => hh⟩

theorem Tri.lose {L F : List Ptr} (w : Loss) (p : Ptr) :
    Tri (p :: L) F (lose w p) (fun _ => ()) (.ok ()) (fun _ => L) := by
  intro hp hbad hh
  refine ⟨rfl, hbad, fun q => hh.le q, fun _ _ => fun q => ?_⟩
  have := hh q
  show hp.live.count q = _ + ((p, w) :: hp.lost |>.map (·.1)).count q
  simp only [List.map_cons, List.cons_append, List.count_cons] at this ⊢
  omega

/-- Shorter forms of the rules for one step. -/
theorem Tri.useS {α' β' : Type} {L F : List Ptr} {p : Ptr} {k : Unit → Mem α'} {e' : α' → β'} {o' : Out β'}
    {own' : α' → List Ptr} (hm : p ∈ L ∨ p ∈ F) (h : Tri L F (k ()) e' o' own') : Tri L F (Ef.use p >>= k) e' o' own' :=
  Tri.step L [] (Tri.use p (by simpa using hm)) (by simp) (fun _ => by simpa using h)

theorem Tri.freeS {α' β' : Type} {L F : List Ptr} (R : List Ptr) {p : Ptr} {k : Unit → Mem α'} {e' : α' → β'}
    {o' : Out β'} {own' : α' → List Ptr} (hs : ∀ q, L.count q = (p :: R).count q) (h : Tri R F (k ()) e' o' own') :
    Tri L F (Ef.free p >>= k) e' o' own' :=
  Tri.step (p :: R) [] (Tri.free p) (by simpa using hs) (fun _ => by simpa using h)

theorem Tri.loseS {α' β' : Type} {L F : List Ptr} (R : List Ptr) {w : Loss} {p : Ptr} {k : Unit → Mem α'}
    {e' : α' → β'} {o' : Out β'} {own' : α' → List Ptr} (hs : ∀ q, L.count q = (p :: R).count q)
    (h : Tri R F (k ()) e' o' own') : Tri L F (Ef.lose w p >>= k) e' o' own' :=
  Tri.step (p :: R) [] (Tri.lose w p) (by simpa using hs) (fun _ => by simpa using h)

theorem Tri.allocS {α' β' : Type} {L F : List Ptr} {k : Ptr → Mem α'} {e' : α' → β'}
    {o' : Out β'} {own' : α' → List Ptr} (h : ∀ p, Tri (p :: L) F (k p) e' o' own') :
    Tri L F (Ef.alloc >>= k) e' o' own' :=
  Tri.step L [] Tri.alloc (by simp) (fun p => by simpa using h p)

theorem Tri.liftS {α α' β' : Type} {L F : List Ptr} {o : Out α} {k : α → Mem α'} {e' : α' → β'} {k' : α → Out β'}
    {own' : α' → List Ptr} (h : ∀ a, o = .ok a → Tri L F (k a) e' (k' a) own') :
    Tri L F (Ef.lift o >>= k) e' (o >>= k') own' :=
  Tri.bind L [] (e := id) (Tri.lift o) (by simp) (fun a ha => by simpa using h a ha)

theorem Tri.pureS {α α' β' : Type} {L F : List Ptr} {a : α} {k : α → Mem α'} {e' : α' → β'} {o' : Out β'}
    {own' : α' → List Ptr} (h : Tri L F (k a) e' o' own') : Tri L F (Pure.pure a >>= k) e' o' own' := h

theorem Tri.useAllS {α' β' : Type} {L F : List Ptr} {ps : List Ptr} {k : Unit → Mem α'} {e' : α' → β'} {o' : Out β'}
    {own' : α' → List Ptr} (hm : ∀ p ∈ ps, p ∈ L ∨ p ∈ F) (h : Tri L F (k ()) e' o' own') :
    Tri L F (useAll ps >>= k) e' o' own' := by
  have aux : ∀ ps : List Ptr, (∀ p ∈ ps, p ∈ L ∨ p ∈ F) → Tri L F (useAll ps) (fun _ => ()) (.ok ()) (fun _ => L) := by
    intro ps
    induction ps with
    | nil => intro _; exact Tri.pure rfl (by simp)
    | cons p ps ih =>
      intro hm
      exact Tri.useS (hm p (by simp)) (ih (fun q hq => hm q (by simp [hq])))
  exact Tri.step L [] (by simpa using aux ps hm) (by simp) (fun _ => by simpa using h)

theorem Tri.freeAll {F : List Ptr} (ps : List Ptr) : Tri ps F (freeAll ps) (fun _ => ()) (.ok ()) (fun _ => []) := by
  induction ps with
  | nil => exact Tri.pure rfl (by simp)
  | cons p ps ih => exact Tri.freeS ps (by simp) ih

theorem Tri.loseAll {F : List Ptr} (w : Loss) (ps : List Ptr) :
    Tri ps F (loseAll w ps) (fun _ => ()) (.ok ()) (fun _ => []) := by
  induction ps with
  | nil => exact Tri.pure rfl (by simp)
  | cons p ps ih => exact Tri.loseS ps (by simp) ih

/-- Sequencing with a computation without result that releases its blocks. -/
theorem Tri.dropS {α' β' : Type} {L F : List Ptr} (L1 R : List Ptr) {m : Mem Unit} {k : Unit → Mem α'}
    {e' : α' → β'} {o' : Out β'} {own' : α' → List Ptr}
    (h1 : Tri L1 (R ++ F) m (fun _ => ()) (.ok ()) (fun _ => []))
    (hs : ∀ p, L.count p = L1.count p + R.count p) (h2 : Tri R F (k ()) e' o' own') :
    Tri L F (m >>= k) e' o' own' :=
  Tri.step L1 R h1 hs (fun _ => by simpa using h2)

theorem ownBuf_none : ownBuf none = [] := rfl
theorem ownBuf_some (b : PBuf) : ownBuf (some b) = [b.ptr] := rfl
theorem ownFrame_none : ownFrame none = [] := rfl
theorem ownFrame_some (f : PFrame) : ownFrame (some f) = f.own := rfl

/-- Comparison of the numbers of occurrences in lists of blocks. -/
macro "cnt" : tactic => `(tactic| (
  intros
  try simp only [List.count_append, List.count_cons, List.count_nil, List.append_assoc, List.nil_append,
    List.append_nil, List.cons_append, Option.toList, ownBuf_none, ownBuf_some, PField.own, ownFields, PHdr.own, ownHdrs, PFrame.own,
    ownFrame_none, ownFrame_some, PCmd.own, ownCmds, ownCaps, PTmpls.own] at *
  try omega))

theorem Out.bind_ok {α : Type} (o : Out α) : (o >>= Out.ok) = o := by cases o <;> rfl

theorem Out.bind_pure' {α β : Type} (o : Out α) (g : α → β) : (o >>= fun a => Out.ok (g a)) = Out.map g o := by
  cases o <;> rfl

/-! ## Buffers -/

theorem tri_balloc {F : List Ptr} (b : Buf) : Tri [] F (ballocM b) (·.data) (.ok b) (fun x => [x.ptr]) :=
  Tri.allocS (fun _ => Tri.pure rfl (by cnt))

theorem tri_newBuf {F : List Ptr} (b : Option Buf) :
    Tri [] F (newBuf b) (Option.map (·.data)) (.ok b) ownBuf := by
  cases b with
  | none => exact Tri.pure rfl (by cnt)
  | some b =>
    exact Tri.stepV [] [] (tri_balloc b) (by cnt) (fun a ha => Tri.pure (by simp [ha]) (by cnt))

theorem tri_bfree {F : List Ptr} (b : Option PBuf) :
    Tri (ownBuf b) F (bfreeM b) (fun _ => ()) (.ok ()) (fun _ => []) := by
  cases b with
  | none => exact Tri.pure rfl (by cnt)
  | some b => exact Tri.free b.ptr

theorem tri_bclone {F : List Ptr} (b : Option PBuf) (hb : ∀ p ∈ ownBuf b, p ∈ F) :
    Tri [] F (bcloneM b) (Option.map (·.data)) (.ok (b.map (·.data))) ownBuf := by
  cases b with
  | none => exact Tri.pure rfl (by cnt)
  | some b =>
    refine Tri.useS (.inr (hb _ (by simp [ownBuf]))) ?_
    exact Tri.stepV [] [] (tri_balloc b.data) (by cnt) (fun a ha => Tri.pure (by simp [ha]) (by cnt))

theorem tri_parseBytes {F : List Ptr} (s : CStr) (n : Nat) :
    Tri [] F (parseBytesM s n) (Option.map (·.data)) (parseBytes s n) ownBuf := by
  rw [← Out.bind_ok (parseBytes s n)]
  exact Tri.liftS (fun a _ => tri_newBuf a)

theorem tri_parseVarBytesHex {F : List Ptr} (s : CStr) (n : Nat) :
    Tri [] F (parseVarBytesHexM s n) (Option.map (·.data)) (parseVarBytesHex s n) ownBuf := by
  rw [← Out.bind_ok (parseVarBytesHex s n)]
  exact Tri.liftS (fun a _ => tri_newBuf a)

theorem tri_parseFieldHex {F : List Ptr} (s : CStr) (n : Nat) :
    Tri [] F (parseFieldHexM s n) (Option.map (·.data)) (parseFieldHex s n) ownBuf := by
  unfold parseFieldHexM parseFieldHex
  refine Tri.stepV [] [] (tri_balloc _) (by cnt) (fun r hr => ?_)
  refine Tri.bind [] [r.ptr] (tri_parseVarBytesHex s 0) (by cnt) (fun b hb => ?_)
  cases b with
  | none => exact Tri.freeS [] (by cnt) (Tri.pure rfl (by cnt))
  | some b =>
    simp only [Option.map]
    split
    · exact Tri.loseS [r.ptr] (by cnt) (Tri.loseS [] (by cnt) (Tri.pure rfl (by cnt)))
    · refine Tri.useS (.inl (by simp)) (Tri.useS (.inl (by simp [ownBuf])) ?_)
      split
      · exact Tri.liftS (k' := fun x => .ok (some x)) (fun a ha => by cases ha)
      · exact Tri.liftS (k' := fun x => .ok (some x)) (fun a ha => Tri.freeS [r.ptr] (by cnt)
          (Tri.pure rfl (by cnt)))

theorem tri_parseUint8 {F : List Ptr} (s : CStr) : Tri [] F (parseUint8M s) id (parseUint8 s) (fun _ => []) := by
  unfold parseUint8M parseUint8
  refine Tri.bind [] [] (tri_parseBytes s 1) (by cnt) (fun b hb => ?_)
  cases b with
  | none => exact Tri.pure rfl (by cnt)
  | some b =>
    refine Tri.useS (.inl (by simp [ownBuf])) ?_
    obtain ⟨q, d⟩ := b
    cases d with
    | nil => exact Tri.liftS (o := .ub .oobRead) (k' := fun x => .ok (some x)) (fun a ha => by cases ha)
    | cons x d =>
      exact Tri.liftS (k' := fun x => .ok (some x)) (fun a ha => Tri.freeS [] (by cnt) (Tri.pure rfl (by cnt)))

theorem tri_parseUint32 {F : List Ptr} (s : CStr) : Tri [] F (parseUint32M s) id (parseUint32 s) (fun _ => []) := by
  unfold parseUint32M parseUint32
  refine Tri.bind [] [] (tri_parseBytes s 4) (by cnt) (fun b hb => ?_)
  cases b with
  | none => exact Tri.pure rfl (by cnt)
  | some b =>
    refine Tri.useS (.inl (by simp [ownBuf])) ?_
    obtain ⟨q, d⟩ := b
    match d with
    | _ :: _ :: _ :: _ :: _ =>
      exact Tri.liftS (k' := fun x => .ok (some x)) (fun a ha => Tri.freeS [] (by cnt) (Tri.pure rfl (by cnt)))
    | [] => exact Tri.liftS (o := .ub .oobRead) (k' := fun x => .ok (some x)) (fun a ha => by cases ha)
    | [_] => exact Tri.liftS (o := .ub .oobRead) (k' := fun x => .ok (some x)) (fun a ha => by cases ha)
    | [_, _] => exact Tri.liftS (o := .ub .oobRead) (k' := fun x => .ok (some x)) (fun a ha => by cases ha)
    | [_, _, _] => exact Tri.liftS (o := .ub .oobRead) (k' := fun x => .ok (some x)) (fun a ha => by cases ha)

theorem tri_repeat {F : List Ptr} (c v : CStr) :
    Tri [] F (parseVarBytesRepeatM c v) (Option.map (·.data)) (parseVarBytesRepeat c v) ownBuf := by
  unfold parseVarBytesRepeatM parseVarBytesRepeat
  refine Tri.bind [] [] (tri_parseUint32 c) (by cnt) (fun n hn => ?_)
  cases n with
  | none => exact Tri.pure rfl (by cnt)
  | some n =>
    refine Tri.bind [] [] (tri_parseUint8 v) (by cnt) (fun v hv => ?_)
    cases v with
    | none => exact Tri.pure rfl (by cnt)
    | some v => exact tri_newBuf _

theorem tri_pattern {F : List Ptr} (pat len : CStr) :
    Tri [] F (parseVarBytesPatternM pat len) (Option.map (·.data)) (parseVarBytesPattern pat len) ownBuf := by
  unfold parseVarBytesPatternM parseVarBytesPattern
  refine Tri.bind [] [] (tri_parseUint32 len) (by cnt) (fun n hn => ?_)
  cases n with
  | none => exact Tri.pure rfl (by cnt)
  | some n =>
    refine Tri.stepV [] [] (tri_balloc _) (by cnt) (fun b hb => ?_)
    refine Tri.useS (.inl (by simp)) ?_
    simp only [id]
    split
    · exact Tri.pure rfl (by cnt)
    · split
      · exact Tri.pure rfl (by cnt)
      · split
        · exact Tri.pure rfl (by cnt)
        · exact Tri.freeS [] (by cnt) (Tri.pure rfl (by cnt))

/-- A segment as a value. -/
def PSeg.erase : PSeg → Seg
  | .err => .err
  | .stop => .stop
  | .seg b n => .seg b.data n

/-- Blocks of a segment. -/
def PSeg.own : PSeg → List Ptr
  | .err => []
  | .stop => []
  | .seg b _ => [b.ptr]

theorem seg_erase (n : Nat) (b : Option PBuf) : (PSeg.ofOpt n b).erase = Seg.ofOpt n (b.map (·.data)) := by
  cases b <;> rfl

theorem seg_own (n : Nat) (b : Option PBuf) : (PSeg.ofOpt n b).own = ownBuf b := by
  cases b <;> rfl

theorem tri_varBytes1 {F : List Ptr} (argv : List CStr) :
    Tri [] F (parseVarBytes1M argv) PSeg.erase (parseVarBytes1 argv) PSeg.own := by
  have hofOpt : ∀ {m : Mem (Option PBuf)} {o : Out (Option Buf)} (n : Nat),
      Tri [] F m (Option.map (·.data)) o ownBuf →
      Tri [] F (m >>= fun b => Pure.pure (PSeg.ofOpt n b)) PSeg.erase (o >>= fun b => .ok (Seg.ofOpt n b)) PSeg.own := by
    intro m o n h
    refine Tri.bind [] [] (by simpa using h) (by cnt) (fun b _ => Tri.pure (seg_erase n b) ?_)
    simp [seg_own]
  unfold parseVarBytes1M parseVarBytes1
  cases argv with
  | nil => exact Tri.pure rfl (by simp [PSeg.own])
  | cons w rest =>
    simp only
    split
    · exact Tri.pure rfl (by simp [PSeg.own])
    split
    · cases rest with
      | nil => exact Tri.pure rfl (by simp [PSeg.own])
      | cons a r => exact hofOpt 2 (tri_parseVarBytesHex a 0)
    split
    · cases rest with
      | nil => exact Tri.pure rfl (by simp [PSeg.own])
      | cons a r =>
        exact Tri.stepV [] [] (tri_balloc _) (by cnt) (fun b hb => Tri.pure (by simp [PSeg.erase, hb]) (by simp [PSeg.own]))
    split
    · cases rest with
      | nil => exact Tri.pure rfl (by simp [PSeg.own])
      | cons a r =>
        exact Tri.stepV [] [] (tri_balloc _) (by cnt) (fun b hb => Tri.pure (by simp [PSeg.erase, hb]) (by simp [PSeg.own]))
    split
    · match rest with
      | [] => exact Tri.pure rfl (by simp [PSeg.own])
      | [_] => exact Tri.pure rfl (by simp [PSeg.own])
      | a :: b :: _ => exact hofOpt 3 (tri_repeat a b)
    split
    · match rest with
      | [] => exact Tri.pure rfl (by simp [PSeg.own])
      | [_] => exact Tri.pure rfl (by simp [PSeg.own])
      | a :: b :: _ => exact hofOpt 3 (tri_pattern a b)
    · exact Tri.pure rfl (by simp [PSeg.own])

theorem tri_join {F : List Ptr} (acc : Option PBuf) (b : PBuf) :
    Tri (ownBuf acc ++ [b.ptr]) F (joinM acc b) (·.data)
      (.ok (match acc.map (·.data) with | some r => r ++ b.data | none => b.data)) (fun x => [x.ptr]) := by
  cases acc with
  | none => exact Tri.pure rfl (by cnt)
  | some r =>
    refine Tri.stepV [] [r.ptr, b.ptr] (tri_balloc _) (by cnt) (fun n hn => ?_)
    refine Tri.useS (.inl (by simp)) (Tri.useS (.inl (by simp)) ?_)
    refine Tri.freeS [n.ptr, b.ptr] (by cnt) (Tri.freeS [n.ptr] (by cnt) (Tri.pure hn (by cnt)))

/-- Result of `parse_var_bytes` as a value. -/
def eraseVar (x : Option (Nat × Option PBuf)) : Option (Nat × Option Buf) :=
  x.map (fun p => (p.1, p.2.map (·.data)))

/-- Blocks of the result of `parse_var_bytes`. -/
def ownVar : Option (Nat × Option PBuf) → List Ptr
  | none => []
  | some (_, b) => ownBuf b

theorem tri_varBytesLoop {F : List Ptr} (fuel : Nat) (argv : List CStr) (i : Nat) (acc : Option PBuf) :
    Tri (ownBuf acc) F (parseVarBytesLoopM fuel argv i acc) eraseVar
      (parseVarBytesLoop fuel argv i (acc.map (·.data))) ownVar := by
  induction fuel generalizing argv i acc with
  | zero => exact Tri.pure rfl (by simp [ownVar])
  | succ fuel ih =>
    unfold parseVarBytesLoopM parseVarBytesLoop
    split
    · exact Tri.pure rfl (by simp [ownVar])
    · refine Tri.bind [] (ownBuf acc) (tri_varBytes1 argv) (by cnt) (fun s _ => ?_)
      cases s with
      | err =>
        exact Tri.dropS (ownBuf acc) [] (tri_bfree acc) (by simp [PSeg.own]) (Tri.pure rfl (by simp [ownVar]))
      | stop => exact Tri.pure rfl (by simp [PSeg.own, ownVar])
      | seg b used =>
        refine Tri.stepV (ownBuf acc ++ [b.ptr]) [] (tri_join acc b) (by simp [PSeg.own]; cnt) (fun n hn => ?_)
        have := ih (argv.drop used) (i + used) (some n)
        refine (Tri.congr ?_ (L := ownBuf (some n)) (by cnt) (fun _ _ => rfl))
        cases acc with
        | none =>
          have hn : n.data = b.data := hn
          rw [show Option.map (·.data) (some n) = some b.data by simp [hn]] at this
          exact this
        | some r =>
          have hn : n.data = r.data ++ b.data := hn
          rw [show Option.map (·.data) (some n) = some (r.data ++ b.data) by simp [hn]] at this
          exact this

theorem tri_varBytes {F : List Ptr} (argv : List CStr) :
    Tri [] F (parseVarBytesM argv) eraseVar (parseVarBytes argv) ownVar :=
  tri_varBytesLoop argv.length argv 0 none

end Ef
