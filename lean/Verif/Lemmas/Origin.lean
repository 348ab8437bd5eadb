import Verif.Lemmas.ExecGroup
import Verif.Spec.Origin

/-!
# Every event comes from a command
-/

namespace Ef

open Spec

/-- A command as given, apart from what has been done with it. -/
structure SameAs (c d : Cmd) : Prop where
  type : c.type = d.type
  name : c.name = d.name
  arg0 : c.arg0 = d.arg0
  frame : c.frame = d.frame
  buf : c.buf = d.buf
  mask : c.mask = d.mask

theorem SameAs.rfl {c : Cmd} : SameAs c c := ⟨Eq.refl _, Eq.refl _, Eq.refl _, Eq.refl _, Eq.refl _, Eq.refl _⟩

/-- All commands of the resource are commands of an interface among `cs`. -/
def AmongRes (cs : List Cmd) (r : Resource) : Prop := ∀ c ∈ r.cmds, (c.type = .rx ∨ c.type = .tx) ∧ ∃ d ∈ cs, SameAs c d

/-- The command that an event comes from. -/
def CameFrom (cs : List Cmd) : Event → Prop
  | .named n b m => ∃ d ∈ cs, d.type = .name ∧ d.name = some n ∧ d.buf = some b ∧ d.mask = m
  | .pcap file b => ∃ d ∈ cs, d.type = .pcap ∧ d.arg0 = some file ∧ d.buf = some b
  | .hex b m => ∃ d ∈ cs, d.type = .hex ∧ d.buf = some b ∧ ((d.mask = none ∧ m = none) ∨ ∃ x, d.mask = some x ∧ m = some (x.take b.length))
  | .send a b _ => ∃ d ∈ cs, d.type = .tx ∧ d.arg0 = some a ∧ d.buf = some b
  | .txDone a b n => ∃ d ∈ cs, d.type = .tx ∧ d.arg0 = some a ∧ d.buf = some b ∧ d.name = n
  | .noRx a b n m => ∃ d ∈ cs, d.type = .rx ∧ d.arg0 = some a ∧ d.buf = some b ∧ d.name = n ∧ d.mask = m
  | .rxOk a x n m => ∃ d ∈ cs, (d.type = .rx ∨ d.type = .tx) ∧ d.arg0 = some a ∧ d.name = n ∧ d.mask = m ∧
      ∃ b f, d.buf = some b ∧ d.frame = some f ∧ bequalMask (some x) (some b) m f.padding = .ok true
  | .rxErr a _ => ∃ d ∈ cs, (d.type = .rx ∨ d.type = .tx) ∧ d.arg0 = some a
  | .opened a => ∃ d ∈ cs, (d.type = .rx ∨ d.type = .tx) ∧ d.arg0 = some a
  | .noSuchName n => ∃ d ∈ cs, d.type ≠ .name ∧ d.name = some n
  | .wait _ => ∃ d ∈ cs, d.type = .rx ∨ d.type = .tx

theorem resArg0_from {cs : List Cmd} {r : Resource} (h : AmongRes cs r) {a : CStr} (e : resArg0 r = .ok a) :
    ∃ d ∈ cs, (d.type = .rx ∨ d.type = .tx) ∧ d.arg0 = some a := by
  unfold resArg0 at e
  cases hc : r.cmds with
  | nil => rw [hc] at e; simp at e
  | cons c l =>
    rw [hc] at e
    simp only at e
    obtain ⟨ht, d, hd, hs⟩ := h c (by simp [hc])
    cases ha : c.arg0 with
    | none => rw [ha] at e; simp at e
    | some x =>
      rw [ha] at e
      simp only [Out.ok.injEq] at e
      subst e
      exact ⟨d, hd, by rw [← hs.type]; exact ht, by rw [← hs.arg0]; exact ha⟩

theorem addToExisting_among {cs : List Cmd} {c : Cmd} (hc : (c.type = .rx ∨ c.type = .tx) ∧ ∃ d ∈ cs, SameAs c d) {a : CStr}
    {rs : List Resource} (h : ∀ r ∈ rs, AmongRes cs r) :
    ∀ {rs'}, addToExisting c a rs = .ok (some rs') → ∀ r ∈ rs', AmongRes cs r := by
  induction rs with
  | nil => intro rs' e; simp [addToExisting] at e
  | cons r rs ih =>
    intro rs' e
    unfold addToExisting at e
    obtain ⟨n, _, e⟩ := Out.bind_eq_ok.mp e
    split at e
    · simp only [Out.ok.injEq, Option.some.injEq] at e
      subst e
      intro x hx
      rcases List.mem_cons.mp hx with rfl | hx
      · intro d hd
        rcases List.mem_append.mp hd with hd | hd
        · exact h r (by simp) d hd
        · rw [List.mem_singleton] at hd; subst hd; exact hc
      · exact h x (by simp [hx])
    · obtain ⟨o, ho, e⟩ := Out.bind_eq_ok.mp e
      cases o with
      | none => simp at e
      | some rs1 =>
        simp only [Out.ok.injEq, Option.some.injEq] at e
        subst e
        intro x hx
        rcases List.mem_cons.mp hx with rfl | hx
        · exact h x (by simp)
        · exact ih (fun y hy => h y (by simp [hy])) ho x hx

theorem addCmd_among {cs : List Cmd} {c : Cmd} (hm : c ∈ cs) {rs rs' : List Resource} (h : ∀ r ∈ rs, AmongRes cs r)
    (e : addCmd c rs = .ok rs') : ∀ r ∈ rs', AmongRes cs r := by
  unfold addCmd at e
  split at e
  · rename_i hc
    have hcc : (c.type = .rx ∨ c.type = .tx) ∧ ∃ d ∈ cs, SameAs c d := ⟨hc, c, hm, SameAs.rfl⟩
    have app : ∀ r ∈ rs ++ [({ cmds := [c] } : Resource)], AmongRes cs r := by
      intro r hr
      rcases List.mem_append.mp hr with hr | hr
      · exact h r hr
      · rw [List.mem_singleton] at hr
        subst hr
        intro d hd
        rw [List.mem_singleton] at hd
        subst hd
        exact hcc
    cases ha : c.arg0 with
    | none =>
      rw [ha] at e
      simp only at e
      split at e
      · simp only [Out.ok.injEq] at e; subst e; exact app
      · simp at e
    | some a =>
      rw [ha] at e
      obtain ⟨o, ho, e⟩ := Out.bind_eq_ok.mp e
      cases o with
      | some rs1 =>
        simp only [Out.ok.injEq] at e; subst e
        exact addToExisting_among hcc h ho
      | none =>
        simp only at e
        split at e
        · simp only [Out.ok.injEq] at e; subst e; exact app
        · simp at e
  · simp only [Out.ok.injEq] at e; subst e; exact h

theorem mapCmds_among {all : List Cmd} (cs : List Cmd) : (∀ c ∈ cs, c ∈ all) → ∀ {rs rs' : List Resource},
    (∀ r ∈ rs, AmongRes all r) → mapCmds cs rs = .ok rs' → ∀ r ∈ rs', AmongRes all r := by
  induction cs with
  | nil => intro _ rs rs' h e; simp only [mapCmds, Out.ok.injEq] at e; subst e; exact h
  | cons c cs ih =>
    intro hm rs rs' h e
    unfold mapCmds at e
    obtain ⟨rs1, e1, e⟩ := Out.bind_eq_ok.mp e
    exact ih (fun x hx => hm x (by simp [hx])) (addCmd_among (hm c (by simp)) h e1) e

theorem openAll_from {cs : List Cmd} {o : CStr → Bool} {rs : List Resource} (h : ∀ r ∈ rs, AmongRes cs r) : ∀ {p},
    openAll o rs = .ok p → ∀ e ∈ p.1, CameFrom cs e := by
  induction rs with
  | nil => intro p e; simp only [openAll, Out.ok.injEq] at e; subst e; simp
  | cons r rs ih =>
    intro p e
    unfold openAll at e
    obtain ⟨a, ha, e⟩ := Out.bind_eq_ok.mp e
    split at e
    · obtain ⟨q, hq, e⟩ := Out.bind_eq_ok.mp e
      simp only [Out.ok.injEq] at e
      subst e
      intro x hx
      rcases List.mem_cons.mp hx with rfl | hx
      · exact resArg0_from (h r (by simp)) ha
      · exact ih (fun y hy => h y (by simp [hy])) hq x hx
    · simp only [Out.ok.injEq] at e
      subst e
      simp

theorem matchCmds_from {b : Buf} {cs : List Cmd} : ∀ {c cs'}, matchCmds b cs = .ok (some (c, cs')) →
    c ∈ cs ∧ cmdMatches b c = .ok true ∧ ∀ d ∈ cs', ∃ e ∈ cs, SameAs d e := by
  induction cs with
  | nil => intro c cs' h; simp [matchCmds] at h
  | cons x cs ih =>
    intro c cs' h
    unfold matchCmds at h
    obtain ⟨m, hm, h⟩ := Out.bind_eq_ok.mp h
    split at h
    · rename_i ht
      simp only [Out.ok.injEq, Option.some.injEq, Prod.mk.injEq] at h
      obtain ⟨rfl, rfl⟩ := h
      refine ⟨by simp, by rw [hm, ht], fun d hd => ?_⟩
      rcases List.mem_cons.mp hd with rfl | hd
      · exact ⟨x, by simp, ⟨rfl, rfl, rfl, rfl, rfl, rfl⟩⟩
      · exact ⟨d, by simp [hd], SameAs.rfl⟩
    · obtain ⟨o, ho, h⟩ := Out.bind_eq_ok.mp h
      cases o with
      | none => simp at h
      | some p =>
        obtain ⟨m', cs1⟩ := p
        simp only [Out.ok.injEq, Option.some.injEq, Prod.mk.injEq] at h
        obtain ⟨rfl, rfl⟩ := h
        obtain ⟨h1, h2, h3⟩ := ih ho
        refine ⟨by simp [h1], h2, fun d hd => ?_⟩
        rcases List.mem_cons.mp hd with rfl | hd
        · exact ⟨d, by simp, SameAs.rfl⟩
        · obtain ⟨e, he, ht⟩ := h3 d hd
          exact ⟨e, by simp [he], ht⟩

theorem SameAs.trans {a b c : Cmd} (h : SameAs a b) (g : SameAs b c) : SameAs a c :=
  ⟨h.type.trans g.type, h.name.trans g.name, h.arg0.trans g.arg0, h.frame.trans g.frame, h.buf.trans g.buf, h.mask.trans g.mask⟩

theorem among_of {all : List Cmd} {r : Resource} (h : AmongRes all r) {cs : List Cmd} (hc : ∀ d ∈ cs, ∃ e ∈ r.cmds, SameAs d e) (n : Nat) :
    AmongRes all { cmds := cs, rxErrCnt := n } := by
  intro d hd
  obtain ⟨e, he, ht⟩ := hc d hd
  obtain ⟨h1, x, hx, h2⟩ := h e he
  exact ⟨by rw [ht.type]; exact h1, x, hx, ht.trans h2⟩

theorem rxFrame_from {all : List Cmd} {cfg : Config} {r : Resource} {m : RxMsg} (h : AmongRes all r) {p} (e : rxFrame cfg r m = .ok p) :
    AmongRes all p.1 ∧ ∀ x ∈ p.2, CameFrom all x := by
  unfold rxFrame at e
  simp only at e
  split at e
  · simp only [Out.ok.injEq] at e; subst e; exact ⟨h, by simp⟩
  · obtain ⟨b, _, e⟩ := Out.bind_eq_ok.mp e
    obtain ⟨o, ho, e⟩ := Out.bind_eq_ok.mp e
    cases o with
    | none =>
      obtain ⟨a, ha, e⟩ := Out.bind_eq_ok.mp e
      simp only [Out.ok.injEq] at e
      subst e
      refine ⟨h, fun x hx => ?_⟩
      rw [List.mem_singleton] at hx
      subst hx
      exact resArg0_from h ha
    | some q =>
      obtain ⟨c, cs⟩ := q
      simp only at e
      obtain ⟨h1, h2, h3⟩ := matchCmds_from ho
      cases ha : c.arg0 with
      | none => rw [ha] at e; simp at e
      | some a =>
        rw [ha] at e
        simp only [Out.ok.injEq] at e
        subst e
        refine ⟨among_of h h3 _, fun x hx => ?_⟩
        rw [List.mem_singleton] at hx
        subst hx
        obtain ⟨ht, d, hd, hs⟩ := h c h1
        refine ⟨d, hd, by rw [← hs.type]; exact ht, by rw [← hs.arg0]; exact ha, hs.name.symm, hs.mask.symm, ?_⟩
        unfold cmdMatches at h2
        cases hb : c.buf with
        | none => rw [hb] at h2; simp at h2
        | some y =>
          rw [hb] at h2
          simp only at h2
          split at h2
          · simp at h2
          · cases hf : c.frame with
            | none => rw [hf] at h2; simp at h2
            | some f =>
              rw [hf] at h2
              exact ⟨y, f, by rw [← hs.buf]; exact hb, by rw [← hs.frame]; exact hf, h2⟩

theorem rxAll_from {all : List Cmd} {cfg : Config} {s : Step} {rs : List Resource} : ∀ {i : Nat}, (∀ r ∈ rs, AmongRes all r) → ∀ {p},
    rxAll cfg s i rs = .ok p → (∀ r ∈ p.1, AmongRes all r) ∧ ∀ x ∈ p.2, CameFrom all x := by
  induction rs with
  | nil => intro i h p e; simp only [rxAll, Out.ok.injEq] at e; subst e; simp
  | cons r rs ih =>
    intro i h p e
    unfold rxAll at e
    obtain ⟨q, hq, e⟩ := Out.bind_eq_ok.mp e
    obtain ⟨t, ht, e⟩ := Out.bind_eq_ok.mp e
    simp only [Out.ok.injEq] at e
    subst e
    have hr := h r (by simp)
    have h1 : AmongRes all q.1 ∧ ∀ x ∈ q.2, CameFrom all x := by
      unfold rxResource at hq
      split at hq
      · split at hq
        · simp only [Out.ok.injEq] at hq; subst hq; exact ⟨hr, by simp⟩
        · exact rxFrame_from hr hq
      · simp only [Out.ok.injEq] at hq; subst hq; exact ⟨hr, by simp⟩
    have h2 := ih (fun y hy => h y (by simp [hy])) ht
    constructor
    · intro x hx
      rcases List.mem_cons.mp hx with rfl | hx
      · exact h1.1
      · exact h2.1 x hx
    · intro x hx
      rcases List.mem_append.mp hx with hx | hx
      · exact h1.2 x hx
      · exact h2.2 x hx

theorem txOne_from {all : List Cmd} {c d : Cmd} {b : Buf} {a : CStr} (res : Int) (hd : d ∈ all) (ht : d.type = .tx) (hs : SameAs c d)
    (hb : c.buf = some b) (ha : c.arg0 = some a) :
    SameAs (txOne c b a res).1 c ∧ ∀ x ∈ (txOne c b a res).2.1, CameFrom all x := by
  have s1 : CameFrom all (.send a b res) := ⟨d, hd, ht, by rw [← hs.arg0]; exact ha, by rw [← hs.buf]; exact hb⟩
  have s2 : CameFrom all (.txDone a b c.name) :=
    ⟨d, hd, ht, by rw [← hs.arg0]; exact ha, by rw [← hs.buf]; exact hb, hs.name.symm⟩
  unfold txOne
  by_cases h : res = (b.length : Int) ∧ u32Sub c.rep 1 = 0
  · simp only [if_pos h]
    refine ⟨⟨rfl, rfl, rfl, rfl, rfl, rfl⟩, fun x hx => ?_⟩
    simp only [List.mem_cons, List.not_mem_nil, or_false] at hx
    rcases hx with rfl | rfl
    · exact s1
    · exact s2
  · simp only [if_neg h]
    refine ⟨⟨rfl, rfl, rfl, rfl, rfl, rfl⟩, fun x hx => ?_⟩
    simp only [List.mem_cons, List.not_mem_nil, or_false] at hx
    subst hx
    exact s1

theorem txFirst_from {all : List Cmd} {res : Int} {cs : List Cmd} (h : ∀ c ∈ cs, ∃ d ∈ all, SameAs c d) : ∀ {p},
    txFirst res cs = .ok (some p) → (∀ d ∈ p.1, ∃ e ∈ cs, SameAs d e) ∧ ∀ x ∈ p.2.1, CameFrom all x := by
  induction cs with
  | nil => intro p h; simp [txFirst] at h
  | cons c cs ih =>
    intro p e
    unfold txFirst at e
    split at e
    · rename_i ht
      cases hb : c.buf with
      | none => rw [hb] at e; simp at e
      | some b =>
        cases ha : c.arg0 with
        | none => rw [hb, ha] at e; simp at e
        | some a =>
          rw [hb, ha] at e
          simp only [Out.ok.injEq, Option.some.injEq] at e
          subst e
          obtain ⟨d, hd, hs⟩ := h c (by simp)
          obtain ⟨t1, t2⟩ := txOne_from res hd (by rw [← hs.type]; exact ht.1) hs hb ha
          refine ⟨fun x hx => ?_, t2⟩
          rcases List.mem_cons.mp hx with rfl | hx
          · exact ⟨c, by simp, t1⟩
          · exact ⟨x, by simp [hx], SameAs.rfl⟩
    · obtain ⟨o, ho, e⟩ := Out.bind_eq_ok.mp e
      cases o with
      | none => simp at e
      | some q =>
        simp only [Out.ok.injEq, Option.some.injEq] at e
        subst e
        obtain ⟨h1, h2⟩ := ih (fun x hx => h x (by simp [hx])) ho
        refine ⟨fun x hx => ?_, h2⟩
        rcases List.mem_cons.mp hx with rfl | hx
        · exact ⟨x, by simp, SameAs.rfl⟩
        · obtain ⟨y, hy, hs⟩ := h1 x hx
          exact ⟨y, by simp [hy], hs⟩

theorem txRound_from {all : List Cmd} {w : Nat → Bool} {send : Nat → Int} {rs : List Resource} : ∀ {i k : Nat},
    (∀ r ∈ rs, AmongRes all r) → ∀ {p}, txRound w send i k rs = .ok p →
    (∀ r ∈ p.1, AmongRes all r) ∧ ∀ x ∈ p.2.2.1, CameFrom all x := by
  induction rs with
  | nil => intro i k h p e; simp only [txRound, Out.ok.injEq] at e; subst e; simp
  | cons r rs ih =>
    intro i k h p e
    unfold txRound at e
    have hr := h r (by simp)
    have hrs : ∀ x ∈ rs, AmongRes all x := fun x hx => h x (by simp [hx])
    have cons : ∀ {a : Resource} {l : List Resource}, AmongRes all a → (∀ x ∈ l, AmongRes all x) → ∀ x ∈ a :: l, AmongRes all x := by
      intro a l ha hl x hx
      rcases List.mem_cons.mp hx with rfl | hx
      · exact ha
      · exact hl x hx
    split at e
    · obtain ⟨o, ho, e⟩ := Out.bind_eq_ok.mp e
      cases o with
      | none =>
        obtain ⟨q, hq, e⟩ := Out.bind_eq_ok.mp e
        simp only [Out.ok.injEq] at e
        subst e
        obtain ⟨h1, h2⟩ := ih hrs hq
        exact ⟨cons hr h1, h2⟩
      | some t =>
        obtain ⟨q, hq, e⟩ := Out.bind_eq_ok.mp e
        simp only [Out.ok.injEq] at e
        subst e
        obtain ⟨h1, h2⟩ := ih hrs hq
        obtain ⟨g1, g2⟩ := txFirst_from (fun c hc => (hr c hc).2) ho
        refine ⟨cons (among_of hr g1 _) h1, fun x hx => ?_⟩
        rcases List.mem_append.mp hx with hx | hx
        · exact g2 x hx
        · exact h2 x hx
    · obtain ⟨q, hq, e⟩ := Out.bind_eq_ok.mp e
      simp only [Out.ok.injEq] at e
      subst e
      obtain ⟨h1, h2⟩ := ih hrs hq
      exact ⟨cons hr h1, h2⟩

theorem txLoop_from {all : List Cmd} {w : Nat → Bool} {send : Nat → Int} {fuel : Nat} : ∀ {k : Nat} {rs : List Resource},
    (∀ r ∈ rs, AmongRes all r) → ∀ {p}, txLoop w send fuel k rs = .ok p →
    (∀ r ∈ p.2.1, AmongRes all r) ∧ ∀ x ∈ p.2.2, CameFrom all x := by
  induction fuel with
  | zero => intro k rs h p e; simp only [txLoop, Out.ok.injEq] at e; subst e; exact ⟨h, by simp⟩
  | succ fuel ih =>
    intro k rs h p e
    unfold txLoop at e
    obtain ⟨⟨rs1, k1, es1, m⟩, hq, e⟩ := Out.bind_eq_ok.mp e
    obtain ⟨g1, g2⟩ := txRound_from h hq
    simp only at e
    split at e
    · obtain ⟨t, ht, e⟩ := Out.bind_eq_ok.mp e
      simp only [Out.ok.injEq] at e
      subst e
      obtain ⟨h1, h2⟩ := ih g1 ht
      refine ⟨h1, fun x hx => ?_⟩
      rcases List.mem_append.mp hx with hx | hx
      · exact g2 x hx
      · exact h2 x hx
    · simp only [Out.ok.injEq] at e
      subst e
      exact ⟨g1, g2⟩

theorem process_from {all : List Cmd} {cfg : Config} {fuel : Nat} {s : Step} {rs : List Resource} (h : ∀ r ∈ rs, AmongRes all r) {p}
    (e : process cfg fuel s rs = .ok p) : (∀ r ∈ p.2.1, AmongRes all r) ∧ ∀ x ∈ p.2.2, CameFrom all x := by
  unfold process at e
  obtain ⟨q, hq, e⟩ := Out.bind_eq_ok.mp e
  obtain ⟨t, ht, e⟩ := Out.bind_eq_ok.mp e
  simp only [Out.ok.injEq] at e
  subst e
  obtain ⟨h1, h2⟩ := rxAll_from h hq
  obtain ⟨g1, g2⟩ := txLoop_from h1 ht
  refine ⟨g1, fun x hx => ?_⟩
  rcases List.mem_append.mp hx with hx | hx
  · exact h2 x hx
  · exact g2 x hx

theorem wantsIo_some {all : List Cmd} {rs : List Resource} (h : ∀ r ∈ rs, AmongRes all r) (hw : wantsIo rs = true) :
    ∃ d ∈ all, d.type = .rx ∨ d.type = .tx := by
  unfold wantsIo at hw
  rw [List.any_eq_true] at hw
  obtain ⟨r, hr, hw⟩ := hw
  have : ∃ c, c ∈ r.cmds := by
    unfold hasRx hasTx at hw
    rw [Bool.or_eq_true, List.any_eq_true, List.any_eq_true] at hw
    rcases hw with ⟨c, hc, _⟩ | ⟨c, hc, _⟩ <;> exact ⟨c, hc⟩
  obtain ⟨c, hc⟩ := this
  obtain ⟨ht, d, hd, hs⟩ := h r hr c hc
  exact ⟨d, hd, by rw [← hs.type]; exact ht⟩

theorem mainLoop_from {all : List Cmd} {cfg : Config} {fuel : Nat} {tend : TimeVal} {hist : List Step} :
    ∀ {left : TimeVal} {rs : List Resource}, (∀ r ∈ rs, AmongRes all r) → ∀ {p}, mainLoop cfg fuel tend hist left rs = .ok p →
    (∀ r ∈ p.2.1, AmongRes all r) ∧ ∀ x ∈ p.2.2, CameFrom all x := by
  have one : ∀ {rs : List Resource}, (∀ r ∈ rs, AmongRes all r) → ¬ (¬ wantsIo rs = true) → ∀ left, CameFrom all (.wait left) := by
    intro rs h hw left
    exact wantsIo_some h (Decidable.not_not.mp hw)
  induction hist with
  | nil =>
    intro left rs h p e
    unfold mainLoop at e
    split at e
    · simp only [Out.ok.injEq] at e; subst e; exact ⟨h, by simp⟩
    · rename_i hw
      simp only [Out.ok.injEq] at e
      subst e
      refine ⟨h, fun x hx => ?_⟩
      rw [List.mem_singleton] at hx
      subst hx
      exact one h hw _
  | cons s hist ih =>
    intro left rs h p e
    unfold mainLoop at e
    split at e
    · simp only [Out.ok.injEq] at e; subst e; exact ⟨h, by simp⟩
    · rename_i hw
      have w1 := one h hw left
      have single : ∀ x ∈ [Event.wait left], CameFrom all x := by
        intro x hx
        rw [List.mem_singleton] at hx
        subst hx
        exact w1
      simp only at e
      split at e
      · simp only [Out.ok.injEq] at e; subst e; exact ⟨h, single⟩
      · split at e
        · simp only [Out.ok.injEq] at e; subst e; exact ⟨h, single⟩
        · obtain ⟨⟨fin, rs1, es⟩, hq, e⟩ := Out.bind_eq_ok.mp e
          obtain ⟨g1, g2⟩ := process_from h hq
          simp only at e
          split at e
          · obtain ⟨t, ht, e⟩ := Out.bind_eq_ok.mp e
            simp only [Out.ok.injEq] at e
            subst e
            obtain ⟨h1, h2⟩ := ih g1 ht
            refine ⟨h1, fun x hx => ?_⟩
            rcases List.mem_cons.mp hx with rfl | hx
            · exact w1
            · rcases List.mem_append.mp hx with hx | hx
              · exact g2 x hx
              · exact h2 x hx
          · simp only [Out.ok.injEq] at e
            subst e
            refine ⟨g1, fun x hx => ?_⟩
            rcases List.mem_cons.mp hx with rfl | hx
            · exact w1
            · exact g2 x hx

theorem checkResults_from {all : List Cmd} {rs : List Resource} (h : ∀ r ∈ rs, AmongRes all r) : ∀ x ∈ (checkResults rs).2, CameFrom all x := by
  induction rs with
  | nil => simp [checkResults]
  | cons r rs ih =>
    intro x hx
    simp only [checkResults] at hx
    rcases List.mem_append.mp hx with hx | hx
    · obtain ⟨c, hc, hx⟩ := List.mem_flatMap.mp hx
      unfold missing at hc
      obtain ⟨hc, ht⟩ := List.mem_filter.mp hc
      simp only [Bool.and_eq_true, beq_iff_eq] at ht
      obtain ⟨_, d, hd, hs⟩ := h r (by simp) c hc
      unfold noRxEvent at hx
      cases ha : c.arg0 with
      | none => rw [ha] at hx; simp at hx
      | some a =>
        cases hb : c.buf with
        | none => rw [ha, hb] at hx; simp at hx
        | some b =>
          rw [ha, hb] at hx
          simp only [List.mem_singleton] at hx
          subst hx
          exact ⟨d, hd, by rw [← hs.type]; exact ht.1.1, by rw [← hs.arg0]; exact ha, by rw [← hs.buf]; exact hb, hs.name.symm, hs.mask.symm⟩
    · exact ih (fun y hy => h y (by simp [hy])) x hx

theorem pcapEvents_from {all : List Cmd} {cs : List Cmd} (hm : ∀ c ∈ cs, c ∈ all) : ∀ {es}, pcapEvents cs = .ok es → ∀ x ∈ es, CameFrom all x := by
  induction cs with
  | nil => intro es e; simp only [pcapEvents, Out.ok.injEq] at e; subst e; simp
  | cons c cs ih =>
    have hm' : ∀ x ∈ cs, x ∈ all := fun x hx => hm x (by simp [hx])
    intro es e
    unfold pcapEvents at e
    split at e
    · rename_i ht
      cases ha : c.arg0 with
      | none => rw [ha] at e; simp at e
      | some a =>
        cases hb : c.buf with
        | none => rw [ha, hb] at e; simp at e
        | some b =>
          rw [ha, hb] at e
          obtain ⟨es1, h1, e⟩ := Out.bind_eq_ok.mp e
          simp only [Out.ok.injEq] at e
          subst e
          intro x hx
          rcases List.mem_cons.mp hx with rfl | hx
          · exact ⟨c, hm c (by simp), ht, ha, hb⟩
          · exact ih hm' h1 x hx
    · exact ih hm' e

theorem hexEvents_from {all : List Cmd} {cs : List Cmd} (hm : ∀ c ∈ cs, c ∈ all) : ∀ {es}, hexEvents cs = .ok es → ∀ x ∈ es, CameFrom all x := by
  induction cs with
  | nil => intro es e; simp only [hexEvents, Out.ok.injEq] at e; subst e; simp
  | cons c cs ih =>
    have hm' : ∀ x ∈ cs, x ∈ all := fun x hx => hm x (by simp [hx])
    have hc := hm c (by simp)
    intro es e
    unfold hexEvents at e
    split at e
    · rename_i ht
      cases hb : c.buf with
      | none => rw [hb] at e; exact ih hm' e
      | some b =>
        rw [hb] at e
        simp only at e
        cases hk : c.mask with
        | none =>
          rw [hk] at e
          obtain ⟨es1, h1, e⟩ := Out.bind_eq_ok.mp e
          simp only [Out.ok.injEq] at e
          subst e
          intro x hx
          rcases List.mem_cons.mp hx with rfl | hx
          · exact ⟨c, hc, ht, hb, Or.inl ⟨hk, rfl⟩⟩
          · exact ih hm' h1 x hx
        | some m =>
          rw [hk] at e
          simp only at e
          split at e
          · obtain ⟨es1, h1, e⟩ := Out.bind_eq_ok.mp e
            simp only [Out.ok.injEq] at e
            subst e
            intro x hx
            rcases List.mem_cons.mp hx with rfl | hx
            · exact ⟨c, hc, ht, hb, Or.inr ⟨m, hk, rfl⟩⟩
            · exact ih hm' h1 x hx
          · simp at e
    · exact ih hm' e

theorem execResolved_from {env : Env} {cs : List Cmd} {r : ExecRes} (e : execResolved env cs = .ok r) : ∀ x ∈ r.events, CameFrom cs x := by
  unfold execResolved at e
  obtain ⟨ep, hp, e⟩ := Out.bind_eq_ok.mp e
  obtain ⟨eh, hh, e⟩ := Out.bind_eq_ok.mp e
  obtain ⟨rs, hm, e⟩ := Out.bind_eq_ok.mp e
  obtain ⟨⟨eo, ok⟩, ho, e⟩ := Out.bind_eq_ok.mp e
  have p1 : ∀ x ∈ ep, CameFrom cs x := by
    unfold pcapAll at hp
    split at hp
    · exact pcapEvents_from (fun _ h => h) hp
    · simp only [Out.ok.injEq] at hp; subst hp; simp
  have p2 := hexEvents_from (fun _ h => h) hh
  have hr := mapCmds_among cs (fun _ h => h) (by simp) hm
  have p3 := openAll_from hr ho
  have app : ∀ {a b : List Event}, (∀ x ∈ a, CameFrom cs x) → (∀ x ∈ b, CameFrom cs x) → ∀ x ∈ a ++ b, CameFrom cs x := by
    intro a b ha hb x hx
    rcases List.mem_append.mp hx with hx | hx
    · exact ha x hx
    · exact hb x hx
  simp only at e p3
  split at e
  · simp only [Out.ok.injEq] at e
    subst e
    exact app (app p1 p2) p3
  · obtain ⟨⟨st, rs', el⟩, hl, e⟩ := Out.bind_eq_ok.mp e
    obtain ⟨g1, g2⟩ := mainLoop_from hr hl
    cases st with
    | finished =>
      simp only [Out.ok.injEq] at e
      subst e
      exact app (app (app (app p1 p2) p3) g2) (checkResults_from g1)
    | waiting | sending =>
      simp only [Out.ok.injEq] at e
      subst e
      exact app (app (app p1 p2) p3) g2

theorem inventory_from (cs : List Cmd) : ∀ x ∈ inventory cs, ∃ n b m, x = .named n b m ∧
    ∃ d ∈ cs, d.type = .name ∧ d.name = some n ∧ d.buf = some b ∧ d.mask = m := by
  induction cs with
  | nil => simp [inventory]
  | cons c cs ih =>
    intro x hx
    have lift : (∃ n b m, x = Event.named n b m ∧ ∃ d ∈ cs, d.type = .name ∧ d.name = some n ∧ d.buf = some b ∧ d.mask = m) →
        ∃ n b m, x = Event.named n b m ∧ ∃ d ∈ c :: cs, d.type = .name ∧ d.name = some n ∧ d.buf = some b ∧ d.mask = m := by
      rintro ⟨n, b, m, e, d, hd, h⟩
      exact ⟨n, b, m, e, d, by simp [hd], h⟩
    unfold inventory at hx
    split at hx
    · rename_i ht
      cases hb : c.buf with
      | none => rw [hb] at hx; exact lift (ih x hx)
      | some b =>
        cases hn : c.name with
        | none => rw [hb, hn] at hx; exact lift (ih x hx)
        | some n =>
          rw [hb, hn] at hx
          rcases List.mem_cons.mp hx with rfl | hx
          · exact ⟨n, b, c.mask, rfl, c, by simp, ht, hn, hb, rfl⟩
          · exact lift (ih x hx)
    · exact lift (ih x hx)

/-- Every event of the execution comes from one of the commands, with the names written out. -/
theorem execCmds_from {env : Env} {cs : List Cmd} {r : ExecRes} (e : execCmds env cs = .ok r) :
    ∀ x ∈ r.events, CameFrom (cs.map (resolve cs)) x := by
  have named : ∀ x ∈ inventory cs, CameFrom (cs.map (resolve cs)) x := by
    intro x hx
    obtain ⟨n, b, m, rfl, d, hd, h1, h2, h3, h4⟩ := inventory_from cs x hx
    refine ⟨d, List.mem_map.mpr ⟨d, hd, ?_⟩, h1, h2, h3, h4⟩
    unfold resolve refersTo
    simp [h1]
  unfold execCmds at e
  rw [pairNames_eq] at e
  simp only at e
  split at e
  · simp only [Out.ok.injEq] at e
    subst e
    intro x hx
    rcases List.mem_append.mp hx with hx | hx
    · exact named x hx
    · obtain ⟨c, hc, hx⟩ := List.mem_filterMap.mp hx
      obtain ⟨hc, hu⟩ := List.mem_filter.mp hc
      cases hr : refersTo c with
      | none => rw [hr] at hx; simp at hx
      | some n =>
        rw [hr] at hx
        simp only [Option.map_some, Option.some.injEq] at hx
        subst hx
        refine ⟨c, List.mem_map.mpr ⟨c, hc, ?_⟩, ?_⟩
        · unfold unresolved at hu
          rw [hr] at hu
          simp only [Bool.not_eq_true', List.any_eq_false] at hu
          unfold resolve
          rw [hr]
          have : cs.find? (defines n) = none := by
            rw [List.find?_eq_none]
            intro x hx
            exact hu x hx
          simp only [this]
        · unfold refersTo at hr
          split at hr
          · rename_i h; exact ⟨h.1, hr⟩
          · simp at hr
  · obtain ⟨r1, h1, e⟩ := Out.bind_eq_ok.mp e
    simp only [Out.ok.injEq] at e
    subst e
    intro x hx
    rcases List.mem_append.mp hx with hx | hx
    · exact named x hx
    · exact execResolved_from h1 x hx

end Ef
