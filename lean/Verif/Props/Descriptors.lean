import Verif.Lemmas.Descriptors
import Verif.Props.Socket

/-!
# Property C117: every interface is served through its own socket
-/

namespace Ef.Props

open Ef Ef.Spec

/-- What is expected of a run with descriptors, compared with the run by places: the same result and the same events, with
the sockets of `as` opened in between, and everything that happens with a descriptor in the main loop belongs to the
interface for which its socket was set up in this run. -/
structure OwnSockets (env : FdEnv) (p : FdRes) (q : ExecRes) : Prop where
  ret : p.ret = q.ret
  status : p.status = q.status
  resources : p.resources = q.resources
  events : ∃ as : List CStr, q.events = p.before ++ as.map Event.opened ++ p.loop.map plain ++ p.after
  calls : ∃ new, p.calls = env.calls ++ new ∧
    ∀ fd e, FdEvent.on fd e ∈ p.loop → ∃ a cs, ifaceOf e = some a ∧ Listens a fd cs ∧ cs <:+: new

/-- **C117, full statement.** -/
def C117_statement : Prop := ∀ (env : FdEnv) (cmds : List Cmd), Ready cmds → FreshFds env.os →
  ∃ canOpen fds, Agrees (OwnSockets env) (execCmdsFd env cmds)
    (execCmds ⟨env.cfg, canOpen, env.begin, env.timeoutMs, env.hist.map (byPlace fds), env.fuel⟩ cmds)

theorem listening_len {ns : List CStr} {fds : List Int} {cs : List Call} (h : Listening ns fds cs) : fds.length = ns.length := by
  induction h with
  | nil => rfl
  | cons _ _ ih => simp [ih]

theorem listening_get {ns : List CStr} {fds : List Int} {cs : List Call} (h : Listening ns fds cs) {i : Nat} {fd : Int}
    (hi : fds[i]? = some fd) : ∃ a ds, ns[i]? = some a ∧ Listens a fd ds ∧ ds <:+: cs := by
  induction h generalizing i with
  | nil => simp at hi
  | cons hl _ ih =>
    cases i with
    | zero =>
      simp only [List.getElem?_cons_zero, Option.some.injEq] at hi
      subst hi
      exact ⟨_, _, rfl, hl, (List.prefix_append _ _).isInfix⟩
    | succ i =>
      simp only [List.getElem?_cons_succ] at hi
      obtain ⟨a, ds, h1, h2, h3⟩ := ih hi
      exact ⟨a, ds, h1, h2, h3.trans (List.suffix_append _ _).isInfix⟩

/-- The interface of each descriptor. -/
theorem names_of (ns : List CStr) (fds : List Int) (hn : fds.Nodup) :
    ∃ nm : Int → CStr, ∀ (i : Nat) fd a, fds[i]? = some fd → ns[i]? = some a → nm fd = a := by
  induction fds generalizing ns with
  | nil => exact ⟨fun _ => [], by simp⟩
  | cons f fs ih =>
    rw [List.nodup_cons] at hn
    obtain ⟨nm, h⟩ := ih ns.tail hn.2
    refine ⟨fun d => if d = f then ns.head?.getD [] else nm d, ?_⟩
    intro i fd a h1 h2
    cases i with
    | zero =>
      simp only [List.getElem?_cons_zero, Option.some.injEq] at h1
      subst h1
      simp only [if_true]
      rw [List.head?_eq_getElem?, h2]
      rfl
    | succ i =>
      simp only [List.getElem?_cons_succ] at h1
      have : fd ≠ f := fun e => hn.1 (e ▸ List.mem_of_getElem? h1)
      simp only [if_neg this]
      exact h i fd a h1 (by rw [List.getElem?_tail]; exact h2)

theorem resNames_eq {as : List CStr} {rs : List Resource} (h : NamedAll as rs) : resNames rs = .ok as := by
  induction as generalizing rs with
  | nil => cases rs with
    | nil => rfl
    | cons => exact absurd h (by simp [NamedAll])
  | cons a as ih => cases rs with
    | nil => exact absurd h (by simp [NamedAll])
    | cons r rs => rw [resNames, h.1.arg0, Out.ok_bind, ih h.2, Out.ok_bind]

theorem namedAll_get {as : List CStr} {rs : List Resource} (h : NamedAll as rs) {i : Nat} {r : Resource} (hi : rs[i]? = some r) :
    ∃ a, as[i]? = some a ∧ Named a r := by
  induction as generalizing rs i with
  | nil => cases rs with
    | nil => simp at hi
    | cons => exact absurd h (by simp [NamedAll])
  | cons a as ih => cases rs with
    | nil => simp at hi
    | cons x rs =>
      cases i with
      | zero =>
        simp only [List.getElem?_cons_zero, Option.some.injEq] at hi
        subst hi
        exact ⟨a, rfl, h.1⟩
      | succ i => exact ih h.2 hi

theorem namedAll_len {as : List CStr} {rs : List Resource} (h : NamedAll as rs) : rs.length = as.length := by
  induction as generalizing rs with
  | nil => cases rs with
    | nil => rfl
    | cons => exact absurd h (by simp [NamedAll])
  | cons a as ih => cases rs with
    | nil => exact absurd h (by simp [NamedAll])
    | cons r rs => simp [ih h.2]

theorem zip_fds : ∀ (fds : List Int) (rs : List Resource), fds.length = rs.length →
    (List.zipWith Sock.mk fds rs).map (·.fd) = fds ∧ (List.zipWith Sock.mk fds rs).map (·.res) = rs := by
  intro fds
  induction fds with
  | nil => intro rs h; cases rs with
    | nil => exact ⟨rfl, rfl⟩
    | cons => simp at h
  | cons f fs ih =>
    intro rs h
    cases rs with
    | nil => simp at h
    | cons r rs =>
      obtain ⟨h1, h2⟩ := ih rs (by simpa using h)
      exact ⟨by rw [List.zipWith_cons_cons, List.map_cons, h1], by rw [List.zipWith_cons_cons, List.map_cons, h2]⟩

theorem agrees_bind_same {α γ δ : Type} {Q : γ → δ → Prop} (x : Out α) {f : α → Out γ} {g : α → Out δ}
    (hf : ∀ a, x = .ok a → Agrees Q (f a) (g a)) : Agrees Q (x >>= f) (x >>= g) := by
  cases x with
  | ok a => exact hf a rfl
  | ub u => exact .ub u
  | abort => exact .abort
  | exit c => exact .exit c

theorem takeWhile_split {good rest : List CStr} {bad : CStr} {p : CStr → Bool} (hg : ∀ a ∈ good, p a = true) (hb : p bad = false) :
    (good ++ bad :: rest).takeWhile p = good ∧ (good ++ bad :: rest).all p = false := by
  constructor
  · rw [List.takeWhile_append_of_pos hg, List.takeWhile_cons_of_neg (by simp [hb]), List.append_nil]
  · rw [List.all_append, List.all_cons, hb]; simp

theorem execSocks_agrees (env : FdEnv) (cmds : List Cmd) (hr : Ready cmds) (hf : FreshFds env.os)
    (hlow : ∀ fds h, openSockets env.os env.calls (ifaces cmds) = (some fds, h) → ∀ fd ∈ fds, fd < fdSetSize) :
    ∃ canOpen fds, Agrees (OwnSockets env) (execSocks env cmds)
      (execResolved ⟨env.cfg, canOpen, env.begin, env.timeoutMs, env.hist.map (byPlace fds), env.fuel⟩ cmds) := by
  have hm := mapCmds_group [] cmds hr.iface (by simpa using hr.slots)
  rw [show group [] = [] from rfl, List.nil_append] at hm
  have hn := group_named cmds
  obtain ⟨new, hc, hs⟩ := openSockets_spec env.os hf (ifaces cmds) env.calls
  generalize hg : openSockets env.os env.calls (ifaces cmds) = o at hc hs hlow
  obtain ⟨o, h'⟩ := o
  simp only at hc
  subst hc
  cases o with
  | none =>
    obtain ⟨good, bad, rest, _, _, _, e1, _⟩ := hs
    refine ⟨fun a => good.contains a, [], ?_⟩
    unfold execSocks execResolved
    refine agrees_bind_same _ fun ep _ => agrees_bind_same _ fun eh _ => ?_
    rw [hm, Out.ok_bind, Out.ok_bind, resNames_eq hn, Out.ok_bind, hg, openAll_eq _ hn, Out.ok_bind]
    have hnd := ifaces_nodup cmds
    rw [e1] at hnd ⊢
    have hbad : good.contains bad = false := by
      rw [List.contains_eq_mem, decide_eq_false_iff_not]
      intro hb
      rw [List.nodup_append] at hnd
      exact hnd.2.2 bad hb bad List.mem_cons_self rfl
    obtain ⟨t1, t2⟩ := takeWhile_split (good := good) (rest := rest) (p := fun a => good.contains a) (by simp) hbad
    simp only
    rw [t1, t2]
    simp only [Bool.false_eq_true, not_false_eq_true, if_true]
    exact .ok ⟨rfl, rfl, rfl, ⟨good, by simp⟩, new, rfl, by simp⟩
  | some fds =>
    obtain ⟨h1, h2, h3, h4⟩ := hs
    refine ⟨fun _ => true, fds, ?_⟩
    have hlen : fds.length = (group cmds).length := by rw [listening_len h1, namedAll_len hn]
    obtain ⟨z1, z2⟩ := zip_fds fds (group cmds) hlen
    obtain ⟨nm, hnm⟩ := names_of (ifaces cmds) fds h2
    have hsock : Socks fds nm (List.zipWith Sock.mk fds (group cmds)) := by
      refine ⟨by rw [z1]; exact h2, ?_, ?_⟩
      · intro k hk
        have : k.fd ∈ fds := by
          have := List.mem_map_of_mem (f := (·.fd)) hk
          rw [z1] at this
          exact this
        exact ⟨⟨(h3 _ this).1, hlow fds _ rfl _ this⟩, this⟩
      · intro k hk
        obtain ⟨i, hi⟩ := List.mem_iff_getElem?.mp hk
        have g1 : fds[i]? = some k.fd := by rw [← z1, List.getElem?_map, hi]; rfl
        have g2 : (group cmds)[i]? = some k.res := by
          have : (group cmds)[i]? = ((List.zipWith Sock.mk fds (group cmds)).map (·.res))[i]? := by rw [z2]
          rw [this, List.getElem?_map, hi]; rfl
        obtain ⟨a, q1, q2⟩ := namedAll_get hn g2
        rw [hnm i _ _ g1 q1]
        exact q2
    unfold execSocks execResolved
    refine agrees_bind_same _ fun ep _ => agrees_bind_same _ fun eh _ => ?_
    rw [hm, Out.ok_bind, Out.ok_bind, resNames_eq hn, Out.ok_bind, hg, openAll_eq _ hn, Out.ok_bind]
    simp only
    rw [show (ifaces cmds).all (fun _ => true) = true from by simp]
    simp only [not_true_eq_false, if_false]
    have loop := sockLoop_agrees (cfg := env.cfg) (fuel := env.fuel) (tend := timerAdd env.begin (timeoutVal env.timeoutMs)) (nm := nm)
      env.hist (timeoutVal env.timeoutMs) _ hsock
    rw [z1, z2] at loop
    refine loop.bind ?_
    rintro ⟨st, ks, el⟩ ⟨st', rs', el'⟩ ⟨p1, p2, p3, p4⟩
    simp only at p1 p2 p3 p4
    subst p1
    have own : ∀ fd e, FdEvent.on fd e ∈ el → ∃ a cs, ifaceOf e = some a ∧ Listens a fd cs ∧ cs <:+: new := by
      intro fd e he
      obtain ⟨hfd, he⟩ := p4 fd e he
      obtain ⟨i, hi⟩ := List.mem_iff_getElem?.mp hfd
      obtain ⟨a, ds, q1, q2, q3⟩ := listening_get h1 hi
      exact ⟨a, ds, by rw [he, hnm i fd a hi q1], q2, q3⟩
    have htw : ∀ l : List CStr, l.takeWhile (fun _ => true) = l := by
      intro l
      induction l with
      | nil => rfl
      | cons a l ih => rw [List.takeWhile_cons_of_pos rfl, ih]
    rw [htw]
    obtain ⟨last, hcl, _⟩ := closeSockets_calls env.os fds (env.calls ++ new) fun f hf => (h3 f hf).1
    cases st with
    | finished =>
      simp only
      rw [p2.res]
      refine .ok ⟨rfl, rfl, rfl, ⟨ifaces cmds, by rw [← p3]⟩, new ++ last, by rw [hcl, List.append_assoc], ?_⟩
      intro fd e he
      obtain ⟨a, cs, g1, g2, g3⟩ := own fd e he
      exact ⟨a, cs, g1, g2, g3.trans (List.prefix_append _ _).isInfix⟩
    | waiting =>
      simp only
      rw [p2.res]
      exact .ok ⟨rfl, rfl, rfl, ⟨ifaces cmds, by rw [← p3]; simp⟩, new, rfl, own⟩
    | sending =>
      simp only
      rw [p2.res]
      exact .ok ⟨rfl, rfl, rfl, ⟨ifaces cmds, by rw [← p3]; simp⟩, new, rfl, own⟩

/-- **C117, the part that holds**: as long as the descriptors of the sockets are below 1024 (`FD_SETSIZE`), a run in which
`select` gets sets of descriptors is the run in which each interface is asked directly. Frames are received from and sent
through the socket that was bound to the interface of the command. -/
theorem C117_own_sockets_partial (env : FdEnv) (cmds : List Cmd) (hr : Ready cmds) (hf : FreshFds env.os)
    (hlow : ∀ fds h, openSockets env.os env.calls (ifaces cmds) = (some fds, h) → ∀ fd ∈ fds, fd < fdSetSize) :
    ∃ canOpen fds, Agrees (OwnSockets env) (execCmdsFd env cmds)
      (execCmds ⟨env.cfg, canOpen, env.begin, env.timeoutMs, env.hist.map (byPlace fds), env.fuel⟩ cmds) := by
  have hp := pairNames_eq cmds cmds
  obtain ⟨canOpen, fds, h⟩ := execSocks_agrees env (cmds.map (resolve cmds)) (hr.resolve cmds) hf (by
    rw [ifaces_resolve]; exact hlow)
  refine ⟨canOpen, fds, ?_⟩
  unfold execCmdsFd execCmds
  rw [hp]
  simp only
  split
  · exact .ok ⟨rfl, rfl, rfl, ⟨[], by simp⟩, [], by simp, by simp⟩
  · refine h.bind ?_
    rintro p q ⟨e1, e2, e3, ⟨as, e4⟩, e5⟩
    exact .ok ⟨e1, e2, e3, ⟨as, by simp only; rw [e4]; simp⟩, e5⟩

theorem openFds_le_card {l : List Int} {n : Nat} (h : ∀ d : Int, 0 ≤ d → d < n → d ∈ l) : n ≤ l.length := by
  induction n generalizing l with
  | zero => omega
  | succ n ih =>
    have hm := h n (by omega) (by omega)
    have := ih (l := l.erase n) fun d h0 h1 => by
      rw [List.mem_erase_of_ne (by omega)]
      exact h d h0 (by omega)
    rw [List.length_erase_of_mem hm] at this
    have := List.length_pos_of_mem hm
    omega

/-- **C117**: systems that hand out the lowest free descriptor never exceed the sets, if at most 924 descriptors were open at
the start. -/
theorem C117_lowest (inherited : List Int) (os : OS) (hf : FreshFds os) (hl : LowestFds inherited os) (hi : inherited.length ≤ 924)
    (h0 : List Call) (he : openFds h0 = []) (names : List CStr) (hn : names.length ≤ 100) (fds : List Int) (h : List Call)
    (ho : openSockets os h0 names = (some fds, h)) : ∀ fd ∈ fds, fd < fdSetSize := by
  have key : ∀ (names : List CStr) (h0 : List Call) (fds : List Int) (h : List Call), openSockets os h0 names = (some fds, h) →
      names.length + (openFds h0).length ≤ 100 → ∀ fd ∈ fds, fd < fdSetSize := by
    intro names
    induction names with
    | nil =>
      intro h0 fds h ho _ fd hfd
      simp only [openSockets, Prod.mk.injEq, Option.some.injEq] at ho
      rw [← ho.1] at hfd
      simp at hfd
    | cons n ns ih =>
      intro h0 fds h ho hlen fd hfd
      obtain ⟨new, e, o, rest, er⟩ := rawSocket_spec os h0 n
      unfold openSockets at ho
      simp only at ho
      by_cases hneg : (rawSocket os h0 n).1 < 0
      · rw [if_pos hneg] at ho
        simp at ho
      · rw [if_neg hneg] at ho
        simp only [Prod.mk.injEq, Option.map_eq_some_iff] at ho
        obtain ⟨⟨fs, hfs, rfl⟩, _⟩ := ho
        have h1 := o.fds h0 (by
          intro c r ec
          rw [er] at ec
          injection ec with ec _
          injection ec with _ ec
          rw [← ec]
          exact hf h0)
        rw [if_neg hneg] at h1
        rw [List.length_cons] at hlen
        rcases List.mem_cons.1 hfd with rfl | hfd
        · have hfirst := o.first (by omega) er
          have := openFds_le_card (l := inherited ++ openFds h0) (n := (rawSocket os h0 n).1.toNat) (fun d d0 d1 => by
            rw [List.mem_append]
            exact hl h0 d d0 (by rw [← hfirst]; omega))
          rw [List.length_append] at this
          unfold fdSetSize
          omega
        · refine ih (rawSocket os h0 n).2 fs _ (by rw [← hfs]) ?_ fd hfd
          rw [e, h1, List.length_cons]
          omega
  exact key names h0 fds h ho (by rw [he]; simpa using hn)

/-- A system with many open descriptors, or with few. -/
def crowded (low : Int) : OS := fun h r =>
  match r with
  | .socket => low + newFd (openFds h)
  | .discard _ => -1
  | _ => 0

theorem crowded_fresh {low : Int} (hl : 0 ≤ low) : FreshFds (crowded low) := by
  have h : ∀ (l : List Int) (m : Int), m ≤ l.foldl max m ∧ ∀ x ∈ l, x ≤ l.foldl max m := by
    intro l
    induction l with
    | nil => intro m; simp
    | cons y l ih =>
      intro m
      obtain ⟨h1, h2⟩ := ih (max m y)
      refine ⟨by rw [List.foldl_cons]; omega, ?_⟩
      intro x hx
      rw [List.foldl_cons]
      rcases List.mem_cons.1 hx with rfl | hx
      · omega
      · exact h2 x hx
  intro c hm
  have := (h (openFds c) 0).2 _ hm
  simp only [crowded, newFd] at this
  omega

/-- The command `rx a` with a frame, and a run in which this frame arrives and is then missing no more. -/
def oneRx : Cmd := { type := .rx, arg0 := some c!"a", frame := some {}, buf := some (zeros 60) }

def oneEnv (low : Int) : FdEnv where
  cfg := ⟨true, false⟩
  os := crowded low
  calls := []
  begin := ⟨0, 0⟩
  timeoutMs := 100
  hist := [⟨1, ⟨0, 0⟩, fun _ => true, fun _ => true, fun fd => if fd = low + 1 then some ⟨zeros 60, none⟩ else none, fun _ => 0⟩,
    ⟨0, ⟨1, 0⟩, fun _ => false, fun _ => false, fun _ => none, fun _ => 0⟩]
  fuel := 10

theorem oneRx_ready : Ready [oneRx] := by
  refine ⟨?_, ?_, by decide⟩
  · intro c hc
    simp only [List.mem_singleton] at hc
    subst hc
    rfl
  · intro c hc
    simp only [List.mem_singleton] at hc
    subst hc
    intro _
    rfl

/-- **C117 does not hold**: a descriptor of 1024 or more is written behind the end of the set. -/
theorem C117_false : ¬ C117_statement := by
  intro h
  obtain ⟨canOpen, fds, ha⟩ := h { oneEnv 1023 with hist := [] } [oneRx] oneRx_ready (crowded_fresh (by decide))
  have e1 : (match execCmdsFd { oneEnv 1023 with hist := [] } [oneRx] with | .ub .oobWrite => true | _ => false) = true := by
    decide +kernel
  have e2 : ∃ r, execCmds ⟨(oneEnv 1023).cfg, canOpen, (oneEnv 1023).begin, (oneEnv 1023).timeoutMs, [], (oneEnv 1023).fuel⟩ [oneRx] = .ok r := by
    unfold execCmds execResolved
    rw [show pairNames [oneRx] [oneRx] = ([oneRx], []) from rfl]
    simp only [ne_eq, not_true_eq_false, if_false]
    rw [show pcapAll (oneEnv 1023).cfg [oneRx] = .ok [] from rfl, show hexEvents [oneRx] = .ok [] from rfl,
      show mapCmds [oneRx] [] = .ok [{ cmds := [oneRx] }] from rfl]
    simp only [Out.ok_bind]
    rw [show openAll canOpen [{ cmds := [oneRx] }] = if canOpen c!"a" then .ok ([.opened c!"a"], true) else .ok ([], false) from rfl]
    cases canOpen c!"a" <;> exact ⟨_, rfl⟩
  obtain ⟨r, e2⟩ := e2
  rw [show (List.map (byPlace fds) ({ oneEnv 1023 with hist := [] } : FdEnv).hist) = [] from rfl] at ha
  change Agrees _ _ (execCmds ⟨(oneEnv 1023).cfg, canOpen, (oneEnv 1023).begin, (oneEnv 1023).timeoutMs, [], (oneEnv 1023).fuel⟩ [oneRx]) at ha
  rw [e2] at ha
  cases hx : execCmdsFd { oneEnv 1023 with hist := [] } [oneRx] with
  | ok p => rw [hx] at e1; cases e1
  | ub u => rw [hx] at ha; cases ha
  | abort => rw [hx] at ha; cases ha
  | exit c => rw [hx] at ha; cases ha

/-- Non-vacuity: with descriptors below 1024 the frame is received through descriptor 4, and all is well. -/
example : (match execCmdsFd (oneEnv 3) [oneRx] with
    | .ok r => decide (r.ret = some 0 ∧ FdEvent.on 4 (.rxOk c!"a" (zeros 60) none none) ∈ r.loop ∧ openFds r.calls = [])
    | _ => false) = true := by decide +kernel

/-- The lowest number from `n` on that is not in the list. -/
def lowestFrom (l : List Int) : Nat → Nat → Nat
  | 0, n => n
  | k + 1, n => if (n : Int) ∈ l then lowestFrom l k (n + 1) else n

theorem lowestFrom_spec (l : List Int) : ∀ (k n : Nat) (d : Int), n ≤ d → d < lowestFrom l k n → d ∈ l := by
  intro k
  induction k with
  | zero => intro n d h1 h2; simp only [lowestFrom] at h2; omega
  | succ k ih =>
    intro n d h1 h2
    unfold lowestFrom at h2
    split at h2
    · rename_i hm
      by_cases e : d = n
      · rw [e]; exact hm
      · exact ih (n + 1) d (by omega) h2
    · omega

/-- A system that hands out the lowest descriptor. -/
def lowest : OS := fun h r =>
  match r with
  | .socket => (lowestFrom ([0, 1, 2] ++ openFds h) ((openFds h).length + 4) 0 : Nat)
  | .discard _ => -1
  | _ => 0

example : LowestFds [0, 1, 2] lowest ∧ (openSockets lowest [] [c!"a", c!"b"]).1 = some [3, 4] := by
  refine ⟨fun h d h0 h1 => ?_, by decide +kernel⟩
  have := lowestFrom_spec ([0, 1, 2] ++ openFds h) _ 0 d (by simpa using h0) h1
  rw [List.mem_append] at this
  exact this

end Ef.Props
