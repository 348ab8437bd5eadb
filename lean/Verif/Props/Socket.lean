import Verif.Spec.Socket

/-!
# Sockets

C95: a socket that is handed to the main loop is set up completely, any other one is closed.
C96: the sockets of a run are closed at its end.
-/

namespace Ef.Props

open Ef Ef.Spec

theorem drain_spec (os : OS) (fd : Int) (n : Nat) (h : List Call) :
    ∃ ds, drain os fd n h = h ++ ds ∧ (∀ c ∈ ds, c.req = .discard fd) ∧ (∀ c ∈ ds.dropLast, 0 ≤ c.answer) ∧
      ((∃ c, ds.getLast? = some c ∧ c.answer < 0) ∨ ds.length = n) := by
  induction n generalizing h with
  | zero => exact ⟨[], by simp [drain], by simp, by simp, .inr rfl⟩
  | succ n ih =>
    unfold drain ask
    dsimp only
    split
    · rename_i hlt
      exact ⟨[⟨.discard fd, os h (.discard fd)⟩], rfl, by simp, by simp, .inl ⟨_, rfl, hlt⟩⟩
    · rename_i hge
      obtain ⟨ds, e, h1, h2, h3⟩ := ih (h ++ [⟨.discard fd, os h (.discard fd)⟩])
      refine ⟨⟨.discard fd, os h (.discard fd)⟩ :: ds, ?_, ?_, ?_, ?_⟩
      · rw [e]; simp
      · intro c hc
        rcases List.mem_cons.1 hc with rfl | hc
        · rfl
        · exact h1 c hc
      · intro c hc
        cases ds with
        | nil => simp at hc
        | cons d ds =>
          rw [List.dropLast_cons_cons] at hc
          rcases List.mem_cons.1 hc with rfl | hc
          · show 0 ≤ os h (.discard fd)
            omega
          · exact h2 c hc
      · rcases h3 with ⟨c, hc, hn⟩ | h3
        · refine .inl ⟨c, ?_, hn⟩
          cases ds with
          | nil => simp at hc
          | cons d ds => rw [List.getLast?_cons_cons]; exact hc
        · exact .inr (by simp [h3])

/-- The calls of `raw_socket`. -/
inductive Opened (name : CStr) : Int → List Call → Prop where
  | none (s : Int) (hs : s < 0) : Opened name (-1) [⟨.socket, s⟩]
  | noBind (s i j b c : Int) (hs : 0 ≤ s) (hb : b < 0) :
      Opened name (-1) [⟨.socket, s⟩, ⟨.index name, i⟩, ⟨.index name, j⟩, ⟨.bind s j, b⟩, ⟨.close s, c⟩]
  | noPromisc (s i j b c : Int) (hs : 0 ≤ s) (hb : 0 ≤ b) :
      Opened name (-1) [⟨.socket, s⟩, ⟨.index name, i⟩, ⟨.index name, j⟩, ⟨.bind s j, b⟩, ⟨.promisc s i, -1⟩,
        ⟨.close s, c⟩]
  | ok (s i j b p a : Int) (ds : List Call) (hs : 0 ≤ s) (hb : 0 ≤ b) (hp : p ≠ -1) (hd : Emptied s ds) :
      Opened name s ([⟨.socket, s⟩, ⟨.index name, i⟩, ⟨.index name, j⟩, ⟨.bind s j, b⟩, ⟨.promisc s i, p⟩,
        ⟨.auxdata s, a⟩] ++ ds)

theorem ask_eq (os : OS) (h : List Call) (r : Req) : ∃ a, os h r = a ∧ ask os h r = (a, h ++ [⟨r, a⟩]) := ⟨_, rfl, rfl⟩

theorem rawSocket_spec (os : OS) (h : List Call) (name : CStr) :
    ∃ new, (rawSocket os h name).2 = h ++ new ∧ Opened name (rawSocket os h name).1 new ∧
      ∃ rest, new = ⟨.socket, os h .socket⟩ :: rest := by
  unfold rawSocket
  obtain ⟨s, es, e1⟩ := ask_eq os h .socket
  rw [e1, es]
  dsimp only
  by_cases hs : s < 0
  · rw [if_pos hs]
    exact ⟨_, rfl, .none _ hs, _, rfl⟩
  rw [if_neg hs]
  obtain ⟨i, -, e2⟩ := ask_eq os (h ++ [⟨.socket, s⟩]) (.index name)
  rw [e2]
  dsimp only
  obtain ⟨j, -, e3⟩ := ask_eq os (h ++ [⟨.socket, s⟩] ++ [⟨.index name, i⟩]) (.index name)
  rw [e3]
  dsimp only
  obtain ⟨b, -, e4⟩ := ask_eq os (h ++ [⟨.socket, s⟩] ++ [⟨.index name, i⟩] ++ [⟨.index name, j⟩]) (.bind s j)
  rw [e4]
  dsimp only
  by_cases hb : b < 0
  · rw [if_pos hb]
    exact ⟨_, by simp only [ask, List.append_assoc, List.cons_append, List.nil_append]; rfl,
      .noBind _ _ _ _ _ (by omega) hb, _, rfl⟩
  rw [if_neg hb]
  obtain ⟨p, -, e5⟩ := ask_eq os (h ++ [⟨.socket, s⟩] ++ [⟨.index name, i⟩] ++ [⟨.index name, j⟩] ++ [⟨.bind s j, b⟩])
    (.promisc s i)
  rw [e5]
  dsimp only
  by_cases hp : p = -1
  · subst hp
    rw [if_pos rfl]
    exact ⟨_, by simp only [ask, List.append_assoc, List.cons_append, List.nil_append]; rfl,
      .noPromisc _ _ _ _ _ (by omega) (by omega), _, rfl⟩
  rw [if_neg hp, if_neg hp]
  obtain ⟨a, -, e6⟩ := ask_eq os (h ++ [⟨.socket, s⟩] ++ [⟨.index name, i⟩] ++ [⟨.index name, j⟩] ++ [⟨.bind s j, b⟩] ++
    [⟨.promisc s i, p⟩]) (.auxdata s)
  rw [e6]
  dsimp only
  obtain ⟨ds, e, hd⟩ := drain_spec os s 10000 (h ++ [⟨.socket, s⟩] ++ [⟨.index name, i⟩] ++ [⟨.index name, j⟩] ++
    [⟨.bind s j, b⟩] ++ [⟨.promisc s i, p⟩] ++ [⟨.auxdata s, a⟩])
  rw [e]
  exact ⟨_, by simp only [List.append_assoc, List.cons_append, List.nil_append],
    .ok s i j b p a ds (by omega) (by omega) hp hd, _, rfl⟩

theorem openFds_append (cs ds : List Call) : openFds (cs ++ ds) = ds.foldl fdStep (openFds cs) := by
  simp [openFds, List.foldl_append]

theorem foldl_discards (fd : Int) (ds : List Call) (l : List Int) (h : ∀ c ∈ ds, c.req = .discard fd) :
    ds.foldl fdStep l = l := by
  induction ds generalizing l with
  | nil => rfl
  | cons d ds ih =>
    rw [List.foldl_cons, ih _ fun c hc => h c (List.mem_cons_of_mem _ hc)]
    simp [fdStep, h d List.mem_cons_self]

/-- The open descriptors after `raw_socket`. -/
theorem Opened.fds {name : CStr} {fd : Int} {new : List Call} (o : Opened name fd new) (h : List Call)
    (fresh : ∀ c rest, new = ⟨.socket, c⟩ :: rest → c ∉ openFds h) :
    openFds (h ++ new) = if fd < 0 then openFds h else fd :: openFds h := by
  rw [openFds_append]
  cases o with
  | none s hs =>
    have : ¬ 0 ≤ s := by omega
    simp [fdStep, this]
  | noBind s i j b c hs hb => simp [fdStep, hs]
  | noPromisc s i j b c hs hb => simp [fdStep, hs]
  | ok s i j b p a ds hs hb hp hd =>
    have : ¬ fd < 0 := by omega
    rw [List.foldl_append, foldl_discards _ _ _ hd.1]
    simp [fdStep, hs, this]

theorem Opened.listens {name : CStr} {fd : Int} {new : List Call} (o : Opened name fd new) (hfd : 0 ≤ fd) :
    Listens name fd new := by
  cases o with
  | none s hs => omega
  | noBind s i j b c hs hb => omega
  | noPromisc s i j b c hs hb => omega
  | ok s i j b p a ds hs hb hp hd =>
    exact ⟨⟨hs, by simp⟩, _, ds, rfl, hd, ⟨j, b, by simp, by simp, hb⟩, ⟨i, p, by simp, by simp, hp⟩, ⟨a, by simp⟩⟩

theorem Opened.refused {name : CStr} {fd : Int} {new : List Call} (o : Opened name fd new) (hfd : fd < 0) :
    fd = -1 ∧ ∃ c ∈ new, c.answer < 0 ∧ ∀ s, c.req ≠ .close s := by
  cases o with
  | none s hs => exact ⟨rfl, ⟨.socket, s⟩, by simp, hs, by simp⟩
  | noBind s i j b c hs hb => exact ⟨rfl, ⟨.bind s j, b⟩, by simp, hb, by simp⟩
  | noPromisc s i j b c hs hb => exact ⟨rfl, ⟨.promisc s i, -1⟩, by simp, by show (-1 : Int) < 0; decide, by simp⟩
  | ok s i j b p a ds hs hb hp hd => omega

theorem Opened.first {name : CStr} {fd a : Int} {new rest : List Call} (o : Opened name fd new) (hfd : 0 ≤ fd)
    (e : new = ⟨.socket, a⟩ :: rest) : fd = a := by
  cases o with
  | none s hs => omega
  | noBind s i j b c hs hb => omega
  | noPromisc s i j b c hs hb => omega
  | ok s i j b p a ds hs hb hp hd =>
    injection e with e _
    injection e with _ e

/-! ## C95 -/

/-- **C95**, as one would like to have it: the socket listens and reports VLAN tags, or there is none. -/
def C95_statement : Prop :=
  ∀ os h name, FreshFds os → ∃ new, (rawSocket os h name).2 = h ++ new ∧
    Handed h new (rawSocket os h name).1
      (Listens name (rawSocket os h name).1 new ∧ Tagged (rawSocket os h name).1 new)

/-- **C95**, what holds: the socket listens, or there is none. -/
theorem C95_socket_set_up_partial (os : OS) (h : List Call) (name : CStr) (hf : FreshFds os) :
    ∃ new, (rawSocket os h name).2 = h ++ new ∧
      Handed h new (rawSocket os h name).1 (Listens name (rawSocket os h name).1 new) := by
  obtain ⟨new, e, o, rest, er⟩ := rawSocket_spec os h name
  refine ⟨new, e, ?_⟩
  have hfds := o.fds h (by
    intro c r ec
    rw [er] at ec
    injection ec with ec _
    injection ec with _ ec
    rw [← ec]
    exact hf h)
  by_cases hlt : (rawSocket os h name).1 < 0
  · rw [if_pos hlt] at hfds
    exact .inr ⟨(o.refused hlt).1, (o.refused hlt).2, hfds⟩
  · rw [if_neg hlt] at hfds
    exact .inl ⟨by omega, o.listens (by omega), by rw [o.first (by omega) er]; exact hf h, hfds⟩

/-- **C95**: no socket is returned for an interface that does not exist, where the system refuses promiscuous mode for
the index 0. -/
theorem C95_unknown_interface (os : OS) (h : List Call) (name : CStr) (h0 : ∀ h, os h (.index name) = 0)
    (hp : ∀ h fd, os h (.promisc fd 0) = -1) : (rawSocket os h name).1 = -1 := by
  unfold rawSocket
  simp only [ask, h0, hp]
  repeat' split
  all_goals first | rfl | contradiction

/-- A descriptor that is not open. -/
def newFd (l : List Int) : Int := l.foldl max 0 + 1

theorem newFd_spec (l : List Int) : newFd l ∉ l := by
  have h : ∀ (l : List Int) (m : Int), m ≤ l.foldl max m ∧ ∀ x ∈ l, x ≤ l.foldl max m := by
    intro l
    induction l with
    | nil => intro m; simp
    | cons y l ih =>
      intro m
      obtain ⟨h1, h2⟩ := ih (max m y)
      refine ⟨?_, ?_⟩
      · rw [List.foldl_cons]; omega
      · intro x hx
        rw [List.foldl_cons]
        rcases List.mem_cons.1 hx with rfl | hx
        · omega
        · exact h2 x hx
  intro hm
  have := (h l 0).2 _ hm
  unfold newFd at this
  omega

/-- A system which does not report VLAN tags, and knows one interface. -/
def noTags : OS := fun h r =>
  match r with
  | .socket => newFd (openFds h)
  | .index n => if n = c!"eth0" then 2 else 0
  | .promisc _ i => if i = 0 then -1 else 0
  | .auxdata _ => -1
  | .discard _ => -1
  | _ => 0

theorem noTags_fresh : FreshFds noTags := fun _ => newFd_spec _

theorem C95_false : ¬ C95_statement := by
  intro hs
  obtain ⟨new, e, hh⟩ := hs noTags [] c!"eth0" noTags_fresh
  have e2 : (rawSocket noTags [] c!"eth0").2 = new := by rw [e]; rfl
  rw [← e2] at hh
  rcases hh with ⟨-, ⟨-, a, hm, ha⟩, -⟩ | ⟨h1, -⟩
  · revert hm ha
    have : ∀ c ∈ (rawSocket noTags [] c!"eth0").2, c.req = .auxdata (rawSocket noTags [] c!"eth0").1 → c.answer = -1 := by
      decide +kernel
    exact fun hm ha => ha (this _ hm rfl)
  · revert h1
    decide +kernel

/-- Non-vacuity: a socket is returned for the interface of `noTags`, and none for another one. -/
example : (rawSocket noTags [] c!"eth0").1 = 1 ∧ (rawSocket noTags [] c!"eth1").1 = -1 := by decide +kernel

/-! ## C96 -/

theorem foldl_close (os : OS) (fds : List Int) (h : List Call) (l : List Int) (hn : fds.Nodup) (h0 : ∀ f ∈ fds, 0 ≤ f)
    (e : openFds h = fds.reverse ++ l) (hd : ∀ f ∈ fds, f ∉ l) : openFds (closeSockets os h fds) = l := by
  induction fds generalizing h with
  | nil => simpa [closeSockets] using e
  | cons f fs ih =>
    rw [closeSockets, if_pos (h0 f List.mem_cons_self)]
    rw [List.nodup_cons] at hn
    refine ih _ hn.2 (fun x hx => h0 x (List.mem_cons_of_mem _ hx)) ?_ (fun x hx => hd x (List.mem_cons_of_mem _ hx))
    rw [ask, openFds_append, e]
    simp only [List.foldl_cons, List.foldl_nil, fdStep, List.reverse_cons, List.append_assoc]
    rw [List.erase_append_right _ (by simpa using hn.1)]
    simp

theorem closeSockets_calls (os : OS) (fds : List Int) (h : List Call) (h0 : ∀ f ∈ fds, 0 ≤ f) :
    ∃ last, closeSockets os h fds = h ++ last ∧ last.map (·.req) = fds.map .close := by
  induction fds generalizing h with
  | nil => exact ⟨[], by simp [closeSockets], rfl⟩
  | cons f fs ih =>
    rw [closeSockets, if_pos (h0 f List.mem_cons_self)]
    obtain ⟨last, e1, e2⟩ := ih (ask os h (.close f)).2 fun x hx => h0 x (List.mem_cons_of_mem _ hx)
    exact ⟨⟨.close f, os h (.close f)⟩ :: last, by rw [e1]; simp [ask], by simp [e2]⟩

theorem openSockets_spec (os : OS) (hf : FreshFds os) (names : List CStr) (h : List Call) :
    ∃ new, (openSockets os h names).2 = h ++ new ∧
      match (openSockets os h names).1 with
      | some fds => Listening names fds new ∧ fds.Nodup ∧ (∀ f ∈ fds, 0 ≤ f ∧ f ∉ openFds h) ∧
          openFds (h ++ new) = fds.reverse ++ openFds h
      | none => ∃ good bad rest fds cs ds, names = good ++ bad :: rest ∧ new = cs ++ ds ∧ Listening good fds cs ∧
          (∃ c ∈ ds, c.answer < 0 ∧ ∀ s, c.req ≠ .close s) ∧ openFds (h ++ new) = fds.reverse ++ openFds h := by
  induction names generalizing h with
  | nil => exact ⟨[], by simp [openSockets], .nil, by simp, by simp, by simp⟩
  | cons n ns ih =>
    obtain ⟨new, e, hh⟩ := C95_socket_set_up_partial os h n hf
    rw [openSockets]
    rcases hh with ⟨h0, hl, hn, ho⟩ | ⟨h0, hr, ho⟩
    · dsimp only
      rw [if_neg (by omega), e]
      obtain ⟨new2, e2, hm⟩ := ih (h ++ new)
      refine ⟨new ++ new2, by rw [← List.append_assoc]; exact e2, ?_⟩
      cases hg : (openSockets os (h ++ new) ns).1 with
      | some fds =>
        rw [hg] at hm
        obtain ⟨h1, h2, h3, h4⟩ := hm
        rw [ho] at h3 h4
        refine ⟨.cons hl h1, ?_, ?_, ?_⟩
        · rw [List.nodup_cons]
          exact ⟨fun hc => (h3 _ hc).2 List.mem_cons_self, h2⟩
        · intro f hm
          rcases List.mem_cons.1 hm with rfl | hm
          · exact ⟨h0, hn⟩
          · exact ⟨(h3 f hm).1, fun hc => (h3 f hm).2 (List.mem_cons_of_mem _ hc)⟩
        · rw [← List.append_assoc, h4]
          simp
      | none =>
        rw [hg] at hm
        obtain ⟨good, bad, rest, fds, cs, ds, h1, h2, h3, h4, h5⟩ := hm
        rw [ho] at h5
        refine ⟨n :: good, bad, rest, _ :: fds, new ++ cs, ds, by rw [h1]; rfl, by rw [h2, List.append_assoc],
          .cons hl h3, h4, ?_⟩
        rw [← List.append_assoc, h5]
        simp
    · dsimp only
      rw [if_pos (by omega), e]
      exact ⟨new, rfl, [], n, ns, [], [], new, rfl, rfl, .nil, hr, by simpa using ho⟩

/-- **C96**, as one would like to have it: the sockets of a run are closed at its end. -/
def C96_statement : Prop :=
  ∀ os h names, FreshFds os → openFds (execSockets os h names).2 = openFds h

/-- **C96**, what holds: the main loop is reached exactly if every interface could be opened; then its sockets are closed
at the end. Otherwise one interface could not be opened, no further one was tried, and exactly the sockets of the
interfaces before it stay open. -/
theorem C96_sockets_closed_partial (os : OS) (h : List Call) (names : List CStr) (hf : FreshFds os) :
    ((execSockets os h names).1 = true ∧ openFds (execSockets os h names).2 = openFds h ∧
      ∃ fds new last, Listening names fds new ∧ (execSockets os h names).2 = h ++ new ++ last ∧
        last.map (·.req) = fds.map .close) ∨
    ((execSockets os h names).1 = false ∧ ∃ good bad rest fds cs ds, names = good ++ bad :: rest ∧
      Listening good fds cs ∧ (∃ c ∈ ds, c.answer < 0 ∧ ∀ s, c.req ≠ .close s) ∧
      (execSockets os h names).2 = h ++ cs ++ ds ∧ openFds (execSockets os h names).2 = fds.reverse ++ openFds h) := by
  obtain ⟨new, e, hm⟩ := openSockets_spec os hf names h
  unfold execSockets
  generalize hg : openSockets os h names = r at e hm
  obtain ⟨o, h'⟩ := r
  dsimp only at e
  subst e
  cases o with
  | some fds =>
    obtain ⟨h1, h2, h3, h4⟩ := hm
    obtain ⟨last, e1, e2⟩ := closeSockets_calls os fds (h ++ new) fun f hf => (h3 f hf).1
    exact .inl ⟨rfl, foldl_close os fds _ _ h2 (fun f hf => (h3 f hf).1) h4 (fun f hf => (h3 f hf).2), fds, new, last, h1,
      e1, e2⟩
  | none =>
    obtain ⟨good, bad, rest, fds, cs, ds, h1, h2, h3, h4, h5⟩ := hm
    exact .inr ⟨rfl, good, bad, rest, fds, cs, ds, h1, h3, h4, by rw [h2, List.append_assoc], h5⟩

theorem C96_false : ¬ C96_statement := by
  intro hs
  have := hs noTags [] [c!"eth0", c!"eth1"] noTags_fresh
  revert this
  decide +kernel

/-- Non-vacuity: one interface, opened twice, closed twice; and the one that stays open. -/
example : (execSockets noTags [] [c!"eth0", c!"eth0"]).1 = true ∧ openFds (execSockets noTags [] [c!"eth0", c!"eth0"]).2 = [] ∧
    openFds (execSockets noTags [] [c!"eth0", c!"eth1"]).2 = [1] := by decide +kernel

end Ef.Props
