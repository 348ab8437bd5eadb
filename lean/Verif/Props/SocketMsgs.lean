import Verif.Model.SocketMsgs
import Verif.Spec.SocketMsgs
import Verif.Props.Socket

/-!
# C121: an interface that cannot be opened is reported
-/

namespace Ef.Props

open Ef Ef.Spec

/-- The message about a step. -/
def stepMsg : SockStep → SockMsg
  | .socket => ⟨32, c!"socket error"⟩
  | .bind => ⟨44, c!"bind error"⟩
  | .promisc => ⟨53, c!"Failed to set PROMISC"⟩

theorem stepMsg_text (file m : CStr) (s : SockStep) : sockText file m (stepMsg s) = stepText file m s := by
  have h1 : decStr 32 = c!"32" := by decide +kernel
  have h2 : decStr 44 = c!"44" := by decide +kernel
  have h3 : decStr 53 = c!"53" := by decide +kernel
  cases s <;> simp only [sockText, stepMsg, stepText, h1, h2, h3, List.append_assoc] <;> rfl

theorem discards_failed {fd : Int} {ds : List Call} (h : ∀ c ∈ ds, c.req = .discard fd) : ds.filterMap failedStep = [] := by
  rw [List.filterMap_eq_nil_iff]
  intro c hc
  unfold failedStep
  rw [h c hc]

theorem rawSocketMsgs_spec (os : OS) (h : List Call) (name : CStr) :
    ∃ new, (rawSocket os h name).2 = h ++ new ∧ rawSocketMsgs os h name = (new.filterMap failedStep).map stepMsg ∧
      (((rawSocket os h name).1 < 0 ∧ (new.filterMap failedStep).length = 1) ∨
        (0 ≤ (rawSocket os h name).1 ∧ new.filterMap failedStep = [])) := by
  unfold rawSocket rawSocketMsgs
  obtain ⟨s, es, e1⟩ := ask_eq os h .socket
  rw [e1]
  dsimp only
  by_cases hs : s < 0
  · rw [if_pos hs, if_pos hs]
    have : failedStep ⟨.socket, s⟩ = some .socket := by simp [failedStep, hs]
    exact ⟨_, rfl, by simp [this, stepMsg], .inl ⟨(by decide : (-1 : Int) < 0), by simp [this]⟩⟩
  rw [if_neg hs, if_neg hs]
  have f1 : failedStep ⟨.socket, s⟩ = none := by simp [failedStep, hs]
  obtain ⟨i, -, e2⟩ := ask_eq os (h ++ [⟨.socket, s⟩]) (.index name)
  rw [e2]
  dsimp only
  obtain ⟨j, -, e3⟩ := ask_eq os (h ++ [⟨.socket, s⟩] ++ [⟨.index name, i⟩]) (.index name)
  rw [e3]
  dsimp only
  have f2 : ∀ i, failedStep ⟨.index name, i⟩ = none := fun i => rfl
  have fc : ∀ i, failedStep ⟨.close s, i⟩ = none := fun i => rfl
  obtain ⟨b, -, e4⟩ := ask_eq os (h ++ [⟨.socket, s⟩] ++ [⟨.index name, i⟩] ++ [⟨.index name, j⟩]) (.bind s j)
  rw [e4]
  dsimp only
  by_cases hb : b < 0
  · rw [if_pos hb, if_pos hb]
    have f3 : failedStep ⟨.bind s j, b⟩ = some .bind := by simp [failedStep, hb]
    obtain ⟨c, -, ec⟩ := ask_eq os (h ++ [⟨.socket, s⟩] ++ [⟨.index name, i⟩] ++ [⟨.index name, j⟩] ++ [⟨.bind s j, b⟩]) (.close s)
    rw [ec]
    refine ⟨[⟨.socket, s⟩, ⟨.index name, i⟩, ⟨.index name, j⟩, ⟨.bind s j, b⟩, ⟨.close s, c⟩], ?_, ?_, .inl ⟨(by decide : (-1 : Int) < 0), ?_⟩⟩
    · simp only [List.append_assoc, List.cons_append, List.nil_append]
    · simp [f1, f2, f3, fc, stepMsg]
    · simp [f1, f2, f3, fc]
  rw [if_neg hb, if_neg hb]
  have f3 : failedStep ⟨.bind s j, b⟩ = none := by simp [failedStep, hb]
  obtain ⟨p, -, e5⟩ := ask_eq os (h ++ [⟨.socket, s⟩] ++ [⟨.index name, i⟩] ++ [⟨.index name, j⟩] ++ [⟨.bind s j, b⟩]) (.promisc s i)
  rw [e5]
  dsimp only
  by_cases hp : p = -1
  · rw [if_pos hp, if_pos hp]
    have f4 : failedStep ⟨.promisc s i, p⟩ = some .promisc := by simp [failedStep, hp]
    obtain ⟨c, -, ec⟩ := ask_eq os (h ++ [⟨.socket, s⟩] ++ [⟨.index name, i⟩] ++ [⟨.index name, j⟩] ++ [⟨.bind s j, b⟩] ++ [⟨.promisc s i, p⟩])
      (.close s)
    rw [ec]
    refine ⟨[⟨.socket, s⟩, ⟨.index name, i⟩, ⟨.index name, j⟩, ⟨.bind s j, b⟩, ⟨.promisc s i, p⟩, ⟨.close s, c⟩], ?_, ?_,
      .inl ⟨(by decide : (-1 : Int) < 0), ?_⟩⟩
    · simp only [List.append_assoc, List.cons_append, List.nil_append]
    · simp [f1, f2, f3, f4, fc, stepMsg]
    · simp [f1, f2, f3, f4, fc]
  rw [if_neg hp, if_neg hp, if_neg hp]
  have f4 : failedStep ⟨.promisc s i, p⟩ = none := by simp [failedStep, hp]
  obtain ⟨a, -, e6⟩ := ask_eq os (h ++ [⟨.socket, s⟩] ++ [⟨.index name, i⟩] ++ [⟨.index name, j⟩] ++ [⟨.bind s j, b⟩] ++
    [⟨.promisc s i, p⟩]) (.auxdata s)
  rw [e6]
  dsimp only
  rw [if_neg hp]
  have f5 : failedStep ⟨.auxdata s, a⟩ = none := rfl
  obtain ⟨ds, d1, d2, _⟩ := drain_spec os s 10000 (h ++ [⟨.socket, s⟩] ++ [⟨.index name, i⟩] ++ [⟨.index name, j⟩] ++
    [⟨.bind s j, b⟩] ++ [⟨.promisc s i, p⟩] ++ [⟨.auxdata s, a⟩])
  have hd := discards_failed d2
  refine ⟨[⟨.socket, s⟩, ⟨.index name, i⟩, ⟨.index name, j⟩, ⟨.bind s j, b⟩, ⟨.promisc s i, p⟩, ⟨.auxdata s, a⟩] ++ ds, ?_, ?_,
    .inr ⟨Int.not_lt.mp hs, ?_⟩⟩
  · show drain os s 10000 _ = _
    rw [d1]
    simp only [List.append_assoc, List.cons_append, List.nil_append]
  · rw [List.filterMap_append, hd]
    simp [f1, f2, f3, f4, f5]
  · rw [List.filterMap_append, hd]
    simp [f1, f2, f3, f4, f5]

/-- **C121**, as a user would expect it: if an interface cannot be opened, a line is printed that contains its name. -/
def C121_statement : Prop :=
  ∀ (os : OS) (h : List Call) (names : List CStr) (file m : CStr), (openSockets os h names).1 = none →
    ∃ n ∈ names, ∃ t ∈ (openMsgs os h names).map (sockText file m), n <:+: t

/-- **C121** (partial): the lines printed while the sockets are opened are those about the failed calls among all calls
made: creating the socket, binding it, the promiscuous mode. There is exactly one such line if the run cannot begin, and
none if it begins. Which interface it was is not told. -/
theorem C121_told_partial (os : OS) (h : List Call) (names : List CStr) (file m : CStr) :
    ∃ new, (openSockets os h names).2 = h ++ new ∧
      (openMsgs os h names).map (sockText file m) = (new.filterMap failedStep).map (stepText file m) ∧
      (((openSockets os h names).1 = none ∧ (new.filterMap failedStep).length = 1) ∨
        ((openSockets os h names).1 ≠ none ∧ new.filterMap failedStep = [])) := by
  suffices key : ∃ new, (openSockets os h names).2 = h ++ new ∧ openMsgs os h names = (new.filterMap failedStep).map stepMsg ∧
      (((openSockets os h names).1 = none ∧ (new.filterMap failedStep).length = 1) ∨
        ((openSockets os h names).1 ≠ none ∧ new.filterMap failedStep = [])) by
    obtain ⟨new, k1, k2, k3⟩ := key
    refine ⟨new, k1, ?_, k3⟩
    rw [k2, List.map_map]
    exact List.map_congr_left fun s _ => stepMsg_text file m s
  induction names generalizing h with
  | nil => exact ⟨[], by simp [openSockets], by simp [openMsgs], .inr ⟨by simp [openSockets], rfl⟩⟩
  | cons n ns ih =>
    obtain ⟨new, e1, e2, e3⟩ := rawSocketMsgs_spec os h n
    unfold openSockets openMsgs
    dsimp only
    rw [e1, e2]
    rcases e3 with ⟨e3, e4⟩ | ⟨e3, e4⟩
    · rw [if_pos e3, if_pos e3]
      exact ⟨new, rfl, by simp, .inl ⟨rfl, e4⟩⟩
    · have hn : ¬ (rawSocket os h n).1 < 0 := by omega
      rw [if_neg hn, if_neg hn]
      obtain ⟨new', i1, i2, i3⟩ := ih (h ++ new)
      refine ⟨new ++ new', ?_, ?_, ?_⟩
      · rw [i1, List.append_assoc]
      · rw [i2, e4, List.filterMap_append, e4]
        rfl
      · rw [List.filterMap_append, e4, List.nil_append]
        rcases i3 with ⟨i3, i4⟩ | ⟨i3, i4⟩
        · exact .inl ⟨by dsimp only; rw [i3]; rfl, i4⟩
        · refine .inr ⟨?_, i4⟩
          intro h0
          exact i3 (Option.map_eq_none_iff.mp h0)

/-- No socket for anybody. -/
def noSockets : OS := fun _ _ => -1

/-- C121 is false: the line about the failed call does not contain the name of the interface. -/
theorem C121_false : ¬ C121_statement := by
  intro h
  obtain ⟨n, hn, t, ht, hi⟩ := h noSockets [] [c!"eth7"] c!"ef-exec.c" c!"Operation not permitted" rfl
  rw [List.mem_singleton] at hn
  subst hn
  have e : (openMsgs noSockets [] [c!"eth7"]).map (sockText c!"ef-exec.c" c!"Operation not permitted") =
      [c!"ef-exec.c:32 socket error: Operation not permitted\n"] := by decide +kernel
  rw [e, List.mem_singleton] at ht
  subst ht
  have : ch!"h" ∈ c!"ef-exec.c:32 socket error: Operation not permitted\n" := hi.subset (by decide)
  exact absurd this (by decide)

/-- Non-vacuity: a run that begins prints nothing, even where VLAN tags are refused. -/
example : openMsgs noTags [] [c!"eth0"] = [] ∧
    openMsgs (fun _ r => match r with | .promisc _ _ => -1 | .discard _ => -1 | _ => 3) [] [c!"eth0", c!"eth1"] =
      [⟨53, c!"Failed to set PROMISC"⟩] := by decide +kernel

end Ef.Props
