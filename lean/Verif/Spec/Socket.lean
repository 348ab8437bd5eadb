import Verif.Model.Socket

/-! # Vocabulary for sockets -/

namespace Ef.Spec

open Ef

/-- What a call does to the open descriptors. -/
def fdStep (fds : List Int) (c : Call) : List Int :=
  match c.req with
  | .socket => if 0 ≤ c.answer then c.answer :: fds else fds
  | .close fd => fds.erase fd
  | _ => fds

/-- The descriptors that are open after these calls. -/
def openFds (cs : List Call) : List Int := cs.foldl fdStep []

/-- The system does not hand out a descriptor that is open. -/
def FreshFds (os : OS) : Prop := ∀ h, os h .socket ∉ openFds h

/-- The frames that were waiting in the socket have been discarded: the last attempt found none, or there have been
10000 attempts. -/
def Emptied (fd : Int) (ds : List Call) : Prop :=
  (∀ c ∈ ds, c.req = .discard fd) ∧ (∀ c ∈ ds.dropLast, 0 ≤ c.answer) ∧
    ((∃ c, ds.getLast? = some c ∧ c.answer < 0) ∨ ds.length = 10000)

/-- The socket `fd` listens to the interface `name`, sees all frames there, has been asked to report VLAN tags, and was
emptied after that. -/
structure Listens (name : CStr) (fd : Int) (cs : List Call) : Prop where
  opened : 0 ≤ fd ∧ ⟨.socket, fd⟩ ∈ cs
  steps : ∃ before ds, cs = before ++ ds ∧ Emptied fd ds ∧
    (∃ i a, ⟨.index name, i⟩ ∈ before ∧ ⟨.bind fd i, a⟩ ∈ before ∧ 0 ≤ a) ∧
    (∃ i a, ⟨.index name, i⟩ ∈ before ∧ ⟨.promisc fd i, a⟩ ∈ before ∧ a ≠ -1) ∧
    (∃ a, ⟨.auxdata fd, a⟩ ∈ before)

/-- It reports VLAN tags. -/
def Tagged (fd : Int) (cs : List Call) : Prop := ∃ a, ⟨.auxdata fd, a⟩ ∈ cs ∧ a ≠ -1

/-- What is expected of the descriptor `fd` that was returned, after the calls `new`: with the socket it is, as `P` says,
or there is none, because one of the calls was refused. -/
def Handed (h new : List Call) (fd : Int) (P : Prop) : Prop :=
  (0 ≤ fd ∧ P ∧ fd ∉ openFds h ∧ openFds (h ++ new) = fd :: openFds h) ∨
    (fd = -1 ∧ (∃ c ∈ new, c.answer < 0 ∧ ∀ s, c.req ≠ .close s) ∧ openFds (h ++ new) = openFds h)

/-- The calls with which one interface after the other was opened. -/
inductive Listening : List CStr → List Int → List Call → Prop where
  | nil : Listening [] [] []
  | cons {n : CStr} {ns : List CStr} {fd : Int} {fds : List Int} {cs ds : List Call} (h : Listens n fd cs)
      (t : Listening ns fds ds) : Listening (n :: ns) (fd :: fds) (cs ++ ds)

end Ef.Spec
