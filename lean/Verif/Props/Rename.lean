import Verif.Lemmas.Rename
import Verif.Props.Commands

/-!
# C114: names are only names
-/

namespace Ef.Props

open Ef Ef.Spec

/-- **C114, execution**: with other names for interfaces (at which sockets can be opened as before), files and frames the same
happens under the other names, for all commands and all answers of the system, including crashes. -/
theorem C114_execution (ρ : Names) (hd : ρ.Distinct) (env : Env) (canOpen' : CStr → Bool)
    (ho : ∀ a, canOpen' (ρ.iface a) = env.canOpen a) (cs : List Cmd) :
    (do let r ← execCmds { env with canOpen := canOpen' } (cs.map (rnCmd ρ)); .ok (r.ret, r.status, r.events)) =
      (do let r ← execCmds env cs; .ok (r.ret, r.status, r.events.map ρ.event)) := by
  rw [execCmds_rn hd ho, Out.bind_onOk]
  rfl

theorem headRenamed {ρ : Names} {hp : Bool} {hd hd' : List CStr} (h : HeadRenamed ρ hp hd hd') :
    ∃ c, Head hp hd c ∧ Head hp hd' (rnCmd ρ c) ∧ hd'.length = hd.length ∧ c.name = none := by
  cases h with
  | hex => exact ⟨_, .hex, .hex, rfl, rfl⟩
  | pcap f h => exact ⟨_, .pcap f h, .pcap _ h, rfl, rfl⟩
  | rx a => exact ⟨_, .rx a, .rx _, rfl, rfl⟩
  | tx a => exact ⟨_, .tx a, .tx _, rfl, rfl⟩
  | txRep a w k h => exact ⟨_, .txRep a w k h, .txRep _ w k h, rfl, rfl⟩

theorem renamed_command {ρ : Names} {hp : Bool} {ws ws' : List CStr} (h : Renamed ρ hp ws ws') :
    ∃ c, Command hp ws c ∧ Command hp ws' (rnCmd ρ c) ∧ ws'.length = ws.length := by
  cases h with
  | define n hw => exact ⟨_, .define n hw, .define (ρ.frame n) hw, rfl⟩
  | frame hh hw =>
    obtain ⟨c, h1, h2, h3, _⟩ := headRenamed hh
    exact ⟨_, .frame h1 hw, .frame h2 hw, by simp [h3]⟩
  | ref n hh =>
    obtain ⟨c, h1, h2, h3, _⟩ := headRenamed hh
    exact ⟨_, .ref n h1, .ref (ρ.frame n) h2, by simp [h3]⟩
  | listen a => exact ⟨_, .listen a, .listen _, rfl⟩

/-- The renamed words are the words of the renamed commands. -/
theorem renamed_line {ρ : Names} {hp : Bool} {L L' : List (List CStr)} (h : RenamedAll ρ hp L L') :
    ∃ cs : List Cmd, L.length = cs.length ∧ (∀ p ∈ L.zip cs, Command hp p.1 p.2) ∧
      (∀ p ∈ L'.zip (cs.map (rnCmd ρ)), Command hp p.1 p.2) ∧ L'.length = L.length ∧ L'.flatten.length = L.flatten.length := by
  induction h with
  | nil => exact ⟨[], rfl, by simp, by simp, rfl, rfl⟩
  | cons hw _ ih =>
    obtain ⟨cs, h1, h2, h3, h4, h5⟩ := ih
    obtain ⟨c, g1, g2, g3⟩ := renamed_command hw
    refine ⟨c :: cs, by simp [h1], ?_, ?_, by simp [h4], by simp [g3, h5]⟩
    · intro p hp
      rw [List.zip_cons_cons] at hp
      rcases List.mem_cons.mp hp with rfl | hp
      · exact g1
      · exact h2 p hp
    · intro p hp
      rw [List.map_cons, List.zip_cons_cons] at hp
      rcases List.mem_cons.mp hp with rfl | hp
      · exact g2
      · exact h3 p hp

/-- The commands of a line may follow each other, by their words. -/
def SeparatedWords (hp : Bool) : List (List CStr) → Prop
  | [] => True
  | [_] => True
  | p :: q :: l => (∀ w, q.head? = some w → MayPrecede hp p w) ∧ SeparatedWords hp (q :: l)

theorem separated_zip {hp : Bool} : ∀ {L : List (List CStr)} {cs : List Cmd}, L.length = cs.length → SeparatedWords hp L →
    Separated hp (L.zip cs)
  | [], [], _, _ => trivial
  | [_], [_], _, _ => trivial
  | p :: q :: l, c :: d :: cs, hl, h => ⟨h.1, separated_zip (L := q :: l) (cs := d :: cs) (by simpa using hl) h.2⟩

theorem zip_map_fst {α β : Type} : ∀ {l : List α} {m : List β}, l.length = m.length → (l.zip m).map (·.1) = l
  | [], [], _ => rfl
  | a :: l, b :: m, h => by
    simp only [List.zip_cons_cons, List.map_cons]
    rw [zip_map_fst (by simpa using h)]

theorem zip_map_snd {α β : Type} : ∀ {l : List α} {m : List β}, l.length = m.length → (l.zip m).map (·.2) = m
  | [], [], _ => rfl
  | a :: l, b :: m, h => by
    simp only [List.zip_cons_cons, List.map_cons]
    rw [zip_map_snd (by simpa using h)]

/-- **C114, command lines**: a line in which interfaces, files and frames have other names (different ones for different
interfaces and frames) does the same under the other names: exit status, waiting, captures, the frames and the events.
Both lines must be lines that are read as these commands (see C52). -/
theorem C114_words (ρ : Names) (hd : ρ.Distinct) (w : World) (canOpen' : CStr → Bool) (ho : ∀ a, canOpen' (ρ.iface a) = w.env.canOpen a)
    (ms : Int) (caps : List CStr) (L L' : List (List CStr)) (h : RenamedAll ρ w.env.cfg.hasPcap L L') (hl : L.flatten.length ≤ 101)
    (hs : SeparatedWords w.env.cfg.hasPcap L) (hs' : SeparatedWords w.env.cfg.hasPcap L') :
    argcCmds { w with env := { w.env with canOpen := canOpen' } } ms caps L'.flatten =
      (do let r ← argcCmds w ms caps L.flatten; .ok (ρ.run r)) := by
  obtain ⟨cs, h1, h2, h3, h4, h5⟩ := renamed_line h
  have h1' : L'.length = (cs.map (rnCmd ρ)).length := by simp [h4, h1]
  have p := C52_commands_partial _ (L.zip cs) h2 (separated_zip h1 hs) (by
    unfold allWords; rw [List.flatMap_def, zip_map_fst h1]; exact hl)
  have p' := C52_commands_partial _ (L'.zip (cs.map (rnCmd ρ))) h3 (separated_zip h1' hs') (by
    unfold allWords; rw [List.flatMap_def, zip_map_fst h1', h5]; exact hl)
  unfold allWords at p p'
  rw [List.flatMap_def, zip_map_fst h1, zip_map_snd h1] at p
  rw [List.flatMap_def, zip_map_fst h1', zip_map_snd h1'] at p'
  unfold argcCmds
  simp only
  rw [p, p']
  simp only [Out.ok_bind]
  have := execCmds_rn hd (env := { w.env with timeoutMs := ms }) (o := canOpen') ho cs
  simp only at this
  rw [this, Out.bind_onOk]
  cases execCmds { w.env with timeoutMs := ms } cs <;> rfl

/-- Other names: with a letter in front. -/
def longer : Names := ⟨fun a => ch!"x" :: a, fun a => ch!"f" :: a, fun a => ch!"n" :: a⟩

theorem longer_distinct : longer.Distinct :=
  ⟨fun _ _ h => (List.cons.inj h).2, fun _ _ h => (List.cons.inj h).2⟩

/-- Non-vacuity: a definition and its use on an interface. -/
example : RenamedAll longer true [[c!"rx", c!"eth0", c!"name", c!"f"], [c!"rx", c!"b"]]
    [[c!"rx", c!"xeth0", c!"name", c!"nf"], [c!"rx", c!"xb"]] :=
  .cons (.ref (hd := [c!"rx", c!"eth0"]) (hd' := [c!"rx", c!"xeth0"]) c!"f" (.rx c!"eth0")) (.cons (.listen c!"b") .nil)

/-- Different interfaces must keep different names: two interfaces that become one are one resource. -/
example : (∃ rs, mapCmds [{ type := .rx, arg0 := some c!"a" }, { type := .rx, arg0 := some c!"b" }] [] = .ok rs ∧ rs.length = 2) ∧
    ∃ rs, mapCmds [{ type := .rx, arg0 := some c!"a" }, { type := .rx, arg0 := some c!"a" }] [] = .ok rs ∧ rs.length = 1 :=
  ⟨⟨_, rfl, rfl⟩, ⟨_, rfl, rfl⟩⟩

end Ef.Props
