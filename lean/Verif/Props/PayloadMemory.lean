import Verif.Model.PayloadMemory
import Verif.Props.Exhausted

/-!
# Payloads when memory runs out (C136)
-/

namespace Ef.Props

open Ef Ef.Spec

/-- The first `k` requests are granted. -/
def AllGranted (as : List Bool) (k : Nat) : Prop := ∀ n < k, granted as n = true

theorem allGranted_add (as : List Bool) (a b : Nat) : AllGranted as (a + b) ↔ AllGranted as a ∧ AllGranted (as.drop a) b := by
  unfold AllGranted
  simp only [granted_drop]
  refine ⟨fun h => ⟨fun n hn => h n (by omega), fun n hn => h (a + n) (by omega)⟩, fun ⟨h1, h2⟩ n hn => ?_⟩
  by_cases hna : n < a
  · exact h1 n hna
  · have := h2 (n - a) (by omega)
    rwa [show a + (n - a) = n by omega] at this

theorem allGranted_one (as : List Bool) : AllGranted as 1 ↔ granted as 0 = true := by
  unfold AllGranted
  exact ⟨fun h => h 0 (by omega), fun h n hn => by rw [show n = 0 by omega]; exact h⟩

/-- With answers of the allocator `f` gives the result of `o`, or fails: by a use of NULL or with the value `e`. -/
def Careful {α : Type} (e : α) (o : Out α) (f : List Bool → Out (α × List Bool)) : Prop :=
  (∀ x, o = .ok x → x ≠ e → ∃ k, ∀ as, (AllGranted as k → f as = .ok (x, as.drop k)) ∧
    (¬ AllGranted as k → f as = .ub .nullDeref ∨ ∃ as', f as = .ok (e, as'))) ∧
  ((∀ x, o = .ok x → x = e) → ∀ as x as', f as = .ok (x, as') → x = e)

theorem careful_pure {α : Type} (e x : α) : Careful e (.ok x) (fun as => .ok (x, as)) := by
  refine ⟨fun y h _ => ⟨0, fun as => ⟨fun _ => ?_, fun hn => absurd (fun n hn => absurd hn (by omega)) hn⟩⟩, fun h as y as' hy => ?_⟩
  · cases h; rfl
  · cases hy; exact h x rfl

theorem careful_ub {α : Type} (e : α) (u v : UB) : Careful e (.ub u) (fun _ => .ub v) :=
  ⟨fun _ h => (nomatch h), fun _ _ _ _ h => (nomatch h)⟩

theorem careful_bind {α β : Type} (e : α) (e' : β) (o : Out α) (f : List Bool → Out (α × List Bool)) (p : α → Out β)
    (g : α → List Bool → Out (β × List Bool)) (hf : Careful e o f) (hg : ∀ x, x ≠ e → Careful e' (p x) (g x)) (hp : ∀ y, p e = .ok y → y = e')
    (hge : ∀ as, g e as = .ok (e', as)) : Careful e' (o >>= p) (fun as => f as >>= fun x => g x.1 x.2) := by
  refine ⟨fun y h hy => ?_, fun h as y as' hy => ?_⟩
  · obtain ⟨x, hx, h⟩ := Out.bind_eq_ok.mp h
    have hxe : x ≠ e := by rintro rfl; exact hy (hp y h)
    obtain ⟨k1, h1⟩ := hf.1 x hx hxe
    obtain ⟨k2, h2⟩ := (hg x hxe).1 y h hy
    refine ⟨k1 + k2, fun as => ⟨fun hk => ?_, fun hk => ?_⟩⟩ <;> dsimp only
    · obtain ⟨ha, hb⟩ := (allGranted_add ..).mp hk
      rw [(h1 as).1 ha]
      show g x (as.drop k1) = _
      rw [(h2 _).1 hb, List.drop_drop]
    · by_cases ha : AllGranted as k1
      · rw [(h1 as).1 ha]
        exact (h2 _).2 (fun hb => hk ((allGranted_add ..).mpr ⟨ha, hb⟩))
      · rcases (h1 as).2 ha with h | ⟨as', h⟩
        · rw [h]; exact Or.inl rfl
        · rw [h]; exact Or.inr ⟨as', hge as'⟩
  · obtain ⟨⟨x, a1⟩, hx, hy⟩ := Out.bind_eq_ok.mp hy
    by_cases hxe : x = e
    · subst hxe
      have := (hge a1).symm.trans hy
      cases this; rfl
    · have hex : ∃ x0, o = .ok x0 ∧ x0 ≠ e := Classical.byContradiction (fun hn => hxe (hf.2 (fun z hz =>
        Classical.byContradiction (fun hze => hn ⟨z, hz, hze⟩)) as x a1 hx))
      obtain ⟨x0, hx0, hx0e⟩ := hex
      obtain ⟨k, hk⟩ := hf.1 x0 hx0 hx0e
      have hxx : x = x0 := by
        by_cases ha : AllGranted as k
        · rw [(hk as).1 ha] at hx; cases hx; rfl
        · rcases (hk as).2 ha with h | ⟨as', h⟩
          · rw [h] at hx; cases hx
          · rw [h] at hx; cases hx; exact absurd rfl hxe
      subst hxx
      refine (hg x hxe).2 (fun z hz => h z ?_) a1 y as' hy
      rw [hx0]; exact hz

theorem careful_checked (o : Out (Option Buf)) : Careful none o (checkedA o) := by
  refine ⟨fun x h hx => ⟨1, fun as => ?_⟩, fun h as x as' hx => ?_⟩
  · subst h
    cases x with
    | none => exact absurd rfl hx
    | some b =>
      rw [allGranted_one]
      simp only [checkedA, Out.ok_bind, grant_eq]
      refine ⟨fun h => by rw [h]; rfl, fun h => Or.inr ⟨as.drop 1, ?_⟩⟩
      rw [if_neg h]
  · obtain ⟨y, hy, hx⟩ := Out.bind_eq_ok.mp hx
    cases h y hy
    cases hx; rfl

theorem careful_unchecked (o : Out (Option Buf)) : Careful none o (uncheckedA o) := by
  refine ⟨fun x h hx => ⟨1, fun as => ?_⟩, fun h as x as' hx => ?_⟩
  · subst h
    cases x with
    | none => exact absurd rfl hx
    | some b =>
      rw [allGranted_one]
      simp only [uncheckedA, Out.ok_bind, grant_eq]
      exact ⟨fun h => by rw [if_pos h], fun h => by rw [if_neg h]; exact Or.inl rfl⟩
  · unfold uncheckedA at hx
    split at hx
    · cases hx; rfl
    · split at hx
      · obtain ⟨y, hy, hx⟩ := Out.bind_eq_ok.mp hx
        cases h y hy
        cases hx; rfl
      · cases hx

theorem careful_parseBytes (s : CStr) (n : Nat) : Careful none (parseBytes s n) (parseBytesA s n) := by
  unfold parseBytesA
  split
  · exact careful_checked _
  · split
    · exact careful_unchecked _
    · exact careful_checked _

theorem careful_congr {α : Type} {e : α} {o : Out α} {f f' : List Bool → Out (α × List Bool)} (h : ∀ as, f' as = f as)
    (hf : Careful e o f) : Careful e o f' := by rwa [show f' = f from funext h]

theorem careful_uint8 (s : CStr) : Careful none (parseUint8 s) (parseUint8A s) := by
  unfold parseUint8
  refine careful_congr (fun as => ?_) (careful_bind none none (parseBytes s 1) (parseBytesA s 1) _
    (fun o as => match o with
      | none => .ok (none, as)
      | some (x :: _) => .ok (some x, as)
      | some [] => .ub .oobRead) (careful_parseBytes s 1) (fun o ho => ?_) (fun y hy => by cases hy; rfl) (fun as => rfl))
  · unfold parseUint8A
    congr 1
    funext ⟨o, as⟩
    rcases o with _ | _ | ⟨x, l⟩ <;> rfl
  · rcases o with _ | _ | ⟨x, l⟩
    · exact absurd rfl ho
    · exact careful_ub _ _ _
    · exact careful_pure none (some x)

theorem careful_uint32 (s : CStr) : Careful none (parseUint32 s) (parseUint32A s) := by
  unfold parseUint32
  refine careful_congr (fun as => ?_) (careful_bind none none (parseBytes s 4) (parseBytesA s 4) _
    (fun o as => match o with
      | none => .ok (none, as)
      | some (a :: b :: c :: d :: _) => .ok (some (be32 a b c d), as)
      | some _ => .ub .oobRead) (careful_parseBytes s 4) (fun o ho => ?_) (fun y hy => by cases hy; rfl) (fun as => rfl))
  · unfold parseUint32A
    congr 1
    funext ⟨o, as⟩
    rcases o with _ | _ | ⟨a, _ | ⟨b, _ | ⟨c, _ | ⟨d, l⟩⟩⟩⟩ <;> rfl
  · rcases o with _ | _ | ⟨a, _ | ⟨b, _ | ⟨c, _ | ⟨d, l⟩⟩⟩⟩
    · exact absurd rfl ho
    all_goals first
      | exact careful_pure none (some (be32 a b c d))
      | exact careful_ub _ _ _

theorem careful_repeat (cnt val : CStr) : Careful none (parseVarBytesRepeat cnt val) (parseVarBytesRepeatA cnt val) := by
  unfold parseVarBytesRepeat
  refine careful_congr (fun as => ?_) (careful_bind none none (parseUint32 cnt) (parseUint32A cnt) _
    (fun o as => match o with
      | none => .ok (none, as)
      | some n => do
        let x ← parseUint8A val as
        match x.1 with
        | none => .ok (none, x.2)
        | some v => checkedA (.ok (some (List.replicate n v))) x.2) (careful_uint32 cnt) (fun o ho => ?_) (fun y hy => by cases hy; rfl) (fun as => rfl))
  · unfold parseVarBytesRepeatA
    congr 1
    funext ⟨o, as⟩
    rcases o with _ | n
    · rfl
    · dsimp only
      congr 1
      funext ⟨v, as⟩
      cases v <;> rfl
  · rcases o with _ | n
    · exact absurd rfl ho
    · refine careful_bind none none (parseUint8 val) (parseUint8A val) _
        (fun o as => match o with
          | none => .ok (none, as)
          | some v => checkedA (.ok (some (List.replicate n v))) as) (careful_uint8 val) (fun o ho => ?_) (fun y hy => by cases hy; rfl) (fun as => rfl)
      rcases o with _ | v
      · exact absurd rfl ho
      · exact careful_checked _

theorem careful_pattern (pat len : CStr) : Careful none (parseVarBytesPattern pat len) (parseVarBytesPatternA pat len) := by
  unfold parseVarBytesPattern
  refine careful_congr (fun as => ?_) (careful_bind none none (parseUint32 len) (parseUint32A len) _
    (fun o as => match o with
      | none => .ok (none, as)
      | some n => .ok (if (grant as).1 then patternBytes pat n else none, (grant as).2)) (careful_uint32 len) (fun o ho => ?_)
    (fun y hy => by cases hy; rfl) (fun as => rfl))
  · unfold parseVarBytesPatternA
    congr 1
    funext ⟨o, as⟩
    rcases o with _ | n <;> rfl
  · rcases o with _ | n
    · exact absurd rfl ho
    · have e : (if pat = c!"cnt" then Out.ok (some (cntPattern n 0#8))
          else if pat = c!"zero" then .ok (some (List.replicate n 0#8))
          else if pat = c!"ones" then .ok (some (List.replicate n 0xff#8))
          else .ok none) = .ok (patternBytes pat n) := by
        unfold patternBytes
        split
        · rfl
        · split
          · rfl
          · split <;> rfl
      dsimp only
      rw [e]
      refine ⟨fun x h hx => ⟨1, fun as => ?_⟩, fun h as x as' hx => ?_⟩
      · cases h
        dsimp only
        rw [allGranted_one, grant_eq]
        exact ⟨fun h => by rw [if_pos h], fun h => Or.inr ⟨as.drop 1, by rw [if_neg h]⟩⟩
      · have := h _ rfl
        rw [this] at hx
        cases hx
        split <;> rfl

theorem careful_seg (used : Nat) (o : Out (Option Buf)) (f : List Bool → Out (Option Buf × List Bool)) (h : Careful none o f) :
    Careful .err (do .ok (Seg.ofOpt used (← o))) (fun as => segA used (f as)) :=
  careful_bind none .err o f _ (fun o as => .ok (Seg.ofOpt used o, as)) h (fun x _ => careful_pure _ _) (fun y hy => by cases hy; rfl) (fun _ => rfl)

theorem careful_one (argv : List CStr) : Careful .err (parseVarBytes1 argv) (parseVarBytes1A argv) := by
  unfold parseVarBytes1 parseVarBytes1A
  cases argv with
  | nil => exact careful_pure _ _
  | cons w rest =>
    dsimp only
    split
    · exact careful_pure _ _
    split
    · cases rest with
      | nil => exact careful_pure _ _
      | cons a rest => exact careful_seg 2 _ _ (careful_unchecked _)
    split
    · cases rest with
      | nil => exact careful_pure _ _
      | cons a rest => exact careful_seg 2 (.ok (some (parseVarBytesAscii a))) _ (careful_unchecked _)
    split
    · cases rest with
      | nil => exact careful_pure _ _
      | cons a rest => exact careful_seg 2 (.ok (some (parseVarBytesAscii0 a))) _ (careful_unchecked _)
    split
    · rcases rest with _ | ⟨a, _ | ⟨b, rest⟩⟩
      · exact careful_pure _ _
      · exact careful_pure _ _
      · exact careful_seg 3 _ _ (careful_repeat a b)
    split
    · rcases rest with _ | ⟨a, _ | ⟨b, rest⟩⟩
      · exact careful_pure _ _
      · exact careful_pure _ _
      · exact careful_seg 3 _ _ (careful_pattern a b)
    · exact careful_pure _ _

theorem careful_join (acc : Option Buf) (b : Buf) :
    Careful none (.ok (some (match acc with | some r => r ++ b | none => b))) (joinA acc b) := by
  cases acc with
  | none => exact careful_pure _ _
  | some r => exact careful_checked _

theorem careful_loop (fuel : Nat) : ∀ (argv : List CStr) (i : Nat) (acc : Option Buf),
    Careful none (parseVarBytesLoop fuel argv i acc) (parseVarBytesLoopA fuel argv i acc) := by
  induction fuel with
  | zero => intro argv i acc; exact careful_pure _ _
  | succ fuel ih =>
    intro argv i acc
    by_cases hw : argv = []
    · rw [parseVarBytesLoop, if_pos hw]
      exact careful_congr (fun as => by rw [parseVarBytesLoopA, if_pos hw]) (careful_pure _ _)
    · rw [parseVarBytesLoop, if_neg hw]
      refine careful_congr (fun as => ?_) (careful_bind .err none (parseVarBytes1 argv) (parseVarBytes1A argv) _
        (fun o as => match o with
          | .err => .ok (none, as)
          | .stop => .ok (some (i, acc), as)
          | .seg b used => do
            let x ← joinA acc b as
            match x.1 with
            | none => .ok (none, x.2)
            | some r => parseVarBytesLoopA fuel (argv.drop used) (i + used) (some r) x.2) (careful_one argv) (fun o ho => ?_)
        (fun y hy => by cases hy; rfl) (fun as => rfl))
      · rw [parseVarBytesLoopA, if_neg hw]
        congr 1
        funext ⟨o, as⟩
        cases o with
        | err => rfl
        | stop => rfl
        | seg b used =>
          dsimp only
          congr 1
          funext ⟨v, as⟩
          cases v <;> rfl
      · cases o with
        | err => exact absurd rfl ho
        | stop => exact careful_pure _ _
        | seg b used =>
          refine careful_bind none none (.ok (some (match acc with | some r => r ++ b | none => b))) (joinA acc b)
            (fun o => match o with
              | none => .ok none
              | some r => parseVarBytesLoop fuel (argv.drop used) (i + used) (some r))
            (fun o as => match o with
              | none => .ok (none, as)
              | some r => parseVarBytesLoopA fuel (argv.drop used) (i + used) (some r) as) (careful_join acc b) (fun o ho => ?_)
            (fun y hy => by cases hy; rfl) (fun as => rfl)
          cases o with
          | none => exact absurd rfl ho
          | some r => exact ih _ _ _

/-- The full claim: if memory for a payload is refused, the payload is refused. False. -/
def C136_statement : Prop :=
  ∀ (argv : List CStr) (r : Nat × Option Buf), parseVarBytes argv = .ok (some r) → ∀ as, ∃ r' as', parseVarBytesA argv as = .ok (r', as')

/-- **C136** (partial): whatever the allocator answers, a payload that is accepted is the one that was written. -/
theorem C136_payload_partial (argv : List CStr) (as as' : List Bool) (r : Nat × Option Buf) (h : parseVarBytesA argv as = .ok (some r, as')) :
    parseVarBytes argv = .ok (some r) := by
  obtain ⟨h1, h2⟩ := careful_loop argv.length argv 0 none
  have hex : ∃ x, parseVarBytes argv = .ok x ∧ x ≠ none := Classical.byContradiction (fun hn => by
    have := h2 (fun z hz => Classical.byContradiction (fun hze => hn ⟨z, hz, hze⟩)) as _ _ h
    cases this)
  obtain ⟨x, hx, hxn⟩ := hex
  obtain ⟨k, hk⟩ := h1 x hx hxn
  rw [hx]
  by_cases ha : AllGranted as k
  · have := ((hk as).1 ha).symm.trans h
    cases this; rfl
  · rcases (hk as).2 ha with h' | ⟨a, h'⟩ <;> · have := h'.symm.trans h; cases this

/-- **C136** (partial): for each payload there is a number of requests. If all of these are granted, it is accepted. If one of them is refused,
the payload is refused or NULL is used. -/
theorem C136_requests_partial (argv : List CStr) (r : Nat × Option Buf) (h : parseVarBytes argv = .ok (some r)) :
    ∃ k, ∀ as, ((∀ n < k, granted as n = true) → parseVarBytesA argv as = .ok (some r, as.drop k)) ∧
      ((∃ n < k, granted as n = false) → parseVarBytesA argv as = .ub .nullDeref ∨ ∃ as', parseVarBytesA argv as = .ok (none, as')) := by
  obtain ⟨k, hk⟩ := (careful_loop argv.length argv 0 none).1 _ h (by simp)
  refine ⟨k, fun as => ⟨(hk as).1, fun ⟨n, hn, hg⟩ => (hk as).2 (fun ha => ?_)⟩⟩
  rw [ha n hn] at hg
  cases hg

/-- **C136**: the numbers and addresses of a frame are those written, whatever the allocator answers. -/
theorem C136_values (s : CStr) (n : Nat) (as as' : List Bool) (b : Buf) (h : parseBytesA s n as = .ok (some b, as')) :
    parseBytes s n = .ok (some b) ∧ granted as 0 = true := by
  unfold parseBytesA at h
  have key : checkedA (parseBytes s n) as = .ok (some b, as') → parseBytes s n = .ok (some b) ∧ granted as 0 = true := by
    intro h
    obtain ⟨x, hx, h⟩ := Out.bind_eq_ok.mp h
    cases x with
    | none => cases h
    | some c =>
      simp only [grant_eq] at h
      cases hg : granted as 0 with
      | false => rw [hg] at h; cases h
      | true => rw [hg] at h; cases h; exact ⟨hx, rfl⟩
  split at h
  · exact key h
  · split at h
    · unfold uncheckedA at h
      split at h
      · cases h
      · simp only [grant_eq] at h
        split at h
        · rename_i hg
          obtain ⟨x, hx, h⟩ := Out.bind_eq_ok.mp h
          cases h
          exact ⟨hx, hg⟩
        · cases h
    · exact key h

/-- A run of the payload parser as a pair: NULL is used, or else its result. -/
def payloadResult (o : Out (Option (Nat × Option Buf) × List Bool)) : Bool × Option (Nat × Option Buf) :=
  match o with
  | .ok (r, _) => (false, r)
  | .ub .nullDeref => (true, none)
  | _ => (false, none)

/-- The segments `hex`, `ascii` and `ascii0` use NULL. The others are refused, with three requests for `repeat` and two for `pattern`. One
more request is for joining segments. -/
theorem C136_examples :
    payloadResult (parseVarBytesA [c!"hex", c!"0102"] [false]) = (true, none) ∧
    payloadResult (parseVarBytesA [c!"ascii", c!"ab"] [false]) = (true, none) ∧
    payloadResult (parseVarBytesA [c!"ascii0", c!"ab"] [false]) = (true, none) ∧
    (∀ as ∈ [[false], [true, false], [true, true, false]],
      payloadResult (parseVarBytesA [c!"repeat", c!"4", c!"7"] as) = (false, none)) ∧
    payloadResult (parseVarBytesA [c!"repeat", c!"4", c!"7"] [true, true, true, false]) = (false, some (3, some [7#8, 7#8, 7#8, 7#8])) ∧
    (∀ as ∈ [[false], [true, false]], payloadResult (parseVarBytesA [c!"pattern", c!"cnt", c!"2"] as) = (false, none)) ∧
    payloadResult (parseVarBytesA [c!"pattern", c!"cnt", c!"2"] [true, true, false]) = (false, some (3, some [0#8, 1#8])) ∧
    payloadResult (parseVarBytesA [c!"hex", c!"01", c!"hex", c!"02"] [true, true, false]) = (false, none) ∧
    payloadResult (parseVarBytesA [c!"hex", c!"01", c!"hex", c!"02"] [true, true, true, false]) = (false, some (4, some [1#8, 2#8])) := by
  refine ⟨?_, ?_, ?_, ?_, ?_, ?_, ?_, ?_, ?_⟩ <;> decide +kernel

/-- **C136** is false in full. -/
theorem C136_false : ¬ C136_statement := by
  intro h
  obtain ⟨r', as', hr⟩ := h [c!"ascii", c!"ab"] (2, some c!"ab") (by rfl) [false]
  have := C136_examples.2.1
  rw [hr] at this
  simp [payloadResult] at this

end Ef.Props
