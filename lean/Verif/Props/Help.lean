import Verif.Lemmas.MsgValues
import Verif.Props.Names
import Verif.Props.Values

/-!
# Property C80: the printed help describes the headers as they are sent
-/

namespace Ef.Props

open Ef Spec

/-! ## The list of headers -/

/-- Words of a frame that begins with the header `t`. -/
def headWords (t : Hdr) : List CStr :=
  match t.parser with
  | .fields => [t.name]
  | .payload => [t.name, c!"hex", c!"01"]
  | .padding => [t.name, c!"60"]

theorem headWords_all : ∀ t ∈ hdrTmpls, (match argcFrame (headWords t) with
    | .ok (some (_, f)) => (f.stack[0]?).map (·.name) == some t.name
    | _ => false) = true ∧ (headWords t).head? = some t.name := by
  decide +kernel

theorem hdrList_names : readHeaders hdrListText = hdrTmpls.map (·.name) := by decide +kernel

theorem help_msgs : argcFrameMsgs [c!"help"] = [.hdrList] ∧ argcFrame [c!"help"] = .ok none ∧ FrameStart [c!"help"] := by
  refine ⟨rfl, rfl, by simp, ?_⟩
  intro w hw
  cases hw
  decide

/-- **C80, list of headers**: the word `help` in place of a frame prints the names of exactly those headers with which a frame
can begin. -/
theorem C80_header_list {hp : Bool} {hd : List CStr} (h : LeadWords hp hd) (file w : CStr) :
    w ∈ readHeaders (printed hp file (hd ++ [c!"help"])) ↔
      ∃ rest n f, argcFrame (w :: rest) = .ok (some (n, f)) ∧ HeaderAt f 0 w := by
  have e : printed hp file (hd ++ [c!"help"]) = hdrListText := by
    unfold printed
    rw [(parseMsgs_rejected h help_msgs.2.2 help_msgs.2.1).2, help_msgs.1]
    simp [msgText]
  rw [e, hdrList_names, List.mem_map]
  constructor
  · rintro ⟨t, ht, rfl⟩
    obtain ⟨k1, k2⟩ := headWords_all t ht
    split at k1
    · rename_i n f hf
      cases hh : headWords t with
      | nil => rw [hh] at k2; simp at k2
      | cons x xs =>
        rw [hh] at k2 hf
        simp only [List.head?_cons, Option.some.injEq] at k2
        subst k2
        refine ⟨xs, n, f, hf, ?_⟩
        cases hx : f.stack[0]? with
        | none => rw [hx] at k1; simp at k1
        | some x => rw [hx] at k1; exact ⟨x, hx, by simpa using k1⟩
    · simp at k1
  · rintro ⟨rest, n, f, hf, x, hx, rfl⟩
    obtain ⟨_, u, hu, _, hn⟩ := argcFrame_shaped hf x (List.mem_of_getElem? hx)
    exact ⟨u, hu, hn.symm⟩

/-! ## The fields of a header -/

/-- The lines about the fields of `t`. -/
def helpFields (t : Hdr) : List HelpField := t.fields.map (fun f => ⟨f.name, f.offset, f.width⟩)

theorem hdrHelp_fields : ∀ t ∈ hdrTmpls, t.parser = .fields →
    readFields (hdrHelpText 0 true t (findHelp t.name)) = helpFields t := by
  decide +kernel

theorem hdr_help_msgs : ∀ t ∈ hdrTmpls, t.parser = .fields → FrameStart [t.name, c!"help"] ∧
    argcFrame [t.name, c!"help"] = .ok none ∧ argcFrameMsgs [t.name, c!"help"] = [.hdrHelp t (findHelp t.name)] := by
  intro t ht hp
  obtain ⟨hh, _, _, _⟩ := tmpl_words t ht
  have hft := findTmpl_all t ht
  refine ⟨frameStart_of ⟨t, ht, rfl⟩, ?_, ?_⟩
  · show argcFrameLoop frameStackMax 2 {} 0 [t.name, c!"help"] = _
    rw [afl_step, if_neg hh, hft]
    simp only
    unfold pushHdr
    rw [if_pos (by decide), Out.ok_bind]
    unfold runHdrParser
    rw [hp]
    rfl
  · show frameMsgs 2 {} [t.name, c!"help"] = _
    rw [frameMsgs_step hh hft]
    unfold hdrMsgs runHdrParser
    rw [hp]
    rfl

/-- **C80, fields**: the name of a header and `help` print, for all fields of the header in their order, the name, the first bit and
the number of bits. -/
theorem C80_field_list {hp : Bool} {hd : List CStr} (h : LeadWords hp hd) (file : CStr) {t : Hdr} (ht : t ∈ hdrTmpls)
    (hk : t.parser = .fields) :
    parseCmds hp (hd ++ [t.name, c!"help"]) = .ok none ∧
    readFields (printed hp file (hd ++ [t.name, c!"help"])) = t.fields.map (fun f => ⟨f.name, f.offset, f.width⟩) := by
  obtain ⟨h1, h2, h3⟩ := hdr_help_msgs t ht hk
  obtain ⟨e1, e2⟩ := parseMsgs_rejected h h1 h2
  refine ⟨e1, ?_⟩
  unfold printed
  rw [e2, h3]
  have := hdrHelp_fields t ht hk
  simpa [msgText, helpFields] using this

theorem ownSyntax_all : ∀ t ∈ hdrTmpls, ∀ f ∈ t.fields, f.parser ≠ .none → (t.name, f.name) ∈ ownSyntax := by
  decide +kernel

/-- **C80**: the position printed in the help is the position on the wire. If the help of a header has the line
`n +off:bits` (the first one about `n`, and no later line is about one of these bits), then in every frame in which `n` is given
as the number `N`, the `bits` bits from bit `off` of that header are `N` (modulo `2^bits`). -/
theorem C80_positions {hp : Bool} {hd : List CStr} (h : LeadWords hp hd) (file : CStr) {t : Hdr} (lpre lpost : List HelpField) (n : CStr)
    (off bits : Nat)
    (hhelp : readFields (printed hp file (hd ++ [t.name, c!"help"])) = lpre ++ ⟨n, off, bits⟩ :: lpost)
    (hfirst : ∀ k ∈ lpre, k.name ≠ n) (hover : ∀ k ∈ lpost, ¬ HelpField.Overlaps ⟨n, off, bits⟩ k)
    (hown : (t.name, n) ∉ ownSyntax) (hresh : t.name ∉ reshaped) (hbits : bits ≤ 64)
    {argv pre rest lead : List CStr} {f0 f f' : Frame} {b : Buf} {as : List (CStr × CStr)}
    (hA : Assigned argv pre f0 t lead as rest) (hB : Sent argv f f' b)
    (hp hq hp' hq' : List Hdr) (x x' : Hdr) (ha : At f f' hp x hq hp' x' hq') (hpos : hp.length = f0.stack.length)
    (v : CStr) (N : Nat) (hl : lastOf as n = some v) (hv : Literal v N) (hN : N < 2 ^ 64) :
    numAt b (8 * totalSize hp' + off) bits = N % 2 ^ bits := by
  rw [(C80_field_list h file hA.tmpl hA.kind).2] at hhelp
  obtain ⟨l1, l2', e, e1, e2⟩ := List.map_eq_append_iff.1 hhelp
  obtain ⟨ft, l2, rfl, e3, e4⟩ := List.map_eq_cons_iff.1 e2
  simp only [HelpField.mk.injEq] at e3
  obtain ⟨rfl, rfl, rfl⟩ := e3
  refine C70_numbers_on_the_wire hA hB hresh hp hq hp' hq' x x' ha hpos l1 l2 ft e ?_ ?_ ?_ hbits v N hl hv hN
  · intro k hk
    exact hfirst ⟨k.name, k.offset, k.width⟩ (by rw [← e1]; exact List.mem_map.2 ⟨k, hk, rfl⟩)
  · rintro k hk i ⟨⟨c1, c2⟩, c3, c4⟩
    refine hover ⟨k.name, k.offset, k.width⟩ (by rw [← e4]; exact List.mem_map.2 ⟨k, hk, rfl⟩) ?_
    unfold HelpField.Overlaps
    simp only
    omega
  · refine Classical.byContradiction fun hn => ?_
    exact hown (ownSyntax_all t hA.tmpl ft (by rw [e]; simp) hn)

/-! ## One field -/

/-- The help text of the field `n` of `t`. -/
def fieldText (t : Hdr) (n : CStr) : Option CStr := ((findHelp t.name).fields[t.fields.findIdx (fun f => f.name == n)]?).join

theorem fieldHelp_line : ∀ t ∈ hdrTmpls, t.parser = .fields → ∀ f ∈ t.fields,
    (linesOf (fieldHelpText 0 f (fieldText t f.name))).filterMap readField = [⟨f.name, f.offset, f.width⟩] := by
  decide +kernel

theorem updFirst_findIdx (n : CStr) (g : Field → Field) (hg : ∀ f, (g f).name = f.name) (l : List Field) :
    (updFirst (fun f => f.name == n) g l).findIdx (fun f => f.name == n) = l.findIdx (fun f => f.name == n) := by
  induction l with
  | nil => rfl
  | cons f l ih =>
    by_cases hf : (f.name == n) = true
    · simp [updFirst, hf, hg, List.findIdx_cons]
    · simp only [Bool.not_eq_true] at hf
      simp [updFirst, hf, List.findIdx_cons, ih]

/-- **C80, one field**: the name of a header, the name of one of its fields and `help` print one line about the field, with the same
position as in the help of the header. -/
theorem C80_one_field {hp : Bool} {hd : List CStr} (h : LeadWords hp hd) (file : CStr) {t : Hdr} (ht : t ∈ hdrTmpls)
    (hk : t.parser = .fields) {n : CStr} {f : Field} (hf : t.fields.find? (fun k => k.name == n) = some f) (hn : ¬ IgnWord n) :
    parseCmds hp (hd ++ [t.name, n, c!"help"]) = .ok none ∧
    (linesOf (printed hp file (hd ++ [t.name, n, c!"help"]))).filterMap readField = [⟨n, f.offset, f.width⟩] := by
  obtain ⟨hh, _, _, hfh⟩ := tmpl_words t ht
  have hft := findTmpl_all t ht
  obtain ⟨hm, hname⟩ := find_mem hf
  have hname' : f.name = n := by simpa using hname
  have hnh : n ≠ c!"help" := by rw [← hname']; exact hfh hk f hm
  have hni : isIgn n = false := by
    cases e : isIgn n with
    | false => rfl
    | true => exact absurd ((isIgn_iff n).1 e) hn
  have hig : isIgn c!"help" = false := by decide
  have hff : findField t n = some f := hf
  have hs : FrameStart [t.name, n, c!"help"] := frameStart_of ⟨t, ht, rfl⟩
  have hr : argcFrame [t.name, n, c!"help"] = .ok none := by
    show argcFrameLoop frameStackMax 3 {} 0 [t.name, n, c!"help"] = _
    rw [afl_step, if_neg hh, hft]
    simp only
    unfold pushHdr
    rw [if_pos (by decide), Out.ok_bind]
    unfold runHdrParser parseFields
    rw [hk]
    simp only [List.length_cons, List.length_nil]
    rw [parseFieldsLoop.eq_def]
    simp only [hff]
    rw [if_neg hnh, if_neg (by simp [hni]), if_neg (by simp [hig]), if_pos trivial]
    rfl
  have hmsg : argcFrameMsgs [t.name, n, c!"help"] = [.fieldHelp f (fieldText t n)] := by
    show frameMsgs 3 {} [t.name, n, c!"help"] = _
    have hr' : runHdrParser t ({} : Frame).padding ({} : Frame).hasMask [n, c!"help"] = .ok none := by
      unfold runHdrParser parseFields
      rw [hk]
      simp only [List.length_cons, List.length_nil]
      rw [parseFieldsLoop.eq_def]
      simp only [hff]
      rw [if_neg hnh, if_neg (by simp [hni]), if_neg (by simp [hig]), if_pos trivial]
      rfl
    rw [frameMsgs_step hh hft, hr']
    unfold hdrMsgs
    rw [hk]
    simp only [List.length_cons, List.length_nil, List.append_nil]
    rw [fieldsMsgs.eq_def]
    simp only [hff]
    rw [if_neg hnh, if_neg (by simp [hni]), if_neg (by simp [hig]), if_pos trivial]
    unfold fieldText setVal updField
    simp only
    rw [updFirst_findIdx n (fun f => { f with val := none }) (fun _ => rfl)]
  obtain ⟨e1, e2⟩ := parseMsgs_rejected h hs hr
  refine ⟨e1, ?_⟩
  unfold printed
  rw [e2, hmsg]
  have := fieldHelp_line t ht hk f hm
  rw [hname'] at this
  simpa [msgText] using this

/-! ## Cases -/

-- The line about `ttl`, read from the help of `hex ipv4 help`.
example : readField c!"ttl                 + 64:  8  Time to live" = some ⟨c!"ttl", 64, 8⟩ := by decide +kernel

-- `tx IF rep 3 eth help` is among the command lines covered.
example : LeadWords false [c!"tx", c!"eth0", c!"rep", c!"3"] := Or.inl ⟨_, Head.txRep _ _ _ (Or.inl rfl)⟩

-- The help of `ipv4` has a line about `ttl` which meets the conditions of `C80_positions`.
example : ∃ lpre lpost, readFields (printed true [] ([c!"hex"] ++ [HDR_IPV4.name, c!"help"])) = lpre ++ ⟨c!"ttl", 64, 8⟩ :: lpost ∧
    (∀ k ∈ lpre, k.name ≠ c!"ttl") ∧ (∀ k ∈ lpost, ¬ HelpField.Overlaps ⟨c!"ttl", 64, 8⟩ k) := by
  rw [(C80_field_list (Or.inl ⟨_, Head.hex⟩) [] (t := HDR_IPV4) (by decide +kernel) rfl).2]
  refine ⟨(HDR_IPV4.fields.map (fun f => (⟨f.name, f.offset, f.width⟩ : HelpField))).take 8,
    (HDR_IPV4.fields.map (fun f => (⟨f.name, f.offset, f.width⟩ : HelpField))).drop 9, by decide +kernel, by decide +kernel, ?_⟩
  unfold HelpField.Overlaps
  decide +kernel

-- Some later field shares bits in one of the internal headers: the condition matters.
example : ¬ ∀ t ∈ hdrTmpls, ∀ i j, i < j → j < t.fields.length → ∀ a b, t.fields[i]? = some a → t.fields[j]? = some b →
    ¬ HelpField.Overlaps ⟨a.name, a.offset, a.width⟩ ⟨b.name, b.offset, b.width⟩ := by
  intro h
  have key : ∃ i < HDR_IFH_LA.fields.length, ∃ j < HDR_IFH_LA.fields.length, i < j ∧ ∃ a ∈ HDR_IFH_LA.fields[i]?, ∃ b ∈ HDR_IFH_LA.fields[j]?,
      a.offset < b.offset + b.width ∧ b.offset < a.offset + a.width ∧ 0 < a.width ∧ 0 < b.width := by decide +kernel
  obtain ⟨i, _, j, h2, h3, a, h4, b, h5, h6⟩ := key
  exact h HDR_IFH_LA (by decide +kernel) i j h3 h2 a b h4 h5 h6

end Ef.Props
