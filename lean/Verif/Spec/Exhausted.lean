import Verif.Model.Exec

/-!
# What running out of memory may do to copies
-/

namespace Ef.Spec

/-- Is request number `n` granted? -/
def granted (as : List Bool) (n : Nat) : Bool := as[n]? != some false

/-- The buffers of a field, in the order in which they are copied. -/
def bufs (f : Field) : List Buf := f.val.toList ++ f.dflt.toList

/-- The number of buffers of some fields. -/
def bufCount (fs : List Field) : Nat := (fs.flatMap bufs).length

/-- A field whose copy begins with request number `n`: it keeps what was granted. -/
def kept (as : List Bool) (n : Nat) (f : Field) : Field :=
  { f with val := if granted as n then f.val else none, dflt := if granted as (n + f.val.toList.length) then f.dflt else none }

/-- A copy of a frame, which only its number of padding bytes is needed of: lost, or with the same number. -/
def FrameLoss (f f' : Option Frame) : Prop := f' = none ∨ f'.map (·.padding) = f.map (·.padding)

/-- A command that may have lost its frame, the bytes of it or the mask, and is unchanged else. -/
def Loss (c c' : Cmd) : Prop :=
  c' = { c with frame := c'.frame, buf := c'.buf, mask := c'.mask } ∧ FrameLoss c.frame c'.frame ∧ (c'.buf = none ∨ c'.buf = c.buf) ∧
    (c'.mask = none ∨ c'.mask = c.mask)

end Ef.Spec
