import Verif.Model.Frame
import Verif.Spec.Bits

/-!
# Specification notions: what a header and a frame look like on the wire

Only the data types `Field`, `Hdr`, `Frame` of the model are used, none of its functions.
-/

namespace Ef.Spec

open Ef

/-- `n` bytes whose bits (network order) are given by `g`. -/
def packBits (n : Nat) (g : Nat → Bool) : Buf :=
  (List.range n).map (fun k => BitVec.ofNat 8 (bitsNat ((List.range 8).map (fun j => g (8 * k + j)))))

/-- The value of a field on the wire: what the user (or the default computation) gave, else the default. -/
def fieldValue (f : Field) : Option Buf :=
  match f.val with
  | some v => some v
  | none => f.dflt

/-- The explicit value of the first field called `n`, if there is one. Before the default computation this is what
the user gave. -/
def given (h : Hdr) (n : CStr) : Option Buf := (h.fields.find? (fun f => f.name == n)).bind (·.val)

/-- Bit position `i` of the header belongs to the field. -/
def covers (f : Field) (i : Nat) : Prop := f.offset ≤ i ∧ i < f.offset + f.width

instance (f : Field) (i : Nat) : Decidable (covers f i) := inferInstanceAs (Decidable (_ ∧ _))

/-- Bit of value `v` at position `i` of the header: the value is right-aligned in the field. -/
def valueBit (f : Field) (v : Buf) (i : Nat) : Bool := bit v (8 * v.length - f.width + (i - f.offset))

/-- Bit `i` of a header: the last field in declaration order that covers it and has a value decides; 0 if
there is none. -/
def wireBit (fs : List Field) (i : Nat) : Bool :=
  match fs.reverse.find? (fun f => decide (covers f i) && (fieldValue f).isSome) with
  | some f => valueBit f ((fieldValue f).getD []) i
  | none => false

/-- The bytes of a header on its own. -/
def hdrBytes (h : Hdr) : Buf := packBits h.size (wireBit h.fields)

/-- Mask bit `i` of a header: some field that is not ignored covers it. -/
def maskBit (fs : List Field) (i : Nat) : Bool := fs.any (fun f => !f.rxSkip && decide (covers f i))

/-- The mask of a header on its own. -/
def hdrMask (h : Hdr) : Buf := packBits h.size (maskBit h.fields)

/-- A field with this value stays inside a header of `size` bytes, and the value is wide enough. (The bound
`2 ^ 64` is the size of the address space.) -/
def Inside (size : Nat) (f : Field) (v : Buf) : Prop :=
  f.offset + f.width ≤ 8 * size ∧ f.width ≤ 8 * v.length ∧ 8 * v.length < 2 ^ 64

/-- All fields of the header that are written stay inside the header; the others are at least not wider
than the header. An empty header has only empty fields. -/
def HdrFits (h : Hdr) : Prop :=
  (h.size = 0 ∧ ∀ f ∈ h.fields, f.width = 0 ∧ f.offset = 0) ∨
    (0 < h.size ∧ ∀ f ∈ h.fields, f.width ≤ 8 * h.size ∧ ∀ v, fieldValue f = some v → Inside h.size f v)

/-- All fields of the header (written or not, as all of them appear in the mask) stay inside it. -/
def HdrFitsMask (h : Hdr) : Prop :=
  (h.size = 0 ∧ ∀ f ∈ h.fields, f.width = 0 ∧ f.offset = 0) ∨
    (0 < h.size ∧ ∀ f ∈ h.fields, f.width ≤ 8 * h.size ∧ (f.rxSkip = false → f.offset + f.width ≤ 8 * h.size) ∧
      f.width < 2 ^ 60)

/-- Sum of the sizes of the headers. -/
def totalSize (hs : List Hdr) : Nat := (hs.map (·.size)).sum

end Ef.Spec
