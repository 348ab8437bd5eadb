/-!
# Basic notions of the model

Bytes, buffers, C strings, and the outcome of a C computation.
-/

namespace Ef

/-- `uint8_t` / `char`. Character comparisons in the code only use ASCII ranges, so signedness of
`char` does not matter. -/
abbrev Byte := BitVec 8

/-- A non-NULL `buf_t *` (ef.h:22-25): the bytes `data[0 .. size-1]`. `Option Buf` is a possibly NULL one. -/
abbrev Buf := List Byte

/-- A C string without its terminating NUL. Words of `argv` contain no NUL byte. -/
abbrev CStr := List Byte

open Lean in
/-- `c!"text"` is the C string with the (ASCII) characters of the literal. -/
macro:max "c!" s:str : term => do
  let cs := s.getString.toList
  let elems ← cs.mapM fun ch => do
    let n := Syntax.mkNumLit (toString ch.toNat)
    `(BitVec.ofNat 8 $n)
  let elems := elems.toArray
  `(([$elems,*] : List (BitVec 8)))

/-- `ch!"x"` is the character `x` as a byte. -/
macro:max "ch!" s:str : term => do
  let n := Lean.Syntax.mkNumLit (toString (s.getString.toList.headD 'x').toNat)
  `(BitVec.ofNat 8 $n)

/-- Kinds of undefined behaviour the model distinguishes. -/
inductive UB where
  /-- write outside an allocated object -/
  | oobWrite
  /-- read outside an allocated object -/
  | oobRead
  /-- use of a null pointer -/
  | nullDeref
  /-- use of an uninitialised variable -/
  | uninit
  /-- negative length passed to a memory function -/
  | badLength
  deriving DecidableEq, Repr

/-- Outcome of a C computation: a value, undefined behaviour, a failed `assert`, or a call of `exit`. -/
inductive Out (α : Type) where
  | ok (a : α)
  | ub (u : UB)
  | abort
  | exit (code : Int)
  deriving DecidableEq, Repr

namespace Out

/-- Sequencing: anything but a value ends the computation. -/
def bind {α β : Type} : Out α → (α → Out β) → Out β
  | ok a, f => f a
  | ub u, _ => ub u
  | abort, _ => abort
  | exit c, _ => exit c

instance : Monad Out where
  pure := ok
  bind := bind

@[simp] theorem pure_eq {α : Type} (a : α) : (pure a : Out α) = ok a := rfl
@[simp] theorem ok_bind {α β : Type} (a : α) (f : α → Out β) : (ok a >>= f) = f a := rfl
@[simp] theorem ub_bind {α β : Type} (u : UB) (f : α → Out β) : (ub u >>= f) = ub u := rfl
@[simp] theorem abort_bind {α β : Type} (f : α → Out β) : ((abort : Out α) >>= f) = abort := rfl
@[simp] theorem exit_bind {α β : Type} (c : Int) (f : α → Out β) : ((exit c : Out α) >>= f) = exit c := rfl

/-- Did the computation end normally? -/
def isOk {α : Type} : Out α → Bool
  | ok _ => true
  | _ => false

/-- The value of a normally ended computation. -/
def get? {α : Type} : Out α → Option α
  | ok a => some a
  | _ => none

theorem bind_eq_ok {α β : Type} {x : Out α} {f : α → Out β} {b : β} :
    (x >>= f) = ok b ↔ ∃ a, x = ok a ∧ f a = ok b := by
  cases x <;> simp

instance : LawfulMonad Out := LawfulMonad.mk'
  (id_map := fun x => by cases x <;> rfl)
  (pure_bind := fun _ _ => rfl)
  (bind_assoc := fun x _ _ => by cases x <;> rfl)

end Out

end Ef
