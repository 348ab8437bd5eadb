import Verif.Lemmas.ParseSize
import Verif.Lemmas.Bits
import Verif.Model.Fill

/-! # Numbers printed by the default computations are read back -/

namespace Ef

open Spec

theorem numeral_append {base : Nat} {s t : CStr} {m n : Nat} (hs : Numeral base s m) (ht : Numeral base t n) :
    Numeral base (s ++ t) (m * base ^ t.length + n) := by
  induction ht with
  | nil => simpa using hs
  | snoc t n c d _ hc hd ih =>
    have := Numeral.snoc _ _ c d ih hc hd
    rw [List.append_assoc] at this
    have e : (m * base ^ t.length + n) * base + d = m * base ^ (t ++ [c]).length + (n * base + d) := by
      rw [List.length_append, List.length_singleton, Nat.pow_succ, Nat.add_mul, ← Nat.mul_assoc, Nat.add_assoc]
    rwa [e] at this

theorem numeral_single {base : Nat} {c : Byte} {d : Nat} (hc : Digit c d) (hd : d < base) : Numeral base [c] d := by
  have := Numeral.snoc [] 0 c d (Numeral.nil) hc hd
  simpa using this

theorem decLoop_numeral : ∀ (fuel n : Nat) (acc : CStr) (m : Nat), n < fuel → Numeral 10 acc m →
    Numeral 10 (decLoop fuel n acc) (n * 10 ^ acc.length + m) := by
  intro fuel
  induction fuel with
  | zero => intro n acc m h; omega
  | succ fuel ih =>
    intro n acc m h hacc
    unfold decLoop
    simp only
    have hd : Digit (BitVec.ofNat 8 (48 + n % 10)) (n % 10) := Digit.dec _ (by omega)
    have h1 : Numeral 10 (BitVec.ofNat 8 (48 + n % 10) :: acc) (n % 10 * 10 ^ acc.length + m) :=
      numeral_append (numeral_single hd (by omega)) hacc
    split
    · rename_i hlt
      have : n % 10 = n := by omega
      rw [this] at h1 ⊢
      exact h1
    · have := ih (n / 10) _ _ (by omega) h1
      have e : n / 10 * 10 ^ (BitVec.ofNat 8 (48 + n % 10) :: acc).length + (n % 10 * 10 ^ acc.length + m) =
          n * 10 ^ acc.length + m := by
        rw [List.length_cons, Nat.pow_succ, Nat.mul_comm (10 ^ acc.length) 10, ← Nat.mul_assoc, ← Nat.add_assoc,
          ← Nat.add_mul]
        congr 2
        omega
      rwa [e] at this

theorem decStr_numeral (n : Nat) : Numeral 10 (decStr n) n := by
  have := decLoop_numeral (n + 1) n [] 0 (by omega) Numeral.nil
  simpa [decStr] using this

theorem hexLoop_numeral : ∀ (fuel n : Nat) (acc : CStr) (m : Nat), n < fuel → Numeral 16 acc m →
    Numeral 16 (hexLoop fuel n acc) (n * 16 ^ acc.length + m) := by
  intro fuel
  induction fuel with
  | zero => intro n acc m h; omega
  | succ fuel ih =>
    intro n acc m h hacc
    unfold hexLoop
    simp only
    have hd : Digit (hexChar (n % 16)) (n % 16) := hexChar_digit _ (by omega)
    have h1 : Numeral 16 (hexChar (n % 16) :: acc) (n % 16 * 16 ^ acc.length + m) :=
      numeral_append (numeral_single hd (by omega)) hacc
    split
    · rename_i hlt
      have : n % 16 = n := by omega
      rw [this] at h1 ⊢
      exact h1
    · have := ih (n / 16) _ _ (by omega) h1
      have e : n / 16 * 16 ^ (hexChar (n % 16) :: acc).length + (n % 16 * 16 ^ acc.length + m) =
          n * 16 ^ acc.length + m := by
        rw [List.length_cons, Nat.pow_succ, Nat.mul_comm (16 ^ acc.length) 16, ← Nat.mul_assoc, ← Nat.add_assoc,
          ← Nat.add_mul]
        congr 2
        omega
      rwa [e] at this

theorem hexStr_literal (n : Nat) : Literal (hexStr n) n := by
  have := hexLoop_numeral (n + 1) n [] 0 (by omega) Numeral.nil
  exact Literal.hex _ _ (by simpa using this)

theorem parseBytes_decStr (n k : Nat) (hk : k ≤ 8) (hn : n < 2 ^ 64) :
    parseBytes (decStr n) k = .ok (some (beBytes k n)) := by
  rw [parseBytes_literal (Literal.dec _ _ (decStr_numeral n)) k hk, if_pos hn]

theorem parseBytes_hexStr (n k : Nat) (hk : k ≤ 8) (hn : n < 2 ^ 64) :
    parseBytes (hexStr n) k = .ok (some (beBytes k n)) := by
  rw [parseBytes_literal (hexStr_literal n) k hk, if_pos hn]

/-- Whatever the number, the text is parsed without an undefined operation. -/
theorem parseBytes_decStr_total (n k : Nat) (hk : k ≤ 8) :
    parseBytes (decStr n) k = .ok (if n < 2 ^ 64 then some (beBytes k n) else none) :=
  parseBytes_literal (Literal.dec _ _ (decStr_numeral n)) k hk

theorem beNat_beBytes (k n : Nat) : beNat (beBytes k n) = n % 256 ^ k := by
  induction k with
  | zero => simp [beBytes, beNat, Nat.mod_one]
  | succ k ih =>
    rw [beBytes, beNat_cons, ih, beBytes_length, BitVec.toNat_ofNat]
    have h : n % (256 ^ k * 256) = n % 256 ^ k + 256 ^ k * (n / 256 ^ k % 256) := by rw [Nat.mod_mul]
    have e : (256 : Nat) ^ (k + 1) = 256 ^ k * 256 := Nat.pow_succ ..
    rw [e, h, Nat.mul_comm (256 ^ k), Nat.add_comm]

end Ef
