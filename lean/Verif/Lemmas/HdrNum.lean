import Verif.Lemmas.Fill

/-! # Reading fields and byte ranges of single headers -/

namespace Ef

open Spec

theorem bit_hdrBytes (h : Hdr) (i : Nat) (hi : i < 8 * h.size) : bit (hdrBytes h) i = wireBit h.fields i := by
  unfold hdrBytes
  rw [bit_packBits, if_pos hi]

theorem wireBit_last {l1 l2 : List Field} {g : Field} {v : Buf} {i : Nat} (hc : covers g i)
    (hv : fieldValue g = some v) (hl : ∀ k ∈ l2, covers k i → fieldValue k = none) :
    wireBit (l1 ++ g :: l2) i = valueBit g v i := by
  unfold wireBit
  rw [List.reverse_append, List.reverse_cons, List.append_assoc, List.find?_append]
  have : List.find? (fun f => decide (covers f i) && (fieldValue f).isSome) l2.reverse = none := by
    rw [List.find?_eq_none]
    intro k hk hcon
    simp only [Bool.and_eq_true, decide_eq_true_eq] at hcon
    have := hl k (List.mem_reverse.mp hk) hcon.1
    simp [this] at hcon
  rw [this]
  simp [hc, hv]

theorem wireBit_none {fs : List Field} {i : Nat} (hl : ∀ k ∈ fs, covers k i → fieldValue k = none) :
    wireBit fs i = false := by
  unfold wireBit
  have : List.find? (fun f => decide (covers f i) && (fieldValue f).isSome) fs.reverse = none := by
    rw [List.find?_eq_none]
    intro k hk hcon
    simp only [Bool.and_eq_true, decide_eq_true_eq] at hcon
    have := hl k (List.mem_reverse.mp hk) hcon.1
    simp [this] at hcon
  rw [this]

theorem numAt_zero {b : Buf} {off w : Nat} (h : ∀ k < w, bit b (off + k) = false) : numAt b off w = 0 := by
  unfold numAt
  have : bitsAt b off w = List.replicate w false := by
    unfold bitsAt
    rw [List.eq_replicate_iff]
    refine ⟨by simp, ?_⟩
    intro x hx
    simp only [List.mem_map, List.mem_range] at hx
    obtain ⟨k, hk, rfl⟩ := hx
    exact h k hk
  rw [this]
  clear this h
  induction w with
  | zero => rfl
  | succ n ih => simpa [List.replicate_succ, bitsNat] using ih

/-- The number a field stands for: given value, else default, else zero. -/
def fieldNum (f : Field) : Nat :=
  match fieldValue f with
  | some v => beNat v % 2 ^ f.width
  | none => 0

/-- A field that shares no bits with any other is read back. -/
theorem hdr_field {x : Hdr} {l1 l2 : List Field} {g : Field} (hx : x.fields = l1 ++ g :: l2)
    (hin : g.offset + g.width ≤ 8 * x.size) (hval : ∀ v, fieldValue g = some v → g.width ≤ 8 * v.length)
    (hd1 : ∀ k ∈ l1, k.offset + k.width ≤ g.offset) (hd2 : ∀ k ∈ l2, g.offset + g.width ≤ k.offset) :
    numAt (hdrBytes x) g.offset g.width = fieldNum g := by
  unfold fieldNum
  cases hv : fieldValue g with
  | some v =>
    simp only
    rw [← numAt_low v g.width (hval v hv)]
    apply numAt_congr
    intro k hk
    rw [bit_hdrBytes x _ (by omega), hx, wireBit_last (by unfold covers; omega) hv]
    · unfold valueBit; congr 1; omega
    · intro q hq hcq
      have := hd2 q hq
      unfold covers at hcq
      omega
  | none =>
    simp only
    apply numAt_zero
    intro k hk
    rw [bit_hdrBytes x _ (by omega)]
    apply wireBit_none
    intro q hq hcq
    rw [hx] at hq
    unfold covers at hcq
    rcases List.mem_append.mp hq with hq | hq
    · have := hd1 q hq; omega
    · rcases List.mem_cons.mp hq with rfl | hq
      · exact hv
      · have := hd2 q hq; omega

/-- The number of the first field called `n`: given value, else the default of the template, else zero. -/
def numOf (ft : Field) (v : Option Buf) : Nat :=
  match v.or ft.dflt with
  | some v => beNat v % 2 ^ ft.width
  | none => 0

theorem Inst.num {t x : Hdr} (hi : Inst t x) (ht : TFits t) (hd : disjB t = true) {n : CStr} {ft : Field}
    (hft : findField t n = some ft) :
    numAt (hdrBytes x) ft.offset ft.width = numOf ft (given x n) := by
  obtain ⟨g, _, hg, hgi, hgv⟩ := hi.getField hft
  obtain ⟨_, l1, l2, hx, _⟩ := List.find?_eq_some_iff_append.mp hg
  have hord : Ordered x.fields := ordered_inst hi.fields (disjB_iff hd)
  rw [hx] at hord
  obtain ⟨o1, o2⟩ := ordered_split hord
  have hin := hi.fieldInside ht (f := g) (by rw [hx]; simp)
  have := hdr_field hx hin.1 (fun v hv => (hin.2.2 v hv).2.1) o1 o2
  rw [hgi.offset, hgi.width] at this
  rw [this]
  unfold fieldNum numOf fieldValue
  rw [hgv, hgi.width, hgi.dflt]
  cases given x n <;> rfl

/-! ## Byte ranges -/

theorem bit_take_drop (b : Buf) (k m i : Nat) (hi : i < 8 * m) : bit ((b.drop k).take m) i = bit b (8 * k + i) := by
  unfold bit
  rw [List.getElem?_take, if_pos (by omega), List.getElem?_drop]
  have e1 : k + i / 8 = (8 * k + i) / 8 := by omega
  have e2 : i % 8 = (8 * k + i) % 8 := by omega
  rw [e1, e2]

theorem beBytes_beNat (b : Buf) : beBytes b.length (beNat b) = b := by
  induction b with
  | nil => rfl
  | cons x b ih =>
    rw [List.length_cons, beBytes, beNat_cons]
    have hl := beNat_lt b
    have hp : 0 < 256 ^ b.length := Nat.pow_pos (by omega)
    congr 1
    · apply BitVec.eq_of_toNat_eq
      rw [BitVec.toNat_ofNat, Nat.mul_comm, Nat.mul_add_div hp, Nat.div_eq_of_lt hl, Nat.add_zero]
      exact Nat.mod_eq_of_lt x.isLt
    · have : ∀ k n m, beBytes k (m * 256 ^ k + n) = beBytes k n := by
        intro k
        induction k with
        | zero => intro n m; rfl
        | succ k ik =>
          intro n m
          have hp : 0 < 256 ^ k := Nat.pow_pos (by omega)
          rw [beBytes, beBytes, Nat.pow_succ, Nat.mul_comm (256 ^ k) 256, ← Nat.mul_assoc]
          congr 1
          · apply BitVec.eq_of_toNat_eq
            rw [BitVec.toNat_ofNat, BitVec.toNat_ofNat, Nat.mul_comm (m * 256), Nat.mul_add_div hp]
            omega
          · exact ik n (m * 256)
      rw [this]
      exact ih

theorem slice_eq (b : Buf) (k m : Nat) (h : k + m ≤ b.length) :
    (b.drop k).take m = beBytes m (numAt b (8 * k) (8 * m)) := by
  have hl : ((b.drop k).take m).length = m := by rw [List.length_take, List.length_drop]; omega
  have e := beBytes_beNat ((b.drop k).take m)
  rw [hl] at e
  rw [← e, ← numAt_all, hl]
  congr 1
  apply numAt_congr
  intro j hj
  rw [Nat.zero_add]
  exact (bit_take_drop b k m j hj)

theorem drop_cons_slice (b : Buf) (k m : Nat) : b.drop k = (b.drop k).take m ++ b.drop (k + m) := by
  conv => lhs; rw [← List.take_append_drop m (b.drop k)]
  rw [List.drop_drop]

end Ef
