import Verif.Spec.Rare
import Verif.Props.Checksum
import Verif.Props.Multicast

/-!
# Wrong checksums are rare and off by one (C130)
-/

namespace Ef.Props

open Ef Ef.Spec

/-! ## C130: the routine -/

theorem swapped_htons {n : Nat} (h : n < 65536) : swapped (htons n) = n := by
  unfold swapped htons
  have hq : n / 256 < 256 := by omega
  have hn : n = 256 * (n / 256) + n % 256 := by omega
  have hr : n % 256 < 256 := by omega
  generalize n / 256 = q at *
  generalize n % 256 = r at *
  rw [Nat.mod_eq_of_lt hq, hn]
  have e1 : (r * 256 + q) % 256 = q := by omega
  have e2 : (r * 256 + q) / 256 = r := by omega
  rw [e1, e2]

/-- **C130, the routine**: a checksum that is not the one of RFC 1071 is too large by one, in the byte order of the host. -/
theorem C130_off_by_one (b : Buf) (h : hostSum b < 2 ^ 32) :
    inetChksum 0 b = rfc1071 b ∨ swapped (inetChksum 0 b) = swapped (rfc1071 b) + 1 := by
  by_cases hn : OneFold b
  · exact .inl (inetChksum_rfc hn)
  right
  have h2 : 65536 ≤ hostSum b / 65536 + hostSum b % 65536 := by
    unfold OneFold at hn; omega
  rw [inetChksum_eq 0 b (by omega) (by omega), Nat.zero_add]
  unfold rfc1071
  obtain ⟨o1, o2, o3⟩ := onesSum_spec b
  obtain ⟨p1, p2⟩ := hostSum_beSum b
  generalize hF : (hostSum b / 65536 + hostSum b % 65536) % 65536 = F
  have hFl : F + 1 < 65536 := by omega
  have hz : hostSum b ≠ 0 := by omega
  have hc : (F + 1) % 65535 = hostSum b % 65535 := by
    have e1 : hostSum b = F + 1 + 65535 * (hostSum b / 65536 + 1) := by omega
    rw [e1, Nat.add_mul_mod_self_left]
  have q1 := htons_mod hFl
  have e : htons (F + 1) % 65535 = onesSum b % 65535 := by
    rw [o2, ← p1, q1]; exact mul256_mod hc
  have q4 : htons (F + 1) ≠ 0 := by unfold htons; omega
  have q5 : onesSum b ≠ 0 := fun h0 => hz (p2.mpr (o3.mp h0))
  have q6 := htons_lt (F + 1)
  have e2 : onesSum b = htons (F + 1) := by omega
  rw [e2, ← htons_compl hFl, swapped_htons (by omega), swapped_htons (by omega)]
  omega

/-! ## Words -/

/-- Two bytes put at position `k`. -/
def putAt (b : Buf) (k : Nat) (x y : Byte) : Buf := b.take k ++ [x, y] ++ b.drop (k + 2)

theorem putAt_length {b : Buf} {k : Nat} (h : k + 2 ≤ b.length) (x y : Byte) : (putAt b k x y).length = b.length := by
  unfold putAt
  simp only [List.length_append, List.length_take, List.length_drop, List.length_cons, List.length_nil]
  omega

theorem putAt_get {b : Buf} {k : Nat} (h : k + 2 ≤ b.length) (x y : Byte) (j : Nat) :
    (putAt b k x y)[j]? = if j = k then some x else if j = k + 1 then some y else b[j]? := by
  unfold putAt
  have hl : (b.take k).length = k := by rw [List.length_take]; omega
  rw [List.append_assoc]
  by_cases h1 : j < k
  · rw [List.getElem?_append_left (by omega), List.getElem?_take, if_pos h1, if_neg (by omega), if_neg (by omega)]
  · rw [List.getElem?_append_right (by omega), hl]
    by_cases h2 : j = k
    · subst h2; simp
    · by_cases h3 : j = k + 1
      · subst h3
        have : k + 1 - k = 1 := by omega
        simp [this]
      · rw [if_neg h2, if_neg h3, List.getElem?_append_right (by simp; omega), List.getElem?_drop]
        congr 1
        simp only [List.length_cons, List.length_nil]
        omega

theorem hostSum_append {a : Buf} (h : a.length % 2 = 0) (b : Buf) : hostSum (a ++ b) = hostSum a + hostSum b := by
  induction a using buf_induct with
  | h0 => simp [hostSum]
  | h1 x => simp at h
  | h2 x y a ih =>
    simp only [List.length_cons] at h
    simp only [List.cons_append, hostSum]
    rw [ih (by omega)]
    omega

theorem hostSum_putAt {b : Buf} {k : Nat} (hk : k % 2 = 0) (h : k + 2 ≤ b.length) (x y : Byte) :
    hostSum (putAt b k x y) = hostSum (putAt b k 0#8 0#8) + (x.toNat + 256 * y.toNat) := by
  have hl : (b.take k).length % 2 = 0 := by rw [List.length_take, Nat.min_eq_left (by omega)]; exact hk
  unfold putAt
  rw [List.append_assoc, List.append_assoc, hostSum_append hl, hostSum_append hl]
  simp only [List.cons_append, List.nil_append, hostSum, BitVec.toNat_ofNat, Nat.zero_mod]
  omega

theorem putAt_self {b : Buf} {k : Nat} (h : k + 2 ≤ b.length) : putAt b k (b.getD k 0#8) (b.getD (k + 1) 0#8) = b := by
  apply List.ext_getElem?
  intro j
  rw [putAt_get h]
  have e1 := List.getElem?_eq_getElem (l := b) (i := k) (by omega)
  have e2 := List.getElem?_eq_getElem (l := b) (i := k + 1) (by omega)
  split
  · rename_i e; subst e; rw [e1]; simp [List.getD, e1]
  · split
    · rename_i e; subst e; rw [e2]; simp [List.getD, e2]
    · rfl

theorem putAt_comm {b : Buf} {k p : Nat} (hk : k % 2 = 0) (hp : p % 2 = 0) (hne : k ≠ p) (h1 : k + 2 ≤ b.length)
    (h2 : p + 2 ≤ b.length) (x y u v : Byte) : putAt (putAt b p u v) k x y = putAt (putAt b k x y) p u v := by
  apply List.ext_getElem?
  intro j
  have l1 : k + 2 ≤ (putAt b p u v).length := by rw [putAt_length h2]; exact h1
  have l2 : p + 2 ≤ (putAt b k x y).length := by rw [putAt_length h1]; exact h2
  rw [putAt_get l1, putAt_get l2, putAt_get h1, putAt_get h2]
  by_cases a1 : j = k
  · subst a1; rw [if_pos rfl, if_neg hne, if_neg (by omega), if_pos rfl]
  by_cases a2 : j = k + 1
  · subst a2; rw [if_neg a1, if_pos rfl, if_neg (by omega), if_neg (by omega), if_neg a1, if_pos rfl]
  rw [if_neg a1, if_neg a2, if_neg a1, if_neg a2]

theorem agree_zero {D E : Buf} {k p : Nat} (h : AgreeBut k p D E) (h1 : k + 2 ≤ D.length) (h2 : p + 2 ≤ D.length) :
    putAt (putAt E p 0#8 0#8) k 0#8 0#8 = putAt (putAt D p 0#8 0#8) k 0#8 0#8 := by
  apply List.ext_getElem?
  intro j
  have hl := h.1
  have h3 : p + 2 ≤ E.length := by omega
  have l1 : k + 2 ≤ (putAt E p 0#8 0#8).length := by rw [putAt_length h3]; omega
  have l2 : k + 2 ≤ (putAt D p 0#8 0#8).length := by rw [putAt_length h2]; exact h1
  rw [putAt_get l1, putAt_get l2, putAt_get h3, putAt_get h2]
  by_cases a1 : j = k
  · rw [if_pos a1, if_pos a1]
  by_cases a2 : j = k + 1
  · rw [if_neg a1, if_neg a1, if_pos a2, if_pos a2]
  by_cases a3 : j = p
  · simp only [if_neg a1, if_neg a2, if_pos a3]
  by_cases a4 : j = p + 1
  · simp only [if_neg a1, if_neg a2, if_neg a3, if_pos a4]
  simp only [if_neg a1, if_neg a2, if_neg a3, if_neg a4]
  exact h.2 j a1 a2 a3 a4

/-- The sum of the other words. -/
theorem hostSum_two_zero {D : Buf} {k p : Nat} (hk : k % 2 = 0) (hp : p % 2 = 0) (hne : k ≠ p) (h1 : k + 2 ≤ D.length)
    (h2 : p + 2 ≤ D.length) :
    hostSum (putAt (putAt D p 0#8 0#8) k 0#8 0#8) + 2 * 65535 ≤ 65535 * ((D.length + 1) / 2) := by
  have l1 : k + 2 ≤ (putAt D p 0xff#8 0xff#8).length := by rw [putAt_length h2]; exact h1
  have l2 : p + 2 ≤ (putAt D k 0#8 0#8).length := by rw [putAt_length h1]; exact h2
  have e1 := hostSum_putAt hk l1 0xff#8 0xff#8
  have e2 := hostSum_putAt hp l2 0xff#8 0xff#8
  rw [← putAt_comm hk hp hne h1 h2, ← putAt_comm hk hp hne h1 h2] at e2
  have e3 := hostSum_le (putAt (putAt D p 0xff#8 0xff#8) k 0xff#8 0xff#8)
  rw [putAt_length l1, putAt_length h2] at e3
  have e4 : (0xff#8 : Byte).toNat = 255 := rfl
  rw [e4] at e1 e2
  omega

/-- **C130, any data**: of all data that agree except for the checksum and one more word, at most as many have a wrong
checksum as there are other words. -/
theorem rare {D : Buf} {k p : Nat} (hk : k % 2 = 0) (hp : p % 2 = 0) (hne : k ≠ p) (h1 : k + 2 ≤ D.length)
    (h2 : p + 2 ≤ D.length) (h6 : 6 ≤ D.length) (hmax : D.length ≤ 131072) :
    ∃ L : List Nat, L.length ≤ (D.length + 1) / 2 - 2 ∧
      ∀ E, AgreeBut k p D E → ValidIffOneFold E p → ¬ ChecksumValid E → wordAt E k ∈ L := by
  have hS := hostSum_two_zero hk hp hne h1 h2
  generalize hSe : hostSum (putAt (putAt D p 0#8 0#8) k 0#8 0#8) = S at hS
  generalize hWe : (D.length + 1) / 2 = W at hS ⊢
  have hW : 3 ≤ W ∧ W ≤ 65536 := by omega
  have hQ : S / 65536 + 1 ≤ W - 2 := by
    have : S ≤ 65535 * (W - 2) := by omega
    have : S < 65536 * (W - 2) := by omega
    have := Nat.div_lt_of_lt_mul this
    omega
  refine ⟨(List.range (S / 65536 + 1)).map (fun i =>
    swapped ((65536 - (S / 65536 + 1) + i + (65536 - S % 65536)) % 65536)), ?_, ?_⟩
  · rw [List.length_map, List.length_range]; exact hQ
  intro E hE hv hbad
  have hl := hE.1
  have he : hostSum (zeroAt E p) = S + ((E.getD k 0#8).toNat + 256 * (E.getD (k + 1) 0#8).toNat) := by
    have z : zeroAt E p = putAt E p 0#8 0#8 := rfl
    have l1 : k + 2 ≤ (putAt E p 0#8 0#8).length := by rw [putAt_length (by omega)]; omega
    have e1 := hostSum_putAt hk l1 ((putAt E p 0#8 0#8).getD k 0#8) ((putAt E p 0#8 0#8).getD (k + 1) 0#8)
    rw [putAt_self l1, agree_zero hE h1 h2, hSe] at e1
    have g1 : (putAt E p 0#8 0#8).getD k 0#8 = E.getD k 0#8 := by
      simp only [List.getD]
      rw [putAt_get (by omega), if_neg hne, if_neg (by omega)]
    have g2 : (putAt E p 0#8 0#8).getD (k + 1) 0#8 = E.getD (k + 1) 0#8 := by
      simp only [List.getD]
      rw [putAt_get (by omega), if_neg (by omega), if_neg (by omega)]
    rw [g1, g2] at e1
    rw [z]
    exact e1
  have b1 := (E.getD k 0#8).isLt
  have b2 := (E.getD (k + 1) 0#8).isLt
  have hno : ¬ OneFold (zeroAt E p) := fun h => hbad (hv.1 h)
  have hlt : hostSum (zeroAt E p) < 2 ^ 32 := by rw [he]; omega
  have hf : 65536 ≤ hostSum (zeroAt E p) / 65536 + hostSum (zeroAt E p) % 65536 := by
    unfold OneFold at hno; omega
  rw [he] at hf
  rw [List.mem_map]
  unfold wordAt
  generalize (E.getD k 0#8).toNat = x at *
  generalize (E.getD (k + 1) 0#8).toNat = y at *
  refine ⟨(S + (x + 256 * y)) % 65536 - (65536 - (S / 65536 + 1)), ?_, ?_⟩
  · rw [List.mem_range]; omega
  · have e5 : (65536 - (S / 65536 + 1) + ((S + (x + 256 * y)) % 65536 - (65536 - (S / 65536 + 1))) + (65536 - S % 65536)) % 65536 =
        x + 256 * y := by omega
    rw [e5]
    unfold swapped
    omega

/-! ## Frames -/

/-- The words `argv` give a frame in which the checksum at position `p` of the data `E` (with pseudo header, read from the
frame itself) was filled in by the program. -/
inductive Summed (argv : List CStr) : Buf → Nat → Prop where
  | ipv4 {f f' : Frame} {b : Buf} {pre post pre' post' : List Hdr} {x x' : Hdr} : Built argv f f' b →
      At f f' pre x post pre' x' post' → x.name = c!"ipv4" → given x c!"chksum" = none →
      Summed argv (slice b (totalSize pre') 20) 10
  | over4 {f f' : Frame} {b : Buf} {pre post pre' post' : List Hdr} {ip ip' x x' : Hdr} {p : CStr × Nat × Nat} :
      Built argv f f' b → At f f' (pre ++ [ip]) x post (pre' ++ [ip']) x' post' → ip.name = c!"ipv4" → p ∈ transports →
      x.name = p.1 → given x c!"chksum" = none →
      Summed argv (covered4 b (totalSize pre') (totalSize (pre' ++ [ip'])) p.2.1 (totalSize (x' :: post'))) (12 + p.2.2)
  | over6 {f f' : Frame} {b : Buf} {pre post pre' post' : List Hdr} {ip ip' x x' : Hdr} {p : CStr × Nat × Nat} :
      Built argv f f' b → At f f' (pre ++ [ip]) x post (pre' ++ [ip']) x' post' → ip.name = c!"ipv6" → p ∈ transports →
      x.name = p.1 → given x c!"chksum" = none →
      Summed argv (covered6 b (totalSize pre') (totalSize (pre' ++ [ip'])) p.2.1 (totalSize (x' :: post'))) (40 + p.2.2)
  | icmp {f f' : Frame} {b : Buf} {pre post pre' post' : List Hdr} {ip ip' x x' : Hdr} : Built argv f f' b →
      At f f' (pre ++ [ip]) x post (pre' ++ [ip']) x' post' → x.name = c!"icmp" → given x c!"chksum" = none →
      ip.name ≠ c!"ipv6" → Summed argv (slice b (totalSize (pre' ++ [ip'])) (totalSize (x' :: post'))) 2
  | icmp6 {f f' : Frame} {b : Buf} {pre post pre' post' : List Hdr} {ip ip' x x' : Hdr} : Built argv f f' b →
      At f f' (pre ++ [ip]) x post (pre' ++ [ip']) x' post' → x.name = c!"icmp" → given x c!"chksum" = none →
      ip.name = c!"ipv6" →
      Summed argv (covered6 b (totalSize pre') (totalSize (pre' ++ [ip'])) 58 (totalSize (x' :: post'))) (40 + 2)
  | igmp {f f' : Frame} {b : Buf} {pre post pre' post' : List Hdr} {x x' : Hdr} : Built argv f f' b →
      At f f' pre x post pre' x' post' → x.name = c!"igmp" → given x c!"chksum" = none →
      Summed argv (slice b (totalSize pre') (totalSize (x' :: post'))) 2
  | mld {f f' : Frame} {b : Buf} {pre mid post pre' mid' post' : List Hdr} {ip ip' x x' : Hdr} : Built argv f f' b →
      At f f' (pre ++ ip :: mid) x post (pre' ++ ip' :: mid') x' post' → pre'.length = pre.length →
      (∀ y ∈ pre, y.name ≠ c!"ipv6") → ip.name = c!"ipv6" → x.name = c!"mld" → given x c!"chksum" = none →
      Summed argv (covered6 b (totalSize pre') (totalSize (pre' ++ ip' :: mid')) 58 (totalSize (x' :: post'))) (40 + 2)

theorem Summed.iff {argv : List CStr} {E : Buf} {p : Nat} (h : Summed argv E p) : ValidIffOneFold E p := by
  cases h with
  | ipv4 hb ha hx hg =>
    have := (C31_ipv4_checksum_partial _ _ _ _ hb _ _ _ _ _ _ ha hx hg).2
    exact ⟨this.mpr, fun _ => this.mp⟩
  | over4 hb ha hip hp hx hg => exact C34_over_ipv4_partial _ _ _ _ hb _ _ _ _ _ _ _ _ ha hip _ hp hx hg
  | over6 hb ha hip hp hx hg => exact C34_over_ipv6_partial _ _ _ _ hb _ _ _ _ _ _ _ _ ha hip _ hp hx hg
  | icmp hb ha hx hg hip => exact (C35_icmp_checksum_partial _ _ _ _ hb _ _ _ _ _ _ _ _ ha hx hg).2 hip
  | icmp6 hb ha hx hg hip => exact (C35_icmp_checksum_partial _ _ _ _ hb _ _ _ _ _ _ _ _ ha hx hg).1 hip
  | igmp hb ha hx hg => exact C36_igmp_checksum_partial _ _ _ _ hb _ _ _ _ _ _ ha hx hg
  | mld hb ha hl hn hip hx hg => exact C37_mld_checksum_partial _ _ _ _ hb _ _ _ _ _ _ _ _ _ _ ha hl hn hip hx hg

theorem Summed.even {argv : List CStr} {E : Buf} {p : Nat} (h : Summed argv E p) : p % 2 = 0 := by
  cases h with
  | over4 _ _ _ hp _ _ =>
    simp only [transports, List.mem_cons, List.not_mem_nil, or_false] at hp
    rcases hp with rfl | rfl <;> rfl
  | over6 _ _ _ hp _ _ =>
    simp only [transports, List.mem_cons, List.not_mem_nil, or_false] at hp
    rcases hp with rfl | rfl <;> rfl
  | _ => rfl

/-- **C130**: take all frames whose data under one checksum agree except for this checksum and one more word, for example
the identification of an ipv4 header or a port. Of the 65536 values of this word, the checksum is wrong for at most as
many as there are other words. -/
theorem C130_rare (D : Buf) (k p : Nat) (hk : k % 2 = 0) (hp : p % 2 = 0) (hne : k ≠ p) (h1 : k + 2 ≤ D.length)
    (h2 : p + 2 ≤ D.length) (h6 : 6 ≤ D.length) (hmax : D.length ≤ 131072) :
    ∃ L : List Nat, L.length ≤ (D.length + 1) / 2 - 2 ∧
      ∀ argv E, Summed argv E p → AgreeBut k p D E → ¬ ChecksumValid E → wordAt E k ∈ L := by
  obtain ⟨L, hl, h⟩ := rare hk hp hne h1 h2 h6 hmax
  exact ⟨L, hl, fun argv E hs ha hb => h E ha hs.iff hb⟩

/-- C130 for ipv4 headers: at most 8 of the 65536 values of any other word. -/
theorem C130_ipv4 (D : Buf) (k : Nat) (hk : k % 2 = 0) (hne : k ≠ 10) (h1 : k + 2 ≤ 20) (hD : D.length = 20) :
    ∃ L : List Nat, L.length ≤ 8 ∧
      ∀ argv f f' b pre post pre' post' x x', Built argv f f' b → At f f' pre x post pre' x' post' → x.name = c!"ipv4" →
        given x c!"chksum" = none → AgreeBut k 10 D (slice b (totalSize pre') 20) →
        ¬ ChecksumValid (slice b (totalSize pre') 20) → wordAt (slice b (totalSize pre') 20) k ∈ L := by
  obtain ⟨L, hl, h⟩ := C130_rare D k 10 hk rfl hne (by omega) (by omega) (by omega) (by omega)
  rw [hD] at hl
  exact ⟨L, hl, fun argv f f' b pre post pre' post' x x' hb ha hx hg hag hv => h argv _ (.ipv4 hb ha hx hg) hag hv⟩

/-- C130: the checksum is right if the sum over the other words, in the byte order of the host, is not within the number of words
of the next multiple of 65536. -/
theorem C130_usual (argv : List CStr) (E : Buf) (p : Nat) (h : Summed argv E p) (hp : p + 2 ≤ E.length) (hmax : E.length ≤ 131072)
    (hs : hostSum (zeroAt E p) % 65536 + (E.length + 1) / 2 ≤ 65536) : ChecksumValid E := by
  refine h.iff.1 ?_
  have hl : (zeroAt E p).length = E.length := putAt_length hp 0#8 0#8
  have := hostSum_le (zeroAt E p)
  rw [hl] at this
  unfold OneFold
  generalize hostSum (zeroAt E p) = S at *
  generalize hW : (E.length + 1) / 2 = W at *
  have hW2 : 1 ≤ W ∧ W ≤ 65536 := by omega
  have hq : S / 65536 < W := by
    apply Nat.div_lt_of_lt_mul
    omega
  refine ⟨by omega, by omega⟩

/-! ## Examples -/

/-- Words with a wrong checksum, and the same words with the next identification. -/
def unlucky (id : CStr) : List CStr := [c!"eth", c!"ipv4", c!"id", id, c!"sip", c!"255.255.255.255"]

theorem summed_ipv4 {argv : List CStr} {i : Nat} {P : Buf → Bool}
    (h : holdsAt argv i (fun _ _ b _ x pre' _ => decide (x.name = c!"ipv4" ∧ given x c!"chksum" = none) &&
      P (slice b (totalSize pre') 20)) = true) : ∃ E, Summed argv E 10 ∧ P E = true := by
  obtain ⟨f, f', b, pre, x, post, pre', x', post', h1, h2, h3⟩ := holdsAt_elim h
  simp only [Bool.and_eq_true, decide_eq_true_eq] at h3
  exact ⟨_, .ipv4 h1 h2 h3.1.1 h3.1.2, h3.2⟩

/-- A header with a wrong checksum; it is 0xfeff instead of 0xfdff. With another identification the same words give a right one. -/
theorem C130_example :
    (∃ E, Summed (unlucky c!"0x9dda") E 10 ∧ ¬ ChecksumValid E ∧ wordAt E 4 = 0x9dda ∧
      rfc1071 (zeroAt E 10) = 0xfdff ∧ wordAt E 10 = 0xfeff) ∧
    (∃ E, Summed (unlucky c!"0x9ddb") E 10 ∧ ChecksumValid E ∧ wordAt E 4 = 0x9ddb) := by
  constructor
  · obtain ⟨E, h1, h2⟩ := summed_ipv4 (argv := unlucky c!"0x9dda") (i := 1)
      (P := fun E => decide (¬ ChecksumValid E ∧ wordAt E 4 = 0x9dda ∧ rfc1071 (zeroAt E 10) = 0xfdff ∧ wordAt E 10 = 0xfeff))
      (by decide +kernel)
    exact ⟨E, h1, of_decide_eq_true h2⟩
  · obtain ⟨E, h1, h2⟩ := summed_ipv4 (argv := unlucky c!"0x9ddb") (i := 1)
      (P := fun E => decide (ChecksumValid E ∧ wordAt E 4 = 0x9ddb)) (by decide +kernel)
    exact ⟨E, h1, of_decide_eq_true h2⟩

/-- Non-vacuity of `C130_usual`: the first of these headers does not meet the condition, other headers do. -/
example : (∃ E, Summed udpWords E 10 ∧ hostSum (zeroAt E 10) % 65536 + (E.length + 1) / 2 ≤ 65536) := by
  obtain ⟨E, h1, h2⟩ := summed_ipv4 (argv := udpWords) (i := 1)
    (P := fun E => decide (hostSum (zeroAt E 10) % 65536 + (E.length + 1) / 2 ≤ 65536)) (by decide +kernel)
  exact ⟨E, h1, of_decide_eq_true h2⟩

end Ef.Props
