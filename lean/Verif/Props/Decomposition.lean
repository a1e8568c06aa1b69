import Verif.Lemmas.Decomposition

/-!
# Properties C12, C13: gadget decompositions
-/

namespace Verif.Props
open Verif.Decomposition Verif.Arith

/-- C12: the digits of `decompose` are the base-`2^b` digits of the `T`-bit value from the most
significant one down, in particular each is below the base. -/
theorem C12_digits (x : W) (b L T : Nat) (hT : T ≤ 32) (hL : L * b ≤ T) (i : Fin L) :
    (decompose x b L T i).toNat = x.toNat / 2 ^ (T - (i.val + 1) * b) % 2 ^ b ∧
    (decompose x b L T i).toNat < 2 ^ b := by
  rw [decompose_toNat x b L T hT hL i]
  refine ⟨by rw [Nat.add_comm 1], Nat.mod_lt _ (by positivity)⟩

example := C12_digits 0xDEADBEEF#32 4 7 30 (by norm_num) (by norm_num) 6

/-- C12: `recompose (decompose x)` is the `T`-bit value with its low `T - L*b` bits cleared. -/
theorem C12_recompose (x : W) (b L T : Nat) (hT : T ≤ 32) (hL : L * b ≤ T) :
    (recompose (decompose x b L T) b T).toNat =
      x.toNat % 2 ^ T - x.toNat % 2 ^ T % 2 ^ (T - L * b) := by
  have key : recompose (decompose x b L T) b T =
      ((x.toNat % 2 ^ T / 2 ^ (T - L * b) * 2 ^ (T - L * b) : Nat) : W) := by
    rw [← recompose_sum _ _ _ _ hL]
    unfold recompose
    rw [Nat.cast_sum]
    apply Finset.sum_congr rfl
    intro i _
    rw [shiftLeft_eq_mul, ← cast_toNat (decompose x b L T i), decompose_toNat x b L T hT hL i]
    simp only [Nat.cast_mul, Nat.cast_pow, Nat.cast_ofNat]
  rw [key, toNat_natCast]
  have h1 := Nat.div_add_mod (x.toNat % 2 ^ T) (2 ^ (T - L * b))
  have h2 : x.toNat % 2 ^ T < 2 ^ T := Nat.mod_lt _ (by positivity)
  have h3 : (2 : Nat) ^ T ≤ 2 ^ 32 := Nat.pow_le_pow_right (by norm_num) hT
  rw [Nat.mul_comm] at h1
  rw [Nat.mod_eq_of_lt (by omega)]
  omega

example := C12_recompose 0xDEADBEEF#32 4 7 30 (by norm_num) (by norm_num)

/-- C12: with all digits kept the recomposition is exact for every 32-bit value. -/
theorem C12_exact (x : W) (b L : Nat) (h : L * b = 32) :
    recompose (decompose x b L 32) b 32 = x := by
  apply BitVec.eq_of_toNat_eq
  rw [C12_recompose x b L 32 le_rfl h.le, h, Nat.sub_self, pow_zero, Nat.mod_one,
    Nat.mod_eq_of_lt x.isLt]
  rfl

example : (8 : Nat) * 4 = 32 ∧ recompose (decompose 0xDEADBEEF#32 4 8 32) 4 32 = 0xDEADBEEF#32 ∧
    recompose (decompose 0xDEADBEEF#32 4 3 32) 4 32 = 0xDEA00000#32 := by decide

/-- C12: the recomposition summands of a key entry `s` are `s * 2^(T-(l+1)b)`: pairing them with the
digits of `x` and adding up multiplies `s` by the recomposed value. -/
theorem C12_summands (s x : W) (b L T : Nat) :
    ∑ l, decompose x b L T l * recompositionSummands s b L T l =
      recompose (decompose x b L T) b T * s := by
  unfold recompositionSummands recompose
  rw [Finset.sum_mul]
  apply Finset.sum_congr rfl
  intro i _
  rw [shiftLeft_eq_mul, shiftLeft_eq_mul]
  ring

/-- C13: the signed digits, weighted by `2^(32 - (l+1)*b)`, sum to `x` minus a truncated part that is
smaller than one unit of the last kept digit, and is zero when all digits are kept. -/
theorem C13_recompose (x : W) (b L : Nat) (hb : 1 ≤ b) (hb2 : b ≤ 31) (hd : b ∣ 32) (hL : L * b ≤ 32) :
    ∃ r : Int, ∑ l : Fin L, signedDecomposition x b L 32 l * 2 ^ (32 - (l.val + 1) * b) =
        x - BitVec.ofInt 32 r ∧
      |r| ≤ 2 ^ (32 - L * b) ∧ r < 2 ^ (32 - L * b) ∧ (L * b = 32 → r = 0) := by
  refine ⟨lowPart x b L, ?_, ?_, (lowPart_bound x b L).2, fun h => lowPart_full x b L hb h⟩
  · rw [← signed_recompose x b L hb hb2 hd hL]
    apply Finset.sum_congr rfl
    intro l _
    rw [Nat.add_comm 1]
  · have := lowPart_bound x b L
    rw [abs_le]; exact ⟨this.1, this.2.le⟩

example := C13_recompose 0xDEADBEEF#32 4 6 (by norm_num) (by norm_num) (by norm_num) (by norm_num)

/-- C13: with `levels * base_log = 32` signed decomposition is exact. -/
theorem C13_exact (x : W) (b L : Nat) (hb : 1 ≤ b) (hb2 : b ≤ 31) (h : L * b = 32) :
    ∑ l : Fin L, signedDecomposition x b L 32 l * 2 ^ (32 - (l.val + 1) * b) = x := by
  obtain ⟨r, hr, _, _, h0⟩ := C13_recompose x b L hb hb2 ⟨L, by rw [← h, Nat.mul_comm]⟩ h.le
  rw [hr, h0 h]
  simp

example := C13_exact 0xDEADBEEF#32 4 8 (by norm_num) (by norm_num) (by norm_num)

example : (1 : Nat) ≤ 4 ∧ 4 ≤ 31 ∧ 4 ∣ 32 ∧ 6 * 4 ≤ 32 ∧
    (∑ l : Fin 6, signedDecomposition 0xDEADBEEF#32 4 6 32 l * 2 ^ (32 - (l.val + 1) * 4)) =
      0xDEADBF00#32 := by decide

/-- C13 (digit range, what holds): every signed digit, read as a two's complement number, is in
`[-B/2, B/2)` or is exactly `B`. The documented range `[-B/2, B/2)` is not met, see
`C13_range_negation`. -/
theorem C13_range_partial (x : W) (b L : Nat) (hb : 1 ≤ b) (hb2 : b ≤ 30) (l : Fin L) :
    let d := (signedDecomposition x b L 32 l).toInt
    (-2 ^ (b - 1) ≤ d ∧ d < 2 ^ (b - 1)) ∨ d = 2 ^ b := by
  unfold signedDecomposition
  rw [signedResult_eq x b _ hb (by omega)]
  have h := digit_range x.toNat b (32 / b - 1 - l.val) hb
  have hp : (2 : Int) ^ b ≤ 2 ^ 30 := by gcongr; norm_num
  have hp1 : (2 : Int) ^ (b - 1) ≤ 2 ^ 30 := by gcongr; norm_num; omega
  have hpos : (0 : Int) < 2 ^ b := by positivity
  have e : (BitVec.ofInt 32 (digitZ x.toNat b (32 / b - 1 - l.val))).toInt =
      digitZ x.toNat b (32 / b - 1 - l.val) := by
    rw [BitVec.toInt_ofInt, Int.bmod_eq_of_le]
    · norm_num at hp hp1 ⊢; omega
    · norm_num at hp hp1 ⊢; omega
  simp only [e]
  exact h

example := C13_range_partial 0xDEADBEEF#32 4 8 (by norm_num) (by norm_num) 7

example : (1 : Nat) ≤ 4 ∧ 4 ≤ 30 := by decide

/-- C13 (digit range, violated): a digit `15` receiving a carry becomes `16 = B`, outside `[-8, 8)`:
`0xF8` in base 16 with 8 levels has digit number 6 equal to 16. -/
theorem C13_range_negation : ¬ ∀ (x : W) (l : Fin 8),
    -8 ≤ (signedDecomposition x 4 8 32 l).toInt ∧ (signedDecomposition x 4 8 32 l).toInt < 8 := by
  intro h
  have := (h 0xF8#32 6).2
  revert this
  decide

/-- C13 (truncation error): the error can be a whole unit of the last kept digit minus one, not half a
unit: for `0xF8` in base 16 with 6 levels the recomposed value is `0`, an error of `0xF8 > 2^8 / 2`. -/
theorem C13_truncation_not_half :
    (∑ l : Fin 6, signedDecomposition 0xF8#32 4 6 32 l * 2 ^ (32 - (l.val + 1) * 4)) = 0#32 := by
  decide

/-- C13 (scope): when `base_log` does not divide the bit length, the top bits are lost: `2^31` in base
`2^7` has only zero digits. -/
theorem C13_base_must_divide : ∀ l : Fin 4, signedDecomposition 0x80000000#32 7 4 32 l = 0#32 := by
  decide

end Verif.Props
