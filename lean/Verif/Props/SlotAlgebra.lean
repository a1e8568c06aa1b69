import Verif.Props.Encode
import Verif.Props.Automorphism

/-! # C71: what operations on coefficients do to the slots -/

namespace Verif.Props
open Verif.Encode Verif.CkksMul Finset

/-- `z` is the product of `x` and `y` modulo `X^N + 1`: schoolbook multiplication with a sign change for the terms that
pass `X^N`. -/
def IsNegaMul (N : Nat) (x y z : Nat → ℤ) : Prop :=
  ∀ p, p < N → z p = ∑ i ∈ range N, ∑ j ∈ range N,
    if i + j = p then x i * y j else if i + j = p + N then -(x i * y j) else 0

/-- The slots of integer coefficients read with a scale. -/
noncomputable def slotsOf (N : Nat) (x : Nat → ℤ) (scale : ℝ) (k : Nat) : ℂ := slotEval N (fun j => (x j : ℝ) / scale) k

theorem slotsOf_eq (N : Nat) (x : Nat → ℤ) (scale : ℝ) (k : Nat) :
    slotsOf N x scale k = (∑ j ∈ range N, (x j : ℂ) * (unitRoot (2 * N) ^ 5 ^ k) ^ j) / scale := by
  unfold slotsOf
  rw [slotEval_eq, sum_div]
  apply sum_congr rfl
  intro j _
  push_cast
  ring

/-- The slot points are roots of `X^N + 1`. -/
theorem slotPoint_pow (t k : Nat) : (unitRoot (2 * 2 ^ (t + 1)) ^ 5 ^ k) ^ 2 ^ (t + 1) = -1 := by
  rw [show 2 * 2 ^ (t + 1) = 4 * 2 ^ t by ring, ← pow_mul, mul_comm (5 ^ k), pow_mul, unitRoot_half]
  exact Odd.neg_one_pow (Odd.pow (by decide))

theorem pow_two_mul (t k : Nat) : (unitRoot (2 * 2 ^ (t + 1)) ^ 5 ^ k) ^ (2 * 2 ^ (t + 1)) = 1 := by
  rw [mul_comm 2 (2 ^ (t + 1)), pow_mul, mul_comm (2 ^ (t + 1)) 2, slotPoint_pow]; norm_num

/-- C71: the slots of a negacyclic product are the products of the slots. -/
theorem C71_product (t : Nat) (x y z : Nat → ℤ) (h : IsNegaMul (2 ^ (t + 1)) x y z) (sx sy : ℝ) (k : Nat) :
    slotsOf (2 ^ (t + 1)) z (sx * sy) k = slotsOf (2 ^ (t + 1)) x sx k * slotsOf (2 ^ (t + 1)) y sy k := by
  rw [slotsOf_eq, slotsOf_eq, slotsOf_eq, div_mul_div_comm]
  push_cast
  congr 1
  have hw := slotPoint_pow t k
  generalize unitRoot (2 * 2 ^ (t + 1)) ^ 5 ^ k = w at hw
  generalize 2 ^ (t + 1) = N at hw h
  rw [sum_mul_sum]
  calc ∑ p ∈ range N, (z p : ℂ) * w ^ p
      = ∑ p ∈ range N, ∑ i ∈ range N, ∑ j ∈ range N,
          (if i + j = p then (x i : ℂ) * y j * w ^ p else if i + j = p + N then -((x i : ℂ) * y j * w ^ p) else 0) := by
        apply sum_congr rfl
        intro p hp
        rw [h p (mem_range.1 hp)]
        push_cast
        rw [sum_mul]
        apply sum_congr rfl
        intro i _
        rw [sum_mul]
        apply sum_congr rfl
        intro j _
        split_ifs <;> ring
    _ = ∑ i ∈ range N, ∑ j ∈ range N, ∑ p ∈ range N,
          (if i + j = p then (x i : ℂ) * y j * w ^ p else if i + j = p + N then -((x i : ℂ) * y j * w ^ p) else 0) := by
        rw [sum_comm]
        apply sum_congr rfl
        intro i _
        rw [sum_comm]
    _ = _ := by
        apply sum_congr rfl
        intro i hi
        apply sum_congr rfl
        intro j hj
        have hi' := mem_range.1 hi
        have hj' := mem_range.1 hj
        by_cases hij : i + j < N
        · rw [sum_eq_single (i + j), if_pos rfl, pow_add]
          · ring
          · intro p hp hpn
            have := mem_range.1 hp
            rw [if_neg (fun h => hpn h.symm), if_neg (by omega)]
          · intro h; exact absurd (mem_range.2 hij) h
        · rw [sum_eq_single (i + j - N), if_neg (by omega), if_pos (by omega)]
          · have : w ^ i * w ^ j = -(w ^ (i + j - N)) := by
              rw [← pow_add, show i + j = N + (i + j - N) by omega, pow_add, hw, Nat.add_sub_cancel_left]
              ring
            linear_combination (-(x i : ℂ) * y j) * this
          · intro p hp hpn
            have := mem_range.1 hp
            rw [if_neg (by omega), if_neg (by omega)]
          · intro h; exact absurd (mem_range.2 (by omega)) h

/-- C71: sums of coefficients are sums of slots. -/
theorem C71_sum (N : Nat) (x y : Nat → ℤ) (s : ℝ) (k : Nat) :
    slotsOf N (fun p => x p + y p) s k = slotsOf N x s k + slotsOf N y s k := by
  rw [slotsOf_eq, slotsOf_eq, slotsOf_eq, ← add_div, ← sum_add_distrib]
  congr 1
  apply sum_congr rfl
  intro j _
  push_cast
  ring

example := C71_sum 4 (fun p => [1, 2, 3, 4].getD p 0) (fun p => [1, 1, 0, -7].getD p 0) (2 ^ 20) 1

theorem pow_five_period (t : Nat) : 5 ^ 2 ^ t ≡ 1 [MOD 2 ^ (t + 2)] := by
  induction t with
  | zero => decide
  | succ t ih =>
    obtain ⟨c, hc⟩ := (Nat.modEq_iff_dvd' (Nat.one_le_pow _ _ (by norm_num))).1 ih.symm
    have h5 : 5 ^ 2 ^ t = 2 ^ (t + 2) * c + 1 := by
      have := Nat.one_le_pow (2 ^ t) 5 (by norm_num); omega
    have : 5 ^ 2 ^ (t + 1) = 2 ^ (t + 1 + 2) * (2 ^ (t + 1) * c * c + c) + 1 := by
      rw [pow_succ 2 t, pow_mul, h5]; ring
    rw [this]
    unfold Nat.ModEq
    rw [Nat.mul_add_mod]

/-- C71: there are `N / 2` slot points; the slot index is read modulo `N / 2`. -/
theorem C71_period (t : Nat) (x : Nat → ℤ) (s : ℝ) (k : Nat) :
    slotsOf (2 ^ (t + 1)) x s (k + 2 ^ t) = slotsOf (2 ^ (t + 1)) x s k := by
  have h : unitRoot (2 * 2 ^ (t + 1)) ^ 5 ^ (k + 2 ^ t) = unitRoot (2 * 2 ^ (t + 1)) ^ 5 ^ k := by
    obtain ⟨c, hc⟩ := (Nat.modEq_iff_dvd' (Nat.one_le_pow _ _ (by norm_num))).1 (pow_five_period t).symm
    have h5 : 5 ^ 2 ^ t = 2 * 2 ^ (t + 1) * c + 1 := by
      have := Nat.one_le_pow (2 ^ t) 5 (by norm_num)
      rw [show 2 * 2 ^ (t + 1) = 2 ^ (t + 2) by ring]; omega
    rw [pow_add 5, pow_mul, h5, pow_add, pow_mul, pow_two_mul]
    simp
  rw [slotsOf_eq, slotsOf_eq, h]

example := C71_period 1 (fun p => [1, 2, 3, 4].getD p 0) (2 ^ 20) 1

/-- Substitution moves the evaluation point. -/
theorem subst_eval (t g : Nat) (hg : g % 2 = 1) (x y : Nat → ℤ) (h : IsSubst (2 ^ (t + 1)) g x y) (w : ℂ)
    (hw : w ^ 2 ^ (t + 1) = -1) :
    ∑ j ∈ range (2 ^ (t + 1)), (y j : ℂ) * w ^ j = ∑ j ∈ range (2 ^ (t + 1)), (x j : ℂ) * (w ^ g) ^ j := by
  have hc : Nat.Coprime g (2 ^ (t + 1)) := Nat.Coprime.pow_right _ (by
    rw [Nat.coprime_two_right]; exact Nat.odd_iff.2 hg)
  conv_lhs => rw [← image_mul_mod (2 ^ (t + 1)) g hc, sum_image (mul_mod_injOn _ g hc)]
  apply sum_congr rfl
  intro j hj
  rw [h j (mem_range.1 hj), ← pow_mul]
  conv_rhs => rw [← Nat.div_add_mod (g * j) (2 ^ (t + 1)), pow_add, pow_mul, hw]
  generalize g * j / 2 ^ (t + 1) = m
  split
  · rename_i h
    obtain ⟨t, rfl⟩ : ∃ t, m = 2 * t := ⟨m / 2, by omega⟩
    rw [pow_mul]; simp
  · rename_i h
    obtain ⟨t, rfl⟩ : ∃ t, m = 2 * t + 1 := ⟨m / 2, by omega⟩
    rw [pow_succ (-1 : ℂ), pow_mul]; simp

/-- C71: the substitution `X -> X^(5^r)` rotates the slots left by `r`. -/
theorem C71_rotate_left (t r : Nat) (x y : Nat → ℤ) (h : IsSubst (2 ^ (t + 1)) (5 ^ r) x y) (s : ℝ) (k : Nat) :
    slotsOf (2 ^ (t + 1)) y s k = slotsOf (2 ^ (t + 1)) x s (k + r) := by
  rw [slotsOf_eq, slotsOf_eq, subst_eval t (5 ^ r) (by rw [Nat.pow_mod]; norm_num) x y h _ (slotPoint_pow t k), ← pow_mul, ← pow_add]

/-- C71: the substitution `X -> X^g` with `g` inverse to `5^r` (the one `hmuxrot` applies) rotates right by `r`. -/
theorem C71_rotate_right (t r g : Nat) (hg : 5 ^ r * g % (2 * 2 ^ (t + 1)) = 1) (x y : Nat → ℤ)
    (h : IsSubst (2 ^ (t + 1)) g x y) (s : ℝ) (k : Nat) :
    slotsOf (2 ^ (t + 1)) y s (k + r) = slotsOf (2 ^ (t + 1)) x s k := by
  have hodd : g % 2 = 1 := by
    rcases Nat.mod_two_eq_zero_or_one g with h0 | h0
    · exfalso
      have : (5 ^ r * g) % (2 * 2 ^ (t + 1)) % 2 = (5 ^ r * g) % 2 := Nat.mod_mul_right_mod _ _ _
      rw [hg, Nat.mul_mod, h0] at this
      norm_num at this
    · exact h0
  rw [slotsOf_eq, slotsOf_eq, subst_eval t g hodd x y h _ (slotPoint_pow t _)]
  have : (unitRoot (2 * 2 ^ (t + 1)) ^ 5 ^ (k + r)) ^ g = unitRoot (2 * 2 ^ (t + 1)) ^ 5 ^ k := by
    rw [← pow_mul, pow_add 5, mul_assoc, pow_mul]
    conv_lhs => rw [← Nat.div_add_mod (5 ^ r * g) (2 * 2 ^ (t + 1)), hg, pow_add, pow_mul, pow_two_mul]
    simp
  rw [this]

/-- C71: the substitution `X -> X^(-1)` conjugates the slots. -/
theorem C71_conjugate (t : Nat) (x y : Nat → ℤ) (h0 : y 0 = x 0)
    (hj : ∀ j, 0 < j → j < 2 ^ (t + 1) → y (2 ^ (t + 1) - j) = -x j) (s : ℝ) (k : Nat) :
    slotsOf (2 ^ (t + 1)) y s k = (starRingEnd ℂ) (slotsOf (2 ^ (t + 1)) x s k) := by
  have hsub : IsSubst (2 ^ (t + 1)) (2 * 2 ^ (t + 1) - 1) x y := by
    intro j hjN
    have hN := Nat.one_le_two_pow (n := t + 1)
    generalize 2 ^ (t + 1) = N at *
    rcases Nat.eq_zero_or_pos j with rfl | hp
    · simp [h0]
    · have e : (2 * N - 1) * j = N * (2 * j - 1) + (N - j) := by
        rw [Nat.sub_mul, Nat.mul_sub]
        have : N ≤ N * (2 * j) := Nat.le_mul_of_pos_right _ (by omega)
        have e2 : 2 * N * j = N * (2 * j) := by ring
        omega
      rw [e, Nat.mul_add_mod, Nat.mod_eq_of_lt (by omega), hj j hp hjN, Nat.mul_add_div (by omega),
        Nat.div_eq_of_lt (by omega), if_neg (by omega)]
  rw [slotsOf_eq, slotsOf_eq, subst_eval t (2 * 2 ^ (t + 1) - 1) (by have := Nat.one_le_two_pow (n := t + 1); omega) x y hsub _ (slotPoint_pow t k), map_div₀, map_sum, Complex.conj_ofReal]
  congr 1
  apply sum_congr rfl
  intro j _
  rw [map_mul, map_intCast, map_pow]
  congr 2
  have h1 := pow_two_mul t k
  have hn : ‖unitRoot (2 * 2 ^ (t + 1)) ^ 5 ^ k‖ = 1 := by rw [norm_pow, unitRoot_norm, one_pow]
  generalize unitRoot (2 * 2 ^ (t + 1)) ^ 5 ^ k = w at *
  have hw : w * (starRingEnd ℂ) w = 1 := by rw [Complex.mul_conj, Complex.normSq_eq_norm_sq, hn]; simp
  have hw' : w * w ^ (2 * 2 ^ (t + 1) - 1) = 1 := by
    rw [← pow_succ', Nat.sub_add_cancel (by have := Nat.one_le_two_pow (n := t + 1); omega), h1]
  have hne : w ≠ 0 := by intro h; rw [h, zero_mul] at hw; exact zero_ne_one hw
  exact mul_left_cancel₀ hne (hw'.trans hw.symm)

/-- For `N = 4`: `(1 + X) (2 - X^3) = 3 + 2X - X^3`, the substitution `X -> X^5 = -X`, and the conjugate `X -> X^7`: the
hypotheses of `C71_product`, `C71_rotate_left`, `C71_rotate_right` and of the conjugation. -/
example : IsNegaMul (2 ^ (1 + 1)) (fun p => [1, 1, 0, 0].getD p 0) (fun p => [2, 0, 0, -1].getD p 0)
      (fun p => [3, 2, 0, -1].getD p 0) ∧
    IsSubst (2 ^ (1 + 1)) (5 ^ 1) (fun p => [1, 2, 3, 4].getD p 0) (fun p => [1, -2, 3, -4].getD p 0) ∧
    5 ^ 1 * 5 % (2 * 2 ^ (1 + 1)) = 1 ∧
    ∀ j, 0 < j → j < 2 ^ (1 + 1) → ([1, -4, -3, -2] : List ℤ).getD (2 ^ (1 + 1) - j) 0 = -([1, 2, 3, 4] : List ℤ).getD j 0 := by
  unfold IsNegaMul IsSubst
  refine ⟨by decide, by decide, by decide, ?_⟩
  intro j h0 h1
  norm_num at h1
  interval_cases j <;> rfl

/-- The integer product of the helper lemmas is the schoolbook one. -/
theorem imul_isNegaMul (k : Nat) (x y : Nat → ℤ) : IsNegaMul (2 ^ k) x y (imul k x y) := by
  intro p hp
  unfold imul
  rw [dif_pos hp]
  unfold Nega.mul
  rw [sum_comm, ← Fin.sum_univ_eq_sum_range (fun j => ∑ i ∈ range (2 ^ k),
    if i + j = p then x i * y j else if i + j = p + 2 ^ k then -(x i * y j) else 0)]
  apply sum_congr rfl
  intro j _
  have hj := j.isLt
  unfold Nega.shift
  by_cases h1 : (j : Nat) ≤ p
  · rw [dif_pos h1, sum_eq_single (p - j), if_pos (by omega)]
    · ring
    · intro i hi hne
      have := mem_range.1 hi
      rw [if_neg (by omega), if_neg (by omega)]
    · intro h; exact absurd (mem_range.2 (by omega)) h
  · rw [dif_neg h1, dif_pos (by simp only; omega), sum_eq_single (2 ^ k + p - j), if_neg (by omega), if_pos (by omega)]
    · ring
    · intro i hi hne
      have := mem_range.1 hi
      rw [if_neg (by omega), if_neg (by omega)]
    · intro h; exact absurd (mem_range.2 (by omega)) h

/-- `X * X = -1` and `X -> X^5 = X` for `N = 2`. -/
example : IsNegaMul (2 ^ (0 + 1)) (fun p => [0, 1].getD p 0) (fun p => [0, 1].getD p 0) (fun p => [-1, 0].getD p 0) ∧
    IsSubst (2 ^ (0 + 1)) (5 ^ 1) (fun p => [2, 3].getD p 0) (fun p => [2, 3].getD p 0) ∧ 5 ^ 1 * 1 % (2 * 2 ^ (0 + 1)) = 1 := by
  unfold IsNegaMul IsSubst; decide

end Verif.Props
