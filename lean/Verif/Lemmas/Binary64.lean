import Verif.Model.EncodeFloatSpec
import Mathlib.Tactic.Linarith
import Mathlib.Tactic.Positivity
import Mathlib.Tactic.Ring
import Mathlib.Tactic.FieldSimp

/-! # Binary64 rounding -/

namespace Verif.EncodeFloat
open Verif.Encode

theorem rne_err (x : ℝ) : |(rne x : ℝ) - x| ≤ 1 / 2 := by
  have h0 := Int.fract_nonneg x
  have h1 := Int.fract_lt_one x
  have e : x = ⌊x⌋ + Int.fract x := (Int.floor_add_fract x).symm
  unfold rne
  split_ifs with a b c
  · rw [abs_le]; constructor <;> linarith
  · push_cast; rw [abs_le]; constructor <;> linarith
  · rw [abs_le]; constructor <;> linarith
  · push_cast; rw [abs_le]; constructor <;> linarith

theorem rne_int (n : ℤ) : rne (n : ℝ) = n := by
  unfold rne
  rw [if_pos (by simp)]
  simp

theorem u64_pos : 0 < u64 := by unfold u64; positivity

theorem eta64_pos : 0 < eta64 := by unfold eta64; positivity

theorem half_smallest : (1 / 2 * 2 ^ (-1074 : ℤ) : ℝ) = eta64 := by
  unfold eta64
  have : ∀ n : ℕ, (1 / 2 * 2 ^ (-(n : ℤ)) : ℝ) = 2⁻¹ ^ (n + 1) := by
    intro n
    rw [zpow_neg, zpow_natCast, inv_pow, pow_succ, mul_inv]; ring
  exact this 1074

theorem fl_err (x : ℝ) : |fl x - x| ≤ u64 * |x| + eta64 := by
  have hp : (0 : ℝ) < 2 ^ ulpExp x := by positivity
  have h1 : |fl x - x| ≤ 1 / 2 * 2 ^ ulpExp x := by
    have e : fl x - x = ((rne (x / 2 ^ ulpExp x) : ℝ) - x / 2 ^ ulpExp x) * 2 ^ ulpExp x := by
      unfold fl; field_simp
    rw [e, abs_mul, abs_of_pos hp]
    exact mul_le_mul_of_nonneg_right (rne_err _) hp.le
  have hx0 : 0 ≤ u64 * |x| := mul_nonneg u64_pos.le (abs_nonneg _)
  have he0 := eta64_pos
  rcases le_total (Int.log 2 |x| - 52) (-1074) with h | h
  · have : ulpExp x = -1074 := max_eq_right h
    rw [this, half_smallest] at h1
    linarith
  · have e1 : ulpExp x = Int.log 2 |x| - 52 := max_eq_left h
    rcases eq_or_ne x 0 with hx | hx
    · subst hx
      simp [fl, rne, eta64_pos.le]
    · have h2 : (2 : ℝ) ^ Int.log 2 |x| ≤ |x| := by
        have := Int.zpow_log_le_self (b := 2) (r := |x|) (by norm_num) (abs_pos.2 hx)
        simpa using this
      rw [e1] at h1
      have e2 : (1 / 2 * 2 ^ (Int.log 2 |x| - 52) : ℝ) = u64 * 2 ^ Int.log 2 |x| := by
        unfold u64
        rw [zpow_sub₀ (by norm_num)]; norm_num; ring
      rw [e2] at h1
      have : u64 * 2 ^ Int.log 2 |x| ≤ u64 * |x| := mul_le_mul_of_nonneg_left h2 u64_pos.le
      linarith

/-- Numbers with at most 53 significant bits that are not too small are doubles. -/
theorem fl_exact (k e : ℤ) (hk : |k| < 2 ^ 53) (he : -1074 ≤ e) : fl (k * 2 ^ e) = k * 2 ^ e := by
  rcases eq_or_ne k 0 with h0 | h0
  · subst h0; simp [fl, rne]
  · have hke : (k : ℝ) * 2 ^ e ≠ 0 := mul_ne_zero (by exact_mod_cast h0) (by positivity)
    obtain ⟨x, hx⟩ : ∃ x : ℝ, x = k * 2 ^ e := ⟨_, rfl⟩
    rw [← hx] at hke ⊢
    have habs : |x| < 2 ^ (e + 53) := by
      rw [hx, abs_mul, abs_of_pos (a := (2 : ℝ) ^ e) (by positivity), zpow_add₀ (by norm_num), mul_comm]
      apply mul_lt_mul_of_pos_left _ (by positivity)
      exact_mod_cast hk
    have hlog : Int.log 2 |x| < e + 53 := by
      have := (Int.lt_zpow_iff_log_lt (R := ℝ) (b := 2) (by norm_num) (x := e + 53) (abs_pos.2 hke)).1 (by simpa using habs)
      exact this
    have hle : ulpExp x ≤ e := max_le (by omega) he
    obtain ⟨d, hd⟩ : ∃ d : ℕ, e - ulpExp x = d := ⟨(e - ulpExp x).toNat, by omega⟩
    have hq : x / 2 ^ ulpExp x = ((k * 2 ^ d : ℤ) : ℝ) := by
      rw [hx, mul_div_assoc, ← zpow_sub₀ (by norm_num), ← hx, hd]; push_cast; rfl
    unfold fl
    rw [hq, rne_int, ← hq]
    field_simp

theorem fl_int (k : ℤ) (hk : |k| < 2 ^ 53) : fl k = k := by
  simpa using fl_exact k 0 hk (by norm_num)

/-- Integers from the limit on are not converted. -/
theorem ofInt_overflow (root : Nat → Nat → ℂ) (c : ℤ) (h : intLimit ≤ |c|) :
    (Arith.binary64 root).ofInt c = .error "OverflowError" := by
  unfold Arith.binary64
  dsimp only
  rw [if_neg (not_lt.2 h)]

theorem fl_zero : fl 0 = 0 := by simpa using fl_int 0 (by norm_num)

theorem norm_pair (a b : ℝ) : ‖(⟨a, b⟩ : ℂ)‖ ≤ |a| + |b| := Complex.norm_le_abs_re_add_abs_im _

/-- Two components rounded with an error relative to each component. -/
theorem norm_parts {a b c d u η : ℝ} (hu : 0 ≤ u) (hη : 0 ≤ η) (h1 : |a| ≤ u * |c| + η) (h2 : |b| ≤ u * |d| + η) :
    ‖(⟨a, b⟩ : ℂ)‖ ≤ u * ‖(⟨c, d⟩ : ℂ)‖ + 2 * η := by
  have e : ∀ p q : ℝ, ‖(⟨p, q⟩ : ℂ)‖ = Real.sqrt (p * p + q * q) := by
    intro p q
    rw [Complex.norm_def, Complex.normSq_mk]
  have hN := norm_nonneg (⟨c, d⟩ : ℂ)
  have hsq : ‖(⟨c, d⟩ : ℂ)‖ ^ 2 = |c| ^ 2 + |d| ^ 2 := by
    rw [e, Real.sq_sqrt (add_nonneg (mul_self_nonneg _) (mul_self_nonneg _)), sq_abs, sq_abs]; ring
  have hc : |c| ≤ ‖(⟨c, d⟩ : ℂ)‖ := Complex.abs_re_le_norm (⟨c, d⟩ : ℂ)
  have hd : |d| ≤ ‖(⟨c, d⟩ : ℂ)‖ := Complex.abs_im_le_norm (⟨c, d⟩ : ℂ)
  rw [e a b]
  apply Real.sqrt_le_iff.2
  refine ⟨by positivity, ?_⟩
  generalize ‖(⟨c, d⟩ : ℂ)‖ = N at hN hsq hc hd
  have ha : a * a ≤ (u * |c| + η) ^ 2 := by rw [← abs_mul_abs_self a, ← pow_two]; exact pow_le_pow_left₀ (abs_nonneg _) h1 2
  have hb : b * b ≤ (u * |d| + η) ^ 2 := by rw [← abs_mul_abs_self b, ← pow_two]; exact pow_le_pow_left₀ (abs_nonneg _) h2 2
  have k1 : u * η * |c| ≤ u * η * N := mul_le_mul_of_nonneg_left hc (by positivity)
  have k2 : u * η * |d| ≤ u * η * N := mul_le_mul_of_nonneg_left hd (by positivity)
  have k3 : u ^ 2 * N ^ 2 = u ^ 2 * |c| ^ 2 + u ^ 2 * |d| ^ 2 := by rw [hsq]; ring
  nlinarith

theorem u64_small : u64 ≤ 1 / 8 := by unfold u64; norm_num

/-- The textbook product of two rounded products: one component. -/
theorem comp_err {u η : ℝ} (hu : 0 < u) (hη : 0 < η) (hu1 : u ≤ 1 / 8) {a b c d r : ℝ} (hr : r = a * b + c * d) {P : ℝ} (hP : |a * b| + |c * d| ≤ P) {x y z : ℝ}
    (hx : |x - a * b| ≤ u * |a * b| + η) (hy : |y - c * d| ≤ u * |c * d| + η)
    (hz : |z - (x + y)| ≤ u * |x + y| + η) : |z - r| ≤ 3 * u * P + 4 * η := by
  have h1 : |x + y - r| ≤ u * P + 2 * η := by
    have : x + y - r = (x - a * b) + (y - c * d) := by rw [hr]; ring
    rw [this]
    refine (abs_add_le _ _).trans ?_
    nlinarith
  have h2 : |r| ≤ P := by rw [hr]; exact (abs_add_le _ _).trans hP
  have h3 : |x + y| ≤ P + (u * P + 2 * η) := by
    have : x + y = r + (x + y - r) := by ring
    rw [this]; exact (abs_add_le _ _).trans (add_le_add h2 h1)
  have hP0 : 0 ≤ P := (abs_nonneg _).trans h2
  have h4 : |z - r| ≤ |z - (x + y)| + |x + y - r| := abs_sub_le _ _ _
  have k1 : u * |x + y| ≤ u * (P + (u * P + 2 * η)) := mul_le_mul_of_nonneg_left h3 hu.le
  have k2 : u * (u * P) ≤ 1 / 8 * (u * P) := mul_le_mul_of_nonneg_right hu1 (by positivity)
  have k3 : u * η ≤ 1 / 8 * η := mul_le_mul_of_nonneg_right hu1 hη.le
  have k4 : 0 ≤ u * P := by positivity
  nlinarith

theorem cauchy (a b c d : ℝ) : |a * b| + |c * d| ≤ ‖(⟨a, c⟩ : ℂ)‖ * ‖(⟨b, d⟩ : ℂ)‖ := by
  have e : ∀ p q : ℝ, ‖(⟨p, q⟩ : ℂ)‖ = Real.sqrt (p * p + q * q) := by
    intro p q
    rw [Complex.norm_def, Complex.normSq_mk]
  rw [e, e, ← Real.sqrt_mul (add_nonneg (mul_self_nonneg _) (mul_self_nonneg _))]
  apply Real.le_sqrt_of_sq_le
  rw [abs_mul, abs_mul]
  have h1 := abs_mul_abs_self a
  have h2 := abs_mul_abs_self b
  have h3 := abs_mul_abs_self c
  have h4 := abs_mul_abs_self d
  rw [← h1, ← h2, ← h3, ← h4]
  nlinarith [sq_nonneg (|a| * |d| - |b| * |c|)]

theorem mul_err (a b : ℂ) (root : Nat → Nat → ℂ) :
    ‖(Arith.binary64 root).mul a b - a * b‖ ≤ 6 * u64 * (‖a‖ * ‖b‖) + 8 * eta64 := by
  have e1 : (Arith.binary64 root).mul a b - a * b =
      ⟨fl (fl (a.re * b.re) - fl (a.im * b.im)) - (a * b).re, fl (fl (a.re * b.im) + fl (a.im * b.re)) - (a * b).im⟩ := rfl
  rw [e1]
  refine (norm_pair _ _).trans ?_
  have p1 : |a.re * b.re| + |a.im * -b.im| ≤ ‖a‖ * ‖b‖ := by
    have := cauchy a.re b.re a.im b.im
    rw [mul_neg, abs_neg]
    exact this
  have p2 : |a.re * b.im| + |a.im * b.re| ≤ ‖a‖ * ‖b‖ := by
    have h := cauchy a.re b.im a.im b.re
    have : ‖(⟨b.im, b.re⟩ : ℂ)‖ = ‖b‖ := by
      rw [Complex.norm_def, Complex.norm_def, Complex.normSq_mk, Complex.normSq_apply, add_comm]
    rw [this] at h
    exact h
  have q1 := comp_err u64_pos eta64_pos u64_small (r := (a * b).re) (by rw [Complex.mul_re]; ring) p1 (fl_err (a.re * b.re))
    (y := -fl (a.im * b.im)) (z := fl (fl (a.re * b.re) - fl (a.im * b.im)))
    (by
      have := fl_err (a.im * b.im)
      rw [mul_neg, abs_neg, neg_sub_neg, abs_sub_comm]; exact this)
    (by rw [← sub_eq_add_neg]; exact fl_err _)
  have q2 := comp_err u64_pos eta64_pos u64_small (r := (a * b).im) (by rw [Complex.mul_im]) p2 (fl_err (a.re * b.im)) (fl_err (a.im * b.re)) (fl_err _)
  linarith

/-- Conversions of integers. -/
theorem fl_int_err (c : ℤ) : |fl c - c| ≤ u64 * |(c : ℝ)| := by
  by_cases h : |c| < 2 ^ 53
  · rw [fl_int c h, sub_self, abs_zero]
    exact mul_nonneg u64_pos.le (abs_nonneg _)
  · have hp : (0 : ℝ) < 2 ^ ulpExp (c : ℝ) := by positivity
    have h1 : |fl c - c| ≤ 1 / 2 * 2 ^ ulpExp (c : ℝ) := by
      have e : fl c - c = ((rne ((c : ℝ) / 2 ^ ulpExp (c : ℝ)) : ℝ) - (c : ℝ) / 2 ^ ulpExp (c : ℝ)) * 2 ^ ulpExp (c : ℝ) := by
        unfold fl; field_simp
      rw [e, abs_mul, abs_of_pos hp]
      exact mul_le_mul_of_nonneg_right (rne_err _) hp.le
    have hc1 : (1 : ℝ) ≤ |(c : ℝ)| := by
      have : (1 : ℤ) ≤ |c| := by
        have : (1 : ℤ) ≤ 2 ^ 53 := by norm_num
        omega
      exact_mod_cast this
    have hlog : 0 ≤ Int.log 2 |(c : ℝ)| := by
      have h := Int.log_mono_right (b := 2) (by norm_num : (0 : ℝ) < 1) hc1
      rwa [Int.log_one_right] at h
    have e1 : ulpExp (c : ℝ) = Int.log 2 |(c : ℝ)| - 52 := max_eq_left (by omega)
    have h2 : (2 : ℝ) ^ Int.log 2 |(c : ℝ)| ≤ |(c : ℝ)| := by
      have := Int.zpow_log_le_self (b := 2) (r := |(c : ℝ)|) (by norm_num) (by linarith)
      simpa using this
    rw [e1] at h1
    have e2 : (1 / 2 * 2 ^ (Int.log 2 |(c : ℝ)| - 52) : ℝ) = u64 * 2 ^ Int.log 2 |(c : ℝ)| := by
      unfold u64
      rw [zpow_sub₀ (by norm_num)]; norm_num; ring
    rw [e2] at h1
    have : u64 * 2 ^ Int.log 2 |(c : ℝ)| ≤ u64 * |(c : ℝ)| := mul_le_mul_of_nonneg_left h2 u64_pos.le
    linarith

/-- The contract holds for doubles. -/
theorem binary64_accurate (root : Nat → Nat → ℂ) (ρ : ℝ) (hρ : 0 ≤ ρ) (hr : ∀ m i, i < m → ‖root m i - unitRoot m ^ i‖ ≤ ρ) :
    Accurate (Arith.binary64 root) u64 (6 * u64) ρ (8 * eta64) 1023 := by
  have hu := u64_pos
  have hη := eta64_pos
  refine ⟨hu.le, by linarith, hρ, by linarith, ?_, ?_, ?_, ?_, ?_, ?_, ?_, ?_, hr⟩
  · intro a b
    have h := norm_parts hu.le hη.le (fl_err (a.re + b.re)) (fl_err (a.im + b.im))
    have e1 : (Arith.binary64 root).add a b - (a + b) = ⟨fl (a.re + b.re) - (a.re + b.re), fl (a.im + b.im) - (a.im + b.im)⟩ := rfl
    have e2 : a + b = ⟨a.re + b.re, a.im + b.im⟩ := rfl
    rw [e1]
    rw [← e2] at h
    linarith
  · intro a b
    have h := norm_parts hu.le hη.le (fl_err (a.re - b.re)) (fl_err (a.im - b.im))
    have e1 : (Arith.binary64 root).sub a b - (a - b) = ⟨fl (a.re - b.re) - (a.re - b.re), fl (a.im - b.im) - (a.im - b.im)⟩ := rfl
    have e2 : a - b = ⟨a.re - b.re, a.im - b.im⟩ := rfl
    rw [e1]
    rw [← e2] at h
    linarith
  · intro a b
    exact mul_err a b root
  · intro a b
    have := fl_err (a * b)
    change |fl (a * b) - a * b| ≤ _
    linarith
  · intro a b _
    have := fl_err (a / b)
    change |fl (a / b) - a / b| ≤ _
    linarith
  · intro t ht
    change fl (1 / ((2 ^ t : Nat) : ℝ)) = 1 / 2 ^ t
    have h := fl_exact 1 (-(t : ℤ)) (by norm_num) (by omega)
    have e : ((1 : ℤ) : ℝ) * 2 ^ (-(t : ℤ)) = 1 / 2 ^ t := by
      rw [zpow_neg, zpow_natCast]; push_cast; ring
    rw [e] at h
    push_cast
    exact h
  · intro c hc
    refine ⟨fl c, ?_, fl_int_err c⟩
    have hlim : |c| < intLimit := hc.trans (by decide +kernel)
    unfold Arith.binary64
    dsimp only
    rw [if_pos hlim]
  · exact rne_err

/-- The remainder of doubles is exact on integers. -/
theorem remFloat_eq (x : ℤ) (m : Nat) (hm : 0 < m) (hm2 : m < 2 ^ 53) : remFloat x m = ((x % m : ℤ) : ℝ) := by
  have hm' : (0 : ℤ) < m := by exact_mod_cast hm
  have h2 : ((m : ℤ)) < 2 ^ 53 := by exact_mod_cast hm2
  unfold remFloat
  dsimp only
  rcases le_total 0 x with hx | hx
  · have e : x.tmod m = x % m := Int.tmod_eq_emod_of_nonneg hx
    have h0 : (0 : ℝ) ≤ ((x % m : ℤ) : ℝ) := by exact_mod_cast Int.emod_nonneg x hm'.ne'
    rw [e, if_neg (by rintro ⟨-, h⟩; linarith)]
  · obtain ⟨y, rfl⟩ : ∃ y, x = -y := ⟨-x, by ring⟩
    have hy : 0 ≤ y := by omega
    have e : (-y).tmod m = -(y % m) := by rw [Int.neg_tmod, Int.tmod_eq_emod_of_nonneg hy]
    have r0 := Int.emod_nonneg y hm'.ne'
    have r1 := Int.emod_lt_of_pos y hm'
    rw [e]
    by_cases hz : y % m = 0
    · have : (-y) % (m : ℤ) = 0 := Int.emod_eq_zero_of_dvd (Int.dvd_neg.2 (Int.dvd_of_emod_eq_zero hz))
      rw [hz, this]
      simp
    · have e2 : (-y) % (m : ℤ) = m - y % m := by
        have h1 : -y = (m - y % m) + m * (-(y / m) - 1) := by
          have := Int.emod_add_mul_ediv y m
          linarith
        rw [h1, Int.add_mul_emod_self_left]
        exact Int.emod_eq_of_lt (by omega) (by omega)
      have hneg : ((-(y % m) : ℤ) : ℝ) < 0 := by exact_mod_cast (show -(y % (m : ℤ)) < 0 by omega)
      rw [if_pos ⟨hneg.ne, hneg⟩, e2]
      have h3 : ((-(y % m) : ℤ) : ℝ) + m = ((m - y % m : ℤ) : ℝ) := by push_cast; ring
      rw [h3]
      exact fl_int _ (by rw [abs_of_nonneg (by omega)]; omega)

end Verif.EncodeFloat
