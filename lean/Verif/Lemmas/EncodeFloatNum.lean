import Verif.Lemmas.EncodeFloatSpec
import Verif.Lemmas.Binary64

/-! # The error bounds for doubles, in closed form -/

namespace Verif.EncodeFloat
open Verif.Encode

theorem pow_le_lin {x : ℝ} (hx : 0 ≤ x) (n : ℕ) (h : n * x ≤ 1 / 2) : (1 + x) ^ n ≤ 1 + 2 * n * x := by
  induction n with
  | zero => simp
  | succ n ih =>
    push_cast at h ⊢
    have h' : n * x ≤ 1 / 2 := by nlinarith
    have := ih h'
    rw [pow_succ]
    have h1 : (1 + x) ^ n * (1 + x) ≤ (1 + 2 * n * x) * (1 + x) := mul_le_mul_of_nonneg_right this (by linarith)
    have h2 : n * x * x ≤ 1 / 2 * x := mul_le_mul_of_nonneg_right h' hx
    nlinarith

theorem final_bound {u T B q Y : ℝ} (hu : 0 < u) (hT1 : 1 ≤ T) (hB : 0 ≤ B) (hq0 : 0 ≤ q) (hY0 : 0 ≤ Y)
    (hY2 : Y ≤ (1 + 38 * T * u) * B + q / 2) (hTu : T * u ≤ 1 / 2 ^ 43) :
    (1 + 32 * T * u) * ((1 + 3 * u) * Y + u * B) ≤ B + (q / 2 + 80 * T * u * (B + q)) := by
  obtain ⟨v, hv⟩ : ∃ v, v = T * u := ⟨_, rfl⟩
  have huv : u ≤ v := by rw [hv]; nlinarith
  have hv0 : 0 ≤ v := by linarith
  rw [← hv] at hTu
  have e1 : 32 * T * u = 32 * v := by rw [hv]; ring
  have e2 : 38 * T * u = 38 * v := by rw [hv]; ring
  have e3 : 80 * T * u = 80 * v := by rw [hv]; ring
  rw [e2] at hY2
  rw [e1, e3]
  have hvv : v * v ≤ 1 / 2 ^ 43 * v := mul_le_mul_of_nonneg_right hTu hv0
  have k1 : (1 + 3 * u) * Y + u * B ≤ (1 + 3 * v) * Y + v * B := by
    have a1 : (1 + 3 * u) * Y ≤ (1 + 3 * v) * Y := mul_le_mul_of_nonneg_right (by linarith) hY0
    have a2 : u * B ≤ v * B := mul_le_mul_of_nonneg_right huv hB
    linarith
  have k2 : (1 + 3 * v) * Y ≤ (1 + 3 * v) * ((1 + 38 * v) * B + q / 2) := mul_le_mul_of_nonneg_left hY2 (by linarith)
  have k3 : (1 + 32 * v) * ((1 + 3 * u) * Y + u * B) ≤ (1 + 32 * v) * ((1 + 3 * v) * ((1 + 38 * v) * B + q / 2) + v * B) :=
    mul_le_mul_of_nonneg_left (by linarith) (by linarith)
  have k4 : (1 + 32 * v) * (1 + 3 * v) ≤ 1 + 36 * v := by nlinarith
  have k5 : (1 + 36 * v) * (1 + 38 * v) ≤ 1 + 75 * v := by nlinarith
  have k6 : (1 + 32 * v) * v ≤ 2 * v := by nlinarith
  have m1 : (1 + 32 * v) * (1 + 3 * v) * ((1 + 38 * v) * B + q / 2) ≤ (1 + 36 * v) * ((1 + 38 * v) * B + q / 2) :=
    mul_le_mul_of_nonneg_right k4 (by positivity)
  have m2 : (1 + 36 * v) * (1 + 38 * v) * B ≤ (1 + 75 * v) * B := mul_le_mul_of_nonneg_right k5 hB
  have m3 : (1 + 32 * v) * v * B ≤ 2 * v * B := mul_le_mul_of_nonneg_right k6 hB
  have m4 : 0 ≤ v * q := mul_nonneg hv0 hq0
  have m5 : 0 ≤ v * B := mul_nonneg hv0 hB
  linarith

theorem size_bound {u T B C s η : ℝ} (hT1 : 1 ≤ T) (hη : 0 ≤ η) (hs : 1 ≤ s) (huB : 0 ≤ u * B) (hηB : 64 * η ≤ u * B)
    (hC1 : (1 + u) * C ≤ (1 + 37 * T * u) * B) : (1 + u) * C * s + η + 1 / 2 ≤ (1 + 40 * T * u) * (B * s) + 1 / 2 := by
  have h1 : (1 + u) * C * s ≤ (1 + 37 * T * u) * B * s := mul_le_mul_of_nonneg_right hC1 (by linarith)
  have a1 : u * B ≤ u * B * s := le_mul_of_one_le_right huB hs
  have a2 : u * B * s ≤ T * (u * B * s) := le_mul_of_one_le_left (mul_nonneg huB (by linarith)) hT1
  linarith

/-- The bounds for doubles: all constants relative to the unit roundoff `u`. -/
theorem closed_form {u ρ η B s : ℝ} {t : ℕ} (hu : 0 < u) (hu' : u ≤ 1 / 2 ^ 53) (ht : t ≤ 20) (hρ : 0 ≤ ρ) (hρ' : ρ ≤ 8 * u)
    (hη : 0 ≤ η) (hs : 1 ≤ s) (hB : 0 ≤ B) (hηB : 64 * η ≤ u * B) :
    2 ^ (t + 1) * intErr u (6 * u) ρ η B s t + decErr u (6 * u) ρ η (intSize u (6 * u) ρ η B s t) s t ≤
      2 ^ (t + 1) * (1 / (2 * s) + 80 * (t + 1) * u * (B + 1 / s)) ∧
    intSize u (6 * u) ρ η B s t ≤ (1 + 40 * (t + 1) * u) * (B * s) + 1 / 2 := by
  obtain ⟨T, hT⟩ : ∃ T : ℝ, T = (t : ℝ) + 1 := ⟨_, rfl⟩
  have hT1 : 1 ≤ T := by rw [hT]; have : (0 : ℝ) ≤ t := by positivity
                         linarith
  have hT21 : T ≤ 21 := by rw [hT]; have : (t : ℝ) ≤ 20 := by exact_mod_cast ht
                           linarith
  obtain ⟨g, hg⟩ : ∃ g, g = growth u (6 * u) ρ := ⟨_, rfl⟩
  have hg1 : 1 ≤ g := by rw [hg]; exact (growth_ge hu.le (by linarith) hρ).2.2.1
  have hu2 : u * u ≤ 1 / 2 ^ 53 * u := mul_le_mul_of_nonneg_right hu' hu.le
  have hg2 : g ≤ 1 + 16 * u := by
    rw [hg]; unfold growth
    have h1 : (1 + u) * (1 + 6 * u) * (1 + ρ) ≤ (1 + u) * (1 + 6 * u) * (1 + 8 * u) := by
      apply mul_le_mul_of_nonneg_left (by linarith); positivity
    have h2 : u * u * u ≤ 1 / 2 ^ 53 * (1 / 2 ^ 53) * u := by
      have := mul_le_mul_of_nonneg_right hu2 hu.le
      nlinarith
    nlinarith
  have pw : ∀ n : ℕ, (n : ℝ) ≤ T → g ^ n ≤ 1 + 32 * n * u := by
    intro n hn
    have h1 := pow_le_lin (x := 16 * u) (by linarith) n (by
      have : (n : ℝ) * (16 * u) ≤ 21 * (16 * u) := mul_le_mul_of_nonneg_right (by linarith) (by linarith)
      nlinarith)
    have h2 : g ^ n ≤ (1 + 16 * u) ^ n := pow_le_pow_left₀ (by linarith) hg2 n
    linarith
  have p1 : g ^ (t + 1) ≤ 1 + 32 * T * u := by
    have := pw (t + 1) (by rw [hT]; push_cast; linarith)
    push_cast at this
    rw [← hT] at this
    exact this
  have p0 : g ^ t ≤ 1 + 32 * T * u := by
    have h := pw t (by rw [hT]; linarith)
    have : 32 * (t : ℝ) * u ≤ 32 * T * u := by
      apply mul_le_mul_of_nonneg_right _ hu.le
      rw [hT]; linarith
    linarith
  have p0' : 1 ≤ g ^ t := one_le_pow₀ hg1
  obtain ⟨τ, hτ⟩ : ∃ τ, τ = tiny u (6 * u) ρ η := ⟨_, rfl⟩
  have hτ0 : 0 ≤ τ := by rw [hτ]; unfold tiny; rw [← hg]; exact mul_nonneg (by linarith) hη
  have hτ1 : τ ≤ 3 * η := by
    rw [hτ]; unfold tiny; rw [← hg]
    apply mul_le_mul_of_nonneg_right _ hη
    nlinarith
  have hτt : t * τ ≤ u * B := by
    have h1 : (t : ℝ) * τ ≤ 20 * (3 * η) := mul_le_mul (by exact_mod_cast ht) hτ1 hτ0 (by norm_num)
    linarith
  have hτt0 : 0 ≤ t * τ := by positivity
  have huB : 0 ≤ u * B := by positivity
  have hTu : 32 * T * u ≤ 1 / 2 ^ 43 := by
    have : 32 * T * u ≤ 32 * 21 * (1 / 2 ^ 53) := by
      apply mul_le_mul _ hu' hu.le (by norm_num); linarith
    refine this.trans (by norm_num)
  have hTuB : u * B ≤ T * (u * B) := by nlinarith
  have hTuB' : T * u * (u * B) ≤ 1 / 2 ^ 43 * (u * B) := mul_le_mul_of_nonneg_right (by linarith) huB
  have hC : coeffSize u (6 * u) ρ η B t ≤ (1 + 35 * T * u) * B := by
    unfold coeffSize
    rw [← hg, ← hτ]
    have h1 : g ^ (t + 1) * (B + t * τ) ≤ (1 + 32 * T * u) * (B + u * B) :=
      mul_le_mul p1 (by linarith) (by linarith) (by positivity)
    nlinarith
  have hC0 : B ≤ coeffSize u (6 * u) ρ η B t := by
    unfold coeffSize
    rw [← hg, ← hτ]
    have : 1 ≤ g ^ (t + 1) := one_le_pow₀ hg1
    nlinarith
  unfold intErr intSize
  generalize coeffSize u (6 * u) ρ η B t = C at hC hC0 ⊢
  have hC1 : (1 + u) * C ≤ (1 + 37 * T * u) * B := by
    have h1 : (1 + u) * C ≤ (1 + u) * ((1 + 35 * T * u) * B) := mul_le_mul_of_nonneg_left hC (by linarith)
    nlinarith
  have hq0 : 0 < 1 / s := by positivity
  have hq1 : 1 / s ≤ 1 := by rw [div_le_one (by linarith)]; exact hs
  have hY : ((1 + u) * C * s + η + 1 / 2) / s = (1 + u) * C + (η + 1 / 2) * (1 / s) := by
    have h1 : s * (1 / s) = 1 := by field_simp
    rw [div_eq_mul_one_div]
    linear_combination (1 + u) * C * h1
  constructor
  · unfold decErr sizeAfter pairSize
    rw [hY, ← hg, ← hτ]
    have hY2 : (1 + u) * C + (η + 1 / 2) * (1 / s) ≤ (1 + 38 * T * u) * B + 1 / s / 2 := by
      have : η * (1 / s) ≤ η * 1 := mul_le_mul_of_nonneg_left hq1 hη
      nlinarith
    have hI : (1 + u) * C - B + (1 / 2 + η) / s = ((1 + u) * C + (η + 1 / 2) * (1 / s)) - B := by
      field_simp; ring
    have hY0 : 0 ≤ (1 + u) * C + (η + 1 / 2) * (1 / s) := by
      have : 0 ≤ C := by linarith
      positivity
    rw [hI]
    generalize (1 + u) * C + (η + 1 / 2) * (1 / s) = Y at hY2 hY0
    have hq : 1 / (2 * s) = 1 / s / 2 := by field_simp
    rw [hq, ← hT]
    generalize 1 / s = q at hq0 hq1 hY2
    have hE : 2 ^ (t + 1) * (Y - B) + ((2 * g) ^ t * (2 * ((1 + u) * (1 + u) * Y + η) + t * τ) - 2 ^ t * (2 * Y)) =
        2 ^ (t + 1) * (g ^ t * ((1 + u) * (1 + u) * Y + η + t * τ / 2) - B) := by
      rw [mul_pow]; ring
    rw [hE]
    apply mul_le_mul_of_nonneg_left _ (by positivity)
    have h1 : g ^ t * ((1 + u) * (1 + u) * Y + η + t * τ / 2) ≤ (1 + 32 * T * u) * ((1 + 3 * u) * Y + u * B) := by
      apply mul_le_mul p0 _ (by positivity) (by positivity)
      have : (1 + u) * (1 + u) * Y ≤ (1 + 3 * u) * Y := mul_le_mul_of_nonneg_right (by nlinarith) hY0
      linarith
    have h2 := final_bound hu hT1 hB hq0.le hY0 hY2 (by linarith)
    linarith
  · rw [← hT]
    exact size_bound hT1 hη hs huB hηB hC1

end Verif.EncodeFloat
