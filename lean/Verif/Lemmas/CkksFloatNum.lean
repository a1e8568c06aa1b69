import Verif.Lemmas.EncodeFloatNum

/-! # Closed forms of the bounds of encoding and decoding, one by one -/

namespace Verif.EncodeFloat

/-- Powers of the growth of a butterfly. -/
theorem growth_pow {u ρ : ℝ} {t n : ℕ} (hu : 0 < u) (hu' : u ≤ 1 / 2 ^ 53) (ht : t ≤ 20) (hρ : 0 ≤ ρ) (hρ' : ρ ≤ 8 * u) (hn : n ≤ t + 1) :
    1 ≤ growth u (6 * u) ρ ∧ growth u (6 * u) ρ ≤ 1 + 16 * u ∧ 1 ≤ growth u (6 * u) ρ ^ n ∧
      growth u (6 * u) ρ ^ n ≤ 1 + 32 * (t + 1) * u := by
  obtain ⟨g, hg⟩ : ∃ g, g = growth u (6 * u) ρ := ⟨_, rfl⟩
  rw [← hg]
  have hg1 : 1 ≤ g := by rw [hg]; exact (growth_ge hu.le (by linarith) hρ).2.2.1
  have hu2 : u * u ≤ 1 / 2 ^ 53 * u := mul_le_mul_of_nonneg_right hu' hu.le
  have hg2 : g ≤ 1 + 16 * u := by
    rw [hg]; unfold growth
    have h1 : (1 + u) * (1 + 6 * u) * (1 + ρ) ≤ (1 + u) * (1 + 6 * u) * (1 + 8 * u) := by
      apply mul_le_mul_of_nonneg_left (by linarith); positivity
    have h2 : u * u * u ≤ 1 / 2 ^ 53 * (1 / 2 ^ 53) * u := by
      have := mul_le_mul_of_nonneg_right hu2 hu.le
      nlinarith
    nlinarith
  have hnt : (n : ℝ) ≤ t + 1 := by exact_mod_cast hn
  have ht' : (t : ℝ) ≤ 20 := by exact_mod_cast ht
  refine ⟨hg1, hg2, one_le_pow₀ hg1, ?_⟩
  have h1 := pow_le_lin (x := 16 * u) (by linarith) n (by
    have : (n : ℝ) * (16 * u) ≤ 21 * (16 * u) := mul_le_mul_of_nonneg_right (by linarith) (by linarith)
    nlinarith)
  have h2 : g ^ n ≤ (1 + 16 * u) ^ n := pow_le_pow_left₀ (by linarith) hg2 n
  have h3 : (n : ℝ) * u ≤ (t + 1) * u := mul_le_mul_of_nonneg_right hnt hu.le
  linarith

/-- The error of encoding. -/
theorem enc_bound {u ρ η B s : ℝ} {t : ℕ} (hu : 0 < u) (hu' : u ≤ 1 / 2 ^ 53) (ht : t ≤ 20) (hρ : 0 ≤ ρ) (hρ' : ρ ≤ 8 * u)
    (hη : 0 ≤ η) (hs : 1 ≤ s) (hB : 0 ≤ B) :
    intErr u (6 * u) ρ η B s t ≤ 38 * (t + 1) * u * B + 1 / 2 / s + 70 * η ∧
    intSize u (6 * u) ρ η B s t ≤ (1 + 38 * (t + 1) * u) * (B * s) + 1 / 2 + 70 * η * s := by
  obtain ⟨g1, g2, g3, g4⟩ := growth_pow (n := t + 1) hu hu' ht hρ hρ' le_rfl
  obtain ⟨T, hT⟩ : ∃ T : ℝ, T = (t : ℝ) + 1 := ⟨_, rfl⟩
  have ht' : (t : ℝ) ≤ 20 := by exact_mod_cast ht
  have ht0 : (0 : ℝ) ≤ t := by positivity
  have hT1 : 1 ≤ T := by rw [hT]; linarith
  have hT21 : T ≤ 21 := by rw [hT]; linarith
  rw [← hT] at g4 ⊢
  have hτ : tiny u (6 * u) ρ η ≤ 3 * η := by
    unfold tiny
    apply mul_le_mul_of_nonneg_right _ hη
    nlinarith
  have hτ0 : 0 ≤ tiny u (6 * u) ρ η := by unfold tiny; exact mul_nonneg (by linarith) hη
  have hτt : t * tiny u (6 * u) ρ η ≤ 60 * η := by
    have : (t : ℝ) * tiny u (6 * u) ρ η ≤ 20 * (3 * η) := mul_le_mul ht' hτ hτ0 (by norm_num)
    linarith
  have hTu : T * u ≤ 1 / 2 ^ 48 := by
    have : T * u ≤ 21 * (1 / 2 ^ 53) := mul_le_mul hT21 hu' hu.le (by norm_num)
    refine this.trans (by norm_num)
  have hTu0 : 0 ≤ T * u := by positivity
  have huT : u ≤ T * u := by nlinarith
  obtain ⟨v, hv⟩ : ∃ v, v = T * u := ⟨_, rfl⟩
  have hC : (1 + u) * coeffSize u (6 * u) ρ η B t ≤ (1 + 38 * v) * B + 65 * η := by
    unfold coeffSize
    have h1 : growth u (6 * u) ρ ^ (t + 1) * (B + t * tiny u (6 * u) ρ η) ≤ (1 + 32 * T * u) * (B + 60 * η) :=
      mul_le_mul g4 (by linarith) (by positivity) (by positivity)
    have h2 : (1 + u) * (growth u (6 * u) ρ ^ (t + 1) * (B + t * tiny u (6 * u) ρ η) + η) ≤
        (1 + v) * ((1 + 32 * v) * (B + 60 * η) + η) := by
      rw [hv]
      apply mul_le_mul (by linarith) (by linarith) (by positivity) (by positivity)
    refine h2.trans ?_
    rw [← hv] at hTu hTu0
    have a1 : v * v ≤ 1 / 2 ^ 48 * v := mul_le_mul_of_nonneg_right hTu hTu0
    have a2 : v * v * B ≤ 1 / 2 ^ 48 * v * B := mul_le_mul_of_nonneg_right a1 hB
    have a3 : v * v * η ≤ 1 / 2 ^ 48 * v * η := mul_le_mul_of_nonneg_right a1 hη
    have a4 : v * η ≤ 1 / 2 ^ 48 * η := mul_le_mul_of_nonneg_right hTu hη
    have a5 : 0 ≤ v * B := mul_nonneg hTu0 hB
    nlinarith
  have hs0 : 0 < s := by linarith
  have hq : η / s ≤ η := div_le_self hη hs
  constructor
  · unfold intErr
    have : (1 / 2 + η) / s = 1 / 2 / s + η / s := by ring
    rw [this]
    rw [hv] at hC
    nlinarith
  · unfold intSize
    have h1 : (1 + u) * coeffSize u (6 * u) ρ η B t * s ≤ ((1 + 38 * v) * B + 65 * η) * s := mul_le_mul_of_nonneg_right hC hs0.le
    have h2 : η ≤ η * s := le_mul_of_one_le_right hη hs
    have h3 : 0 ≤ η * s := mul_nonneg hη hs0.le
    rw [hv] at h1
    linarith

/-- The error of decoding. -/
theorem dec_bound {u ρ η X s : ℝ} {t : ℕ} (hu : 0 < u) (hu' : u ≤ 1 / 2 ^ 53) (ht : t ≤ 20) (hρ : 0 ≤ ρ) (hρ' : ρ ≤ 8 * u)
    (hη : 0 ≤ η) (hs : 0 < s) (hX : 0 ≤ X) :
    decErr u (6 * u) ρ η X s t ≤ 2 ^ (t + 1) * (36 * (t + 1) * u * (X / s) + 70 * η) := by
  obtain ⟨g1, g2, g3, g4⟩ := growth_pow (n := t) hu hu' ht hρ hρ' (by omega)
  obtain ⟨T, hT⟩ : ∃ T : ℝ, T = (t : ℝ) + 1 := ⟨_, rfl⟩
  have ht' : (t : ℝ) ≤ 20 := by exact_mod_cast ht
  have ht0 : (0 : ℝ) ≤ t := by positivity
  have hT1 : 1 ≤ T := by rw [hT]; linarith
  have hT21 : T ≤ 21 := by rw [hT]; linarith
  rw [← hT] at g4 ⊢
  have hτ : tiny u (6 * u) ρ η ≤ 3 * η := by
    unfold tiny
    apply mul_le_mul_of_nonneg_right _ hη
    nlinarith
  have hτ0 : 0 ≤ tiny u (6 * u) ρ η := by unfold tiny; exact mul_nonneg (by linarith) hη
  have hτt : t * tiny u (6 * u) ρ η ≤ 60 * η := by
    have : (t : ℝ) * tiny u (6 * u) ρ η ≤ 20 * (3 * η) := mul_le_mul ht' hτ hτ0 (by norm_num)
    linarith
  have hTu : T * u ≤ 1 / 2 ^ 48 := by
    have : T * u ≤ 21 * (1 / 2 ^ 53) := mul_le_mul hT21 hu' hu.le (by norm_num)
    refine this.trans (by norm_num)
  have hTu0 : 0 ≤ T * u := by positivity
  have huT : u ≤ T * u := by nlinarith
  obtain ⟨Y, hY⟩ : ∃ Y, Y = X / s := ⟨_, rfl⟩
  have hY0 : 0 ≤ Y := by rw [hY]; positivity
  unfold decErr sizeAfter pairSize
  rw [← hY, mul_pow]
  have e1 : growth u (6 * u) ρ ^ t * (2 * ((1 + u) * (1 + u) * Y + η) + t * tiny u (6 * u) ρ η) ≤
      (1 + 32 * T * u) * (2 * ((1 + u) * (1 + u) * Y + η) + 60 * η) :=
    mul_le_mul g4 (by linarith) (by positivity) (by positivity)
  have e2 : (1 + 32 * T * u) * (2 * ((1 + u) * (1 + u) * Y + η) + 60 * η) ≤ 2 * (Y + (36 * T * u * Y + 70 * η)) := by
    obtain ⟨v, hv⟩ : ∃ v, v = T * u := ⟨_, rfl⟩
    have h1 : (1 + u) * (1 + u) * Y ≤ (1 + v) * (1 + v) * Y := by
      apply mul_le_mul_of_nonneg_right _ hY0
      rw [hv]
      apply mul_le_mul (by linarith) (by linarith) (by linarith) (by linarith)
    have h2 : (1 + 32 * T * u) * (2 * ((1 + u) * (1 + u) * Y + η) + 60 * η) ≤
        (1 + 32 * T * u) * (2 * ((1 + v) * (1 + v) * Y + η) + 60 * η) := by
      apply mul_le_mul_of_nonneg_left (by linarith)
      nlinarith
    refine h2.trans ?_
    rw [show 32 * T * u = 32 * v by rw [hv]; ring, show 36 * T * u * Y = 36 * (v * Y) by rw [hv]; ring]
    rw [← hv] at hTu hTu0
    have a1 : v * v ≤ 1 / 2 ^ 48 * v := mul_le_mul_of_nonneg_right hTu hTu0
    have a2 : v * v * Y ≤ 1 / 2 ^ 48 * v * Y := mul_le_mul_of_nonneg_right a1 hY0
    have a3 : v * v * v * Y ≤ 1 / 2 ^ 48 * (v * v * Y) := by
      have := mul_le_mul_of_nonneg_right hTu (mul_nonneg (mul_nonneg hTu0 hTu0) hY0)
      nlinarith
    have a4 : v * η ≤ 1 / 2 ^ 48 * η := mul_le_mul_of_nonneg_right hTu hη
    have a5 : 0 ≤ v * Y := mul_nonneg hTu0 hY0
    have a6 : 0 ≤ v * v * Y := mul_nonneg (mul_nonneg hTu0 hTu0) hY0
    have : (1 + 32 * v) * (2 * ((1 + v) * (1 + v) * Y + η) + 60 * η) =
      2 * Y + 68 * (v * Y) + 130 * (v * v * Y) + 64 * (v * v * v * Y) + 62 * η + 1984 * (v * η) := by ring
    rw [this]
    linarith
  have hp : (0 : ℝ) < 2 ^ t := by positivity
  have := mul_le_mul_of_nonneg_left (e1.trans e2) hp.le
  rw [pow_succ]
  linarith

end Verif.EncodeFloat
