import Verif.Lemmas.BitReversal
import Verif.Lemmas.Negacyclic
import Mathlib.Algebra.BigOperators.Intervals
import Mathlib.Algebra.Ring.GeomSum

/-!
# Butterfly transforms over a commutative ring

Vectors are functions on `ℕ`; only the entries below the length matter.
-/

namespace Verif.NttCore
open Verif.BitReversal Finset

variable {R : Type*} [CommRing R]

theorem sum_range_two_mul (f : ℕ → R) (m : ℕ) :
    ∑ t ∈ range (2 * m), f t = ∑ t ∈ range m, (f (2 * t) + f (2 * t + 1)) := by
  induction m with
  | zero => simp
  | succ m ih =>
    rw [show 2 * (m + 1) = 2 * m + 1 + 1 by ring, sum_range_succ, sum_range_succ, ih, sum_range_succ]
    ring

/-- Positions inside blocks of length `2h`. -/
theorem lower_pos {h i : ℕ} (hj : i % (2 * h) < h) :
    i / h = 2 * (i / (2 * h)) ∧ i % h = i % (2 * h) ∧ (i + h) / h = 2 * (i / (2 * h)) + 1 ∧
      (i + h) % h = i % (2 * h) ∧ (i + h) / (2 * h) = i / (2 * h) ∧ (i + h) % (2 * h) = i % (2 * h) + h := by
  have hh : 0 < h := by omega
  have e := Nat.div_add_mod i (2 * h)
  set B := i / (2 * h)
  set j := i % (2 * h)
  have h1 : i = h * (2 * B) + j := by rw [← e]; ring
  have h2 : i + h = h * (2 * B + 1) + j := by rw [h1]; ring
  have h3 : i + h = 2 * h * B + (j + h) := by rw [h1]; ring
  refine ⟨?_, ?_, ?_, ?_, ?_, ?_⟩
  · rw [h1, Nat.mul_add_div hh, Nat.div_eq_of_lt hj, Nat.add_zero]
  · rw [h1, Nat.mul_add_mod, Nat.mod_eq_of_lt hj]
  · rw [h2, Nat.mul_add_div hh, Nat.div_eq_of_lt hj, Nat.add_zero]
  · rw [h2, Nat.mul_add_mod, Nat.mod_eq_of_lt hj]
  · rw [h3, Nat.mul_add_div (by omega), Nat.div_eq_of_lt (by omega), Nat.add_zero]
  · rw [h3, Nat.mul_add_mod, Nat.mod_eq_of_lt (by omega)]

theorem upper_pos {h i : ℕ} (hh : 0 < h) (hj : ¬ i % (2 * h) < h) :
    h ≤ i ∧ i / h = 2 * (i / (2 * h)) + 1 ∧ i % h = i % (2 * h) - h ∧ (i - h) / h = 2 * (i / (2 * h)) ∧
      (i - h) % h = i % (2 * h) - h ∧ (i - h) / (2 * h) = i / (2 * h) ∧
      (i - h) % (2 * h) = i % (2 * h) - h := by
  have e := Nat.div_add_mod i (2 * h)
  have hlt : i % (2 * h) < 2 * h := Nat.mod_lt _ (by omega)
  have hle : i % (2 * h) ≤ i := Nat.mod_le _ _
  have hl : (i - h) % (2 * h) < h ∧ (i - h) / (2 * h) = i / (2 * h) ∧
      (i - h) % (2 * h) = i % (2 * h) - h := by
    have h3 : i - h = 2 * h * (i / (2 * h)) + (i % (2 * h) - h) := by omega
    have hm : (i - h) % (2 * h) = i % (2 * h) - h := by
      rw [h3, Nat.mul_add_mod]; exact Nat.mod_eq_of_lt (by omega)
    have hd : (i - h) / (2 * h) = i / (2 * h) := by
      have hz : (i % (2 * h) - h) / (2 * h) = 0 := Nat.div_eq_of_lt (by omega)
      rw [h3, Nat.mul_add_div (by omega), hz, Nat.add_zero]
    refine ⟨by omega, hd, hm⟩
  obtain ⟨p1, p2, p3, p4, -, -⟩ := lower_pos hl.1
  have hi : i - h + h = i := by omega
  rw [hi] at p3 p4
  rw [hl.2.1] at p1 p3
  rw [hl.2.2] at p2 p4
  exact ⟨by omega, p3, p4, p1, p2, hl.2.1, hl.2.2⟩

/-! ## Decimation in time / frequency (the CPU transform) -/

/-- One decimation-in-time stage with half-length `h` and root `w`. -/
def dit (w : R) (h : ℕ) (A : ℕ → R) (i : ℕ) : R :=
  if i % (2 * h) < h then A i + A (i + h) * w ^ (i % (2 * h))
  else A (i - h) - A i * w ^ (i % (2 * h) - h)

/-- One decimation-in-frequency stage. -/
def dif (w : R) (h : ℕ) (A : ℕ → R) (i : ℕ) : R :=
  if i % (2 * h) < h then A i + A (i + h) else (A (i - h) - A i) * w ^ (i % (2 * h) - h)

theorem dif_dit (w v : R) (hwv : w * v = 1) (h : ℕ) (hh : 0 < h) (A : ℕ → R) :
    dif v h (dit w h A) = fun i => 2 * A i := by
  funext i
  unfold dif
  by_cases hj : i % (2 * h) < h
  · obtain ⟨-, -, -, -, -, p6⟩ := lower_pos hj
    rw [if_pos hj]
    unfold dit
    rw [if_pos hj, p6, if_neg (by omega)]
    simp only [Nat.add_sub_cancel]
    ring
  · obtain ⟨p0, -, -, -, -, -, p6⟩ := upper_pos hh hj
    have hlt : i % (2 * h) < 2 * h := Nat.mod_lt _ (by omega)
    rw [if_neg hj]
    unfold dit
    rw [p6, if_pos (by omega), if_neg hj]
    have hi : i - h + h = i := by omega
    rw [hi]
    have : w ^ (i % (2 * h) - h) * v ^ (i % (2 * h) - h) = 1 := by rw [← mul_pow, hwv, one_pow]
    linear_combination (2 * A i) * this

theorem dit_dif (w v : R) (hwv : w * v = 1) (h : ℕ) (hh : 0 < h) (A : ℕ → R) :
    dit w h (dif v h A) = fun i => 2 * A i := by
  funext i
  unfold dit
  by_cases hj : i % (2 * h) < h
  · obtain ⟨-, -, -, -, -, p6⟩ := lower_pos hj
    rw [if_pos hj]
    unfold dif
    rw [if_pos hj, p6, if_neg (by omega)]
    simp only [Nat.add_sub_cancel]
    have : w ^ (i % (2 * h)) * v ^ (i % (2 * h)) = 1 := by rw [← mul_pow, hwv, one_pow]
    linear_combination (A i - A (i + h)) * this
  · obtain ⟨p0, -, -, -, -, -, p6⟩ := upper_pos hh hj
    have hlt : i % (2 * h) < 2 * h := Nat.mod_lt _ (by omega)
    rw [if_neg hj]
    unfold dif
    rw [p6, if_pos (by omega), if_neg hj]
    have hi : i - h + h = i := by omega
    rw [hi]
    have : w ^ (i % (2 * h) - h) * v ^ (i % (2 * h) - h) = 1 := by rw [← mul_pow, hwv, one_pow]
    linear_combination (A i - A (i - h)) * this

theorem dit_smul (w c : R) (h : ℕ) (A : ℕ → R) : dit w h (fun i => c * A i) = fun i => c * dit w h A i := by
  funext i; unfold dit; split <;> ring

theorem dif_smul (w c : R) (h : ℕ) (A : ℕ → R) : dif w h (fun i => c * A i) = fun i => c * dif w h A i := by
  funext i; unfold dif; split <;> ring

/-- The partial transforms computed by the decimation-in-time stages. -/
def partialDft (k : ℕ) (ω : R) (A : ℕ → R) (s p : ℕ) : R :=
  ∑ t ∈ range (2 ^ s), A (bitReversal (p / 2 ^ s) (k - s) + t * 2 ^ (k - s)) *
    (ω ^ 2 ^ (k - s)) ^ ((p % 2 ^ s) * t)

theorem dit_partialDft (k : ℕ) (ω : R) (A : ℕ → R) (s : ℕ) (hs : s < k) (hω : ω ^ 2 ^ (k - 1) = -1) (p : ℕ) :
    dit (ω ^ 2 ^ (k - (s + 1))) (2 ^ s) (partialDft k ω A s) p = partialDft k ω A (s + 1) p := by
  obtain ⟨d, hd⟩ : ∃ d, k = s + 1 + d := ⟨k - (s + 1), by omega⟩
  have e1 : k - s = d + 1 := by omega
  have e2 : k - (s + 1) = d := by omega
  have hW : (ω ^ 2 ^ d) ^ 2 ^ s = -1 := by
    rw [← pow_mul, ← pow_add, ← hω]; congr 2; omega
  have e3 : 2 ^ (s + 1) = 2 * 2 ^ s := by rw [pow_succ, Nat.mul_comm]
  have hω2 : ω ^ 2 ^ (d + 1) = (ω ^ 2 ^ d) ^ 2 := by rw [← pow_mul, ← pow_succ]
  have hrev0 : ∀ B, bitReversal (2 * B) (d + 1) = bitReversal B d := by
    intro B
    rw [rev_succ, Nat.mul_mod_right, Nat.mul_div_cancel_left _ (by norm_num)]; simp
  have hrev1 : ∀ B, bitReversal (2 * B + 1) (d + 1) = 2 ^ d + bitReversal B d := by
    intro B
    rw [rev_succ]
    have h1 : (2 * B + 1) % 2 = 1 := by omega
    have h2 : (2 * B + 1) / 2 = B := by omega
    rw [h1, h2, Nat.one_mul]
  unfold dit partialDft
  simp only [e1, e2, e3, hω2]
  set W := ω ^ 2 ^ d with hWdef
  have hpos : 0 < 2 ^ s := by positivity
  rw [sum_range_two_mul]
  by_cases hj : p % (2 * 2 ^ s) < 2 ^ s
  · obtain ⟨p1, p2, p3, p4, -, -⟩ := lower_pos hj
    rw [if_pos hj, p1, p2, p3, p4, hrev0, hrev1, Finset.sum_mul, ← Finset.sum_add_distrib]
    apply Finset.sum_congr rfl
    intro t _
    set c := bitReversal (p / (2 * 2 ^ s)) d
    set j := p % (2 * 2 ^ s)
    have i1 : c + t * 2 ^ (d + 1) = c + 2 * t * 2 ^ d := by rw [pow_succ]; ring
    have i2 : 2 ^ d + c + t * 2 ^ (d + 1) = c + (2 * t + 1) * 2 ^ d := by rw [pow_succ]; ring
    rw [i1, i2]
    ring
  · obtain ⟨-, p1, p2, p3, p4, -, -⟩ := upper_pos hpos hj
    have hlt : p % (2 * 2 ^ s) < 2 * 2 ^ s := Nat.mod_lt _ (by omega)
    rw [if_neg hj, p1, p2, p3, p4, hrev0, hrev1, Finset.sum_mul, ← Finset.sum_sub_distrib]
    apply Finset.sum_congr rfl
    intro t _
    set c := bitReversal (p / (2 * 2 ^ s)) d
    obtain ⟨j, hjj⟩ : ∃ j, p % (2 * 2 ^ s) = j + 2 ^ s := ⟨p % (2 * 2 ^ s) - 2 ^ s, by omega⟩
    rw [hjj, Nat.add_sub_cancel]
    have i1 : c + t * 2 ^ (d + 1) = c + 2 * t * 2 ^ d := by rw [pow_succ]; ring
    have i2 : 2 ^ d + c + t * 2 ^ (d + 1) = c + (2 * t + 1) * 2 ^ d := by rw [pow_succ]; ring
    rw [i1, i2]
    have w1 : W ^ ((j + 2 ^ s) * (2 * t)) = W ^ (2 * (j * t)) := by
      have : (j + 2 ^ s) * (2 * t) = 2 * (j * t) + 2 ^ s * (2 * t) := by ring
      rw [this, pow_add, pow_mul W (2 ^ s), hW, pow_mul (-1 : R) 2 t]; simp
    have w2 : W ^ ((j + 2 ^ s) * (2 * t + 1)) = -W ^ (2 * (j * t) + j) := by
      have : (j + 2 ^ s) * (2 * t + 1) = (2 * (j * t) + j) + 2 ^ s * (2 * t + 1) := by ring
      rw [this, pow_add, pow_mul W (2 ^ s), hW, pow_succ (-1 : R), pow_mul (-1 : R) 2 t]; simp
    rw [w1, w2]
    ring

theorem partialDft_zero (k : ℕ) (ω : R) (A : ℕ → R) (p : ℕ) :
    partialDft k ω A 0 p = A (bitReversal p k) := by
  simp [partialDft]

theorem partialDft_full (k : ℕ) (ω : R) (A : ℕ → R) (p : ℕ) (hp : p < 2 ^ k) :
    partialDft k ω A k p = ∑ t ∈ range (2 ^ k), A t * ω ^ (p * t) := by
  unfold partialDft
  simp [rev_zero, Nat.mod_eq_of_lt hp]

/-- All decimation-in-time stages. -/
def ditAll (w : ℕ → R) : ℕ → (ℕ → R) → (ℕ → R)
  | 0, A => A
  | s + 1, A => dit (w s) (2 ^ s) (ditAll w s A)

/-- All decimation-in-frequency stages, largest first. -/
def difAll (v : ℕ → R) : ℕ → (ℕ → R) → (ℕ → R)
  | 0, A => A
  | s + 1, A => difAll v s (dif (v s) (2 ^ s) A)

theorem ditAll_smul (w : ℕ → R) (s : ℕ) (c : R) (A : ℕ → R) :
    ditAll w s (fun i => c * A i) = fun i => c * ditAll w s A i := by
  induction s with
  | zero => rfl
  | succ s ih => simp only [ditAll]; rw [ih, dit_smul]

theorem difAll_smul (v : ℕ → R) (s : ℕ) (c : R) (A : ℕ → R) :
    difAll v s (fun i => c * A i) = fun i => c * difAll v s A i := by
  induction s generalizing A with
  | zero => rfl
  | succ s ih => simp only [difAll]; rw [dif_smul, ih]

theorem difAll_ditAll (w v : ℕ → R) (s : ℕ) (h : ∀ t, t < s → w t * v t = 1) (A : ℕ → R) :
    difAll v s (ditAll w s A) = fun i => 2 ^ s * A i := by
  induction s with
  | zero => simp [difAll, ditAll]
  | succ s ih =>
    simp only [difAll, ditAll]
    rw [dif_dit _ _ (h s (by omega)) _ (by positivity), difAll_smul, ih (fun t ht => h t (by omega))]
    funext i; rw [pow_succ]; ring

theorem ditAll_difAll (w v : ℕ → R) (s : ℕ) (h : ∀ t, t < s → w t * v t = 1) (A : ℕ → R) :
    ditAll w s (difAll v s A) = fun i => 2 ^ s * A i := by
  induction s generalizing A with
  | zero => simp [difAll, ditAll]
  | succ s ih =>
    simp only [difAll, ditAll]
    rw [ih (fun t ht => h t (by omega)), dit_smul, dit_dif _ _ (h s (by omega)) _ (by positivity)]
    funext i; rw [pow_succ]; ring

theorem ditAll_spec (k : ℕ) (ω : R) (A : ℕ → R) (hω : 0 < k → ω ^ 2 ^ (k - 1) = -1) (s : ℕ) (hs : s ≤ k) :
    ditAll (fun s => ω ^ 2 ^ (k - (s + 1))) s (fun p => A (bitReversal p k)) = partialDft k ω A s := by
  induction s with
  | zero => funext p; rw [partialDft_zero]; rfl
  | succ s ih =>
    funext p
    simp only [ditAll]
    rw [ih (by omega), dit_partialDft k ω A s (by omega) (hω (by omega))]

/-! ## In-place Cooley–Tukey / Gentleman–Sande (the RNS transform) -/

/-- One Cooley–Tukey stage with half-length `h` and one factor per block. -/
def ct (ζ : ℕ → R) (h : ℕ) (A : ℕ → R) (i : ℕ) : R :=
  if i % (2 * h) < h then A i + A (i + h) * ζ (i / (2 * h))
  else A (i - h) - A i * ζ (i / (2 * h))

/-- One Gentleman–Sande stage. -/
def gs (ζ : ℕ → R) (h : ℕ) (A : ℕ → R) (i : ℕ) : R :=
  if i % (2 * h) < h then A i + A (i + h) else (A (i - h) - A i) * ζ (i / (2 * h))

theorem gs_ct (w v : ℕ → R) (h : ℕ) (hh : 0 < h) (n : ℕ) (hwv : ∀ b, 2 * h * b < n → w b * v b = 1)
    (A : ℕ → R) (i : ℕ) (hi : i < n) : gs v h (ct w h A) i = 2 * A i := by
  have hb : 2 * h * (i / (2 * h)) < n := lt_of_le_of_lt (Nat.mul_div_le _ _) hi
  unfold gs
  by_cases hj : i % (2 * h) < h
  · obtain ⟨-, -, -, -, p5, p6⟩ := lower_pos hj
    rw [if_pos hj]
    unfold ct
    rw [if_pos hj, p5, p6, if_neg (by omega)]
    simp only [Nat.add_sub_cancel]
    ring
  · obtain ⟨p0, -, -, -, -, p5, p6⟩ := upper_pos hh hj
    have hlt : i % (2 * h) < 2 * h := Nat.mod_lt _ (by omega)
    rw [if_neg hj]
    unfold ct
    rw [p5, p6, if_pos (by omega), if_neg hj]
    have hi' : i - h + h = i := by omega
    rw [hi']
    linear_combination (2 * A i) * hwv _ hb

theorem ct_gs (w v : ℕ → R) (h : ℕ) (hh : 0 < h) (n : ℕ) (hwv : ∀ b, 2 * h * b < n → w b * v b = 1)
    (A : ℕ → R) (i : ℕ) (hi : i < n) : ct w h (gs v h A) i = 2 * A i := by
  have hb : 2 * h * (i / (2 * h)) < n := lt_of_le_of_lt (Nat.mul_div_le _ _) hi
  unfold ct
  by_cases hj : i % (2 * h) < h
  · obtain ⟨-, -, -, -, p5, p6⟩ := lower_pos hj
    rw [if_pos hj]
    unfold gs
    rw [if_pos hj, p5, p6, if_neg (by omega)]
    simp only [Nat.add_sub_cancel]
    linear_combination (A i - A (i + h)) * hwv _ hb
  · obtain ⟨p0, -, -, -, -, p5, p6⟩ := upper_pos hh hj
    have hlt : i % (2 * h) < 2 * h := Nat.mod_lt _ (by omega)
    rw [if_neg hj]
    unfold gs
    rw [p5, p6, if_pos (by omega), if_neg hj]
    have hi' : i - h + h = i := by omega
    rw [hi']
    linear_combination (A i - A (i - h)) * hwv _ hb

/-- The value at position `p` after `t` Cooley–Tukey stages: in block `b`, the input modulo
`X^M - ψ^(M (2 rev b + 1))` with `M = 2^(k-t)`. -/
def partialCt (k : ℕ) (ψ : R) (A : ℕ → R) (t p : ℕ) : R :=
  ∑ u ∈ range (2 ^ t), A (p % 2 ^ (k - t) + u * 2 ^ (k - t)) *
    (ψ ^ 2 ^ (k - t)) ^ ((2 * bitReversal (p / 2 ^ (k - t)) t + 1) * u)

theorem ct_partialCt (k : ℕ) (ψ : R) (A : ℕ → R) (t : ℕ) (ht : t < k) (hψ : ψ ^ 2 ^ k = -1) (p : ℕ)
    (hp : p < 2 ^ k) :
    ct (fun b => ψ ^ (2 ^ (k - (t + 1)) * (2 * bitReversal b t + 1))) (2 ^ (k - (t + 1)))
      (partialCt k ψ A t) p = partialCt k ψ A (t + 1) p := by
  obtain ⟨d, hd⟩ : ∃ d, k = t + 1 + d := ⟨k - (t + 1), by omega⟩
  have e1 : k - t = d + 1 := by omega
  have e2 : k - (t + 1) = d := by omega
  have e3 : 2 ^ (d + 1) = 2 * 2 ^ d := by rw [pow_succ, Nat.mul_comm]
  have hW : (ψ ^ 2 ^ d) ^ 2 ^ (t + 1) = -1 := by
    rw [← pow_mul, ← pow_add, ← hψ]; congr 2; omega
  have hψ2 : ψ ^ (2 * 2 ^ d) = (ψ ^ 2 ^ d) ^ 2 := by rw [← pow_mul]; congr 1; ring
  have hpos : 0 < 2 ^ d := by positivity
  have e4 : 2 ^ (t + 1) = 2 * 2 ^ t := by rw [pow_succ, Nat.mul_comm]
  unfold ct partialCt
  simp only [e1, e2, e3, hψ2]
  rw [e4] at hW
  simp only [e4]
  have hζ : ∀ b, ψ ^ (2 ^ d * (2 * bitReversal b t + 1)) = (ψ ^ 2 ^ d) ^ (2 * bitReversal b t + 1) := by
    intro b; rw [pow_mul]
  rw [hζ]
  set W := ψ ^ 2 ^ d with hWdef
  rw [sum_range_two_mul]
  have hblk : p / (2 * 2 ^ d) < 2 ^ t := by
    rw [Nat.div_lt_iff_lt_mul (by positivity)]
    calc p < 2 ^ k := hp
      _ = 2 ^ t * (2 * 2 ^ d) := by rw [hd, pow_add, pow_succ]; ring
  have hrev0 : bitReversal (2 * (p / (2 * 2 ^ d))) (t + 1) = bitReversal (p / (2 * 2 ^ d)) t := by
    rw [rev_succ, Nat.mul_mod_right, Nat.mul_div_cancel_left _ (by norm_num)]; simp
  have hrev1 : bitReversal (2 * (p / (2 * 2 ^ d)) + 1) (t + 1) = 2 ^ t + bitReversal (p / (2 * 2 ^ d)) t := by
    rw [rev_succ]
    have h1 : (2 * (p / (2 * 2 ^ d)) + 1) % 2 = 1 := by omega
    have h2 : (2 * (p / (2 * 2 ^ d)) + 1) / 2 = p / (2 * 2 ^ d) := by omega
    rw [h1, h2, Nat.one_mul]
  by_cases hj : p % (2 * 2 ^ d) < 2 ^ d
  · obtain ⟨p1, p2, -, -, p5, p6⟩ := lower_pos hj
    rw [if_pos hj, p1, p2, p5, p6, hrev0, Finset.sum_mul, ← Finset.sum_add_distrib]
    apply Finset.sum_congr rfl
    intro u _
    set c := bitReversal (p / (2 * 2 ^ d)) t
    set j := p % (2 * 2 ^ d)
    have i1 : j + u * (2 * 2 ^ d) = j + 2 * u * 2 ^ d := by ring
    have i2 : j + 2 ^ d + u * (2 * 2 ^ d) = j + (2 * u + 1) * 2 ^ d := by ring
    rw [i1, i2]
    ring
  · obtain ⟨-, p1, p2, -, -, p5, p6⟩ := upper_pos hpos hj
    have hlt : p % (2 * 2 ^ d) < 2 * 2 ^ d := Nat.mod_lt _ (by omega)
    rw [if_neg hj, p1, p2, p5, p6, hrev1, Finset.sum_mul, ← Finset.sum_sub_distrib]
    apply Finset.sum_congr rfl
    intro u _
    set c := bitReversal (p / (2 * 2 ^ d)) t
    obtain ⟨j, hjj⟩ : ∃ j, p % (2 * 2 ^ d) = j + 2 ^ d := ⟨p % (2 * 2 ^ d) - 2 ^ d, by omega⟩
    rw [hjj, Nat.add_sub_cancel]
    have i1 : j + u * (2 * 2 ^ d) = j + 2 * u * 2 ^ d := by ring
    have i2 : j + 2 ^ d + u * (2 * 2 ^ d) = j + (2 * u + 1) * 2 ^ d := by ring
    rw [i1, i2]
    have w1 : W ^ ((2 * (2 ^ t + c) + 1) * (2 * u)) = W ^ (2 * ((2 * c + 1) * u)) := by
      have : (2 * (2 ^ t + c) + 1) * (2 * u) = 2 * ((2 * c + 1) * u) + (2 * 2 ^ t) * (2 * u) := by ring
      rw [this, pow_add, pow_mul W (2 * 2 ^ t), hW, pow_mul (-1 : R) 2 u]; simp
    have w2 : W ^ ((2 * (2 ^ t + c) + 1) * (2 * u + 1)) = -W ^ (2 * ((2 * c + 1) * u) + (2 * c + 1)) := by
      have : (2 * (2 ^ t + c) + 1) * (2 * u + 1) =
          (2 * ((2 * c + 1) * u) + (2 * c + 1)) + (2 * 2 ^ t) * (2 * u + 1) := by ring
      rw [this, pow_add, pow_mul W (2 * 2 ^ t), hW, pow_succ (-1 : R), pow_mul (-1 : R) 2 u]; simp
    rw [w1, w2]
    ring

theorem partialCt_zero (k : ℕ) (ψ : R) (A : ℕ → R) (p : ℕ) (hp : p < 2 ^ k) : partialCt k ψ A 0 p = A p := by
  simp [partialCt, Nat.mod_eq_of_lt hp]

theorem partialCt_full (k : ℕ) (ψ : R) (A : ℕ → R) (p : ℕ) :
    partialCt k ψ A k p = ∑ u ∈ range (2 ^ k), A u * ψ ^ ((2 * bitReversal p k + 1) * u) := by
  unfold partialCt
  simp [Nat.mod_one]

end Verif.NttCore
