import Verif.Model.NttBat
import Verif.Lemmas.RnsNtt
import Mathlib.Algebra.BigOperators.Intervals
import Mathlib.Algebra.Ring.GeomSum
import Mathlib.GroupTheory.OrderOfElement
import Mathlib.Tactic.LinearCombination

/-!
# The four-step factorisation of the negacyclic transform
-/

namespace Verif.NttBat
open Finset Verif.BitReversal

section algebra
variable {R : Type*} [CommRing R]

theorem sum_grid (r c : Nat) (F : Nat → R) :
    ∑ e ∈ range (r * c), F e = ∑ n ∈ range c, ∑ z ∈ range r, F (z + r * n) := by
  induction c with
  | zero => simp
  | succ c ih =>
    rw [Nat.mul_succ, Finset.sum_range_add, ih, sum_range_succ]
    congr 1
    apply sum_congr rfl
    intro z _
    rw [Nat.add_comm]

theorem sum_grid' (r c : Nat) (hc : 0 < c) (F : Nat → Nat → R) :
    ∑ m ∈ range (r * c), F (m / c) (m % c) = ∑ i ∈ range r, ∑ j ∈ range c, F i j := by
  rw [Nat.mul_comm, sum_grid c r]
  apply sum_congr rfl
  intro i _
  apply sum_congr rfl
  intro j hj
  rw [mem_range] at hj
  rw [Nat.add_mul_div_left _ _ hc, Nat.add_mul_mod_self_left, Nat.div_eq_of_lt hj, Nat.mod_eq_of_lt hj, Nat.zero_add]

theorem sum_rev (k : Nat) (F : Nat → R) : ∑ z ∈ range (2 ^ k), F (bitReversal z k) = ∑ z ∈ range (2 ^ k), F z := by
  apply Finset.sum_nbij' (fun z => bitReversal z k) (fun z => bitReversal z k)
  · intro z _; exact mem_range.2 (rev_lt z k)
  · intro z _; exact mem_range.2 (rev_lt z k)
  · intro z hz; exact rev_rev_of_lt (mem_range.1 hz)
  · intro z hz; exact rev_rev_of_lt (mem_range.1 hz)
  · intro z _; rfl

/-- The forward three-step sum is an evaluation. -/
theorem fwd_eval (r c : Nat) (hc : 0 < c) (ψ : R) (hψ : ψ ^ (2 * (r * c)) = 1) (a : Nat → Nat → R) (e f : Nat) :
    ∑ j ∈ range c, ((∑ i ∈ range r, a i j * (((ψ ^ 2) ^ c) ^ (e * i) * ψ ^ (c * i))) *
        ((ψ ^ 2) ^ (e * j) * ψ ^ j)) * ((ψ ^ 2) ^ r) ^ (j * f) =
      ∑ m ∈ range (r * c), a (m / c) (m % c) * ψ ^ ((2 * (e + r * f) + 1) * m) := by
  have h : ∀ m, a (m / c) (m % c) * ψ ^ ((2 * (e + r * f) + 1) * m) =
      (fun i j => a i j * ψ ^ ((2 * (e + r * f) + 1) * (c * i + j))) (m / c) (m % c) := by
    intro m
    simp only
    rw [Nat.div_add_mod]
  rw [sum_congr rfl (fun m _ => h m),
    sum_grid' r c hc (fun i j => a i j * ψ ^ ((2 * (e + r * f) + 1) * (c * i + j))), sum_comm]
  apply sum_congr rfl
  intro j _
  rw [sum_mul, sum_mul]
  apply sum_congr rfl
  intro i _
  have e1 : (2 * (e + r * f) + 1) * (c * i + j) =
      2 * c * (e * i) + c * i + (2 * (e * j) + j) + 2 * r * (j * f) + (2 * (r * c)) * (f * i) := by ring
  have e2 : ψ ^ ((2 * (r * c)) * (f * i)) = 1 := by rw [pow_mul, hψ, one_pow]
  rw [e1, pow_add, e2, mul_one]
  ring

/-- The inverse three-step sum. `φ` is the inverse of `ψ`. -/
theorem inv_eval (kr kc : Nat) (φ : R) (hφ : φ ^ (2 * (2 ^ kr * 2 ^ kc)) = 1) (B : Nat → R) (u w : R) (t l : Nat) :
    ∑ z ∈ range (2 ^ kr), ((∑ j ∈ range (2 ^ kc), B (bitReversal z kr + 2 ^ kr * bitReversal j kc) *
        ((φ ^ 2) ^ 2 ^ kr) ^ (bitReversal j kc * l)) *
        ((φ ^ 2) ^ (bitReversal z kr * l) * φ ^ l * w)) *
        (((φ ^ 2) ^ 2 ^ kc) ^ (t * bitReversal z kr) * φ ^ (2 ^ kc * t) * u) =
      u * w * ∑ e ∈ range (2 ^ kr * 2 ^ kc), B e * φ ^ ((2 * e + 1) * (2 ^ kc * t + l)) := by
  rw [sum_rev kr (fun z => ((∑ j ∈ range (2 ^ kc), B (z + 2 ^ kr * bitReversal j kc) *
        ((φ ^ 2) ^ 2 ^ kr) ^ (bitReversal j kc * l)) *
        ((φ ^ 2) ^ (z * l) * φ ^ l * w)) * (((φ ^ 2) ^ 2 ^ kc) ^ (t * z) * φ ^ (2 ^ kc * t) * u)), sum_grid, mul_sum]
  have hj : ∀ z, ∑ j ∈ range (2 ^ kc), B (z + 2 ^ kr * bitReversal j kc) * ((φ ^ 2) ^ 2 ^ kr) ^ (bitReversal j kc * l) =
      ∑ j ∈ range (2 ^ kc), B (z + 2 ^ kr * j) * ((φ ^ 2) ^ 2 ^ kr) ^ (j * l) := by
    intro z
    exact sum_rev kc (fun j => B (z + 2 ^ kr * j) * ((φ ^ 2) ^ 2 ^ kr) ^ (j * l))
  simp only [hj, sum_mul, mul_sum]
  rw [sum_comm]
  apply sum_congr rfl
  intro j _
  apply sum_congr rfl
  intro z _
  generalize 2 ^ kr = r at *
  generalize 2 ^ kc = c at *
  have e1 : (2 * (z + r * j) + 1) * (c * t + l) =
      2 * r * (j * l) + (2 * (z * l) + l) + (2 * c * (t * z) + c * t) + (2 * (r * c)) * (j * t) := by ring
  have e2 : φ ^ ((2 * (r * c)) * (j * t)) = 1 := by rw [pow_mul, hφ, one_pow]
  rw [e1, pow_add, e2, mul_one]
  ring

end algebra

/-- Reversal of the flattened position. -/
theorem rev_flat (kr kc z n : Nat) (hn : n < 2 ^ kc) :
    bitReversal (z * 2 ^ kc + n) (kr + kc) = bitReversal z kr + 2 ^ kr * bitReversal n kc := by
  induction kc generalizing n with
  | zero =>
    obtain rfl : n = 0 := by simpa using hn
    simp [rev_zero]
  | succ kc ih =>
    have e : z * 2 ^ (kc + 1) + n = 2 * (z * 2 ^ kc + n / 2) + n % 2 := by
      rw [pow_succ]; have := Nat.div_add_mod n 2; nlinarith
    have hn2 : n / 2 < 2 ^ kc := by rw [pow_succ] at hn; omega
    rw [← Nat.add_assoc, rev_succ, rev_succ n kc]
    have h1 : (z * 2 ^ (kc + 1) + n) % 2 = n % 2 := by rw [e]; omega
    have h2 : (z * 2 ^ (kc + 1) + n) / 2 = z * 2 ^ kc + n / 2 := by rw [e]; omega
    rw [h1, h2, ih _ hn2, pow_add]
    ring

section field
variable {K : Type*} [Field K]

/-- Orthogonality of the powers of `ψ²`. -/
theorem orthogonal (N : Nat) (ψ φ : K) (hord : orderOf ψ = 2 * N) (hN : 0 < N) (hφ : ψ * φ = 1) (m m' : Nat)
    (hm : m < N) (hm' : m' < N) :
    ∑ e ∈ range N, ψ ^ (2 * e * m') * φ ^ (2 * e * m) = if m = m' then (N : K) else 0 := by
  have hψ : ψ ^ (2 * N) = 1 := by rw [← hord]; exact pow_orderOf_eq_one ψ
  have hφN : φ ^ (2 * N) = 1 := by
    have : ψ ^ (2 * N) * φ ^ (2 * N) = 1 := by rw [← mul_pow, hφ, one_pow]
    rwa [hψ, one_mul] at this
  have hterm : ∀ e, ψ ^ (2 * e * m') * φ ^ (2 * e * m) = (ψ ^ (2 * m') * φ ^ (2 * m)) ^ e := by
    intro e
    rw [mul_pow, ← pow_mul, ← pow_mul]; congr 2 <;> ring
  simp only [hterm]
  split
  · rename_i h
    subst h
    rw [← mul_pow, hφ, one_pow]
    simp
  · rename_i h
    set x := ψ ^ (2 * m') * φ ^ (2 * m) with hx
    have hx1 : x ≠ 1 := by
      intro h1
      apply h
      have h2 : ψ ^ (2 * m') = ψ ^ (2 * m) := by
        have h3 : ψ ^ (2 * m) * φ ^ (2 * m) = 1 := by rw [← mul_pow, hφ, one_pow]
        calc ψ ^ (2 * m') = ψ ^ (2 * m') * (ψ ^ (2 * m) * φ ^ (2 * m)) := by rw [h3, mul_one]
          _ = x * ψ ^ (2 * m) := by rw [hx]; ring
          _ = ψ ^ (2 * m) := by rw [h1, one_mul]
      have := pow_injOn_Iio_orderOf (x := ψ) (by rw [Set.mem_Iio, hord]; omega) (by rw [Set.mem_Iio, hord]; omega) h2
      omega
    have hxN : x ^ N = 1 := by
      rw [hx, mul_pow, ← pow_mul, ← pow_mul, show 2 * m' * N = 2 * N * m' by ring, show 2 * m * N = 2 * N * m by ring,
        pow_mul, pow_mul φ, hψ, hφN, one_pow, one_pow, one_mul]
    have := mul_geom_sum x N
    rw [hxN, sub_self] at this
    rcases mul_eq_zero.1 this with h4 | h4
    · exact absurd (sub_eq_zero.1 h4) hx1
    · exact h4

/-- The evaluation map is inverted by the scaled sum. -/
theorem eval_inverse (N : Nat) (ψ φ s : K) (hord : orderOf ψ = 2 * N) (hN : 0 < N) (hφ : ψ * φ = 1) (hs : s * N = 1)
    (a : Nat → K) (m : Nat) (hm : m < N) :
    s * ∑ e ∈ range N, (∑ m' ∈ range N, a m' * ψ ^ ((2 * e + 1) * m')) * φ ^ ((2 * e + 1) * m) = a m := by
  have h : ∀ e ∈ range N, (∑ m' ∈ range N, a m' * ψ ^ ((2 * e + 1) * m')) * φ ^ ((2 * e + 1) * m) =
      ∑ m' ∈ range N, a m' * ψ ^ m' * φ ^ m * (ψ ^ (2 * e * m') * φ ^ (2 * e * m)) := by
    intro e _
    rw [sum_mul]
    apply sum_congr rfl
    intro m' _
    ring
  rw [sum_congr rfl h, sum_comm]
  simp only [← mul_sum]
  rw [sum_eq_single m]
  · rw [orthogonal N ψ φ hord hN hφ m m hm hm, if_pos rfl]
    have h2 : ψ ^ m * φ ^ m = 1 := by rw [← mul_pow, hφ, one_pow]
    linear_combination (a m * ψ ^ m * φ ^ m) * hs + a m * h2
  · intro m' hm' hne
    rw [orthogonal N ψ φ hord hN hφ m m' hm (mem_range.1 hm'), if_neg (Ne.symm hne), mul_zero]
  · intro h; exact absurd (mem_range.2 hm) h

/-- And conversely. -/
theorem inverse_eval (N : Nat) (ψ φ s : K) (hord : orderOf ψ = 2 * N) (hN : 0 < N) (hφ : ψ * φ = 1) (hs : s * N = 1)
    (b : Nat → K) (e : Nat) (he : e < N) :
    ∑ m ∈ range N, (s * ∑ e' ∈ range N, b e' * φ ^ ((2 * e' + 1) * m)) * ψ ^ ((2 * e + 1) * m) = b e := by
  have h : ∀ m ∈ range N, (s * ∑ e' ∈ range N, b e' * φ ^ ((2 * e' + 1) * m)) * ψ ^ ((2 * e + 1) * m) =
      ∑ e' ∈ range N, s * b e' * (ψ ^ (2 * m * e) * φ ^ (2 * m * e')) := by
    intro m _
    rw [mul_assoc, sum_mul, mul_sum]
    apply sum_congr rfl
    intro e' _
    have h2 : ψ ^ m * φ ^ m = 1 := by rw [← mul_pow, hφ, one_pow]
    have e1 : φ ^ ((2 * e' + 1) * m) = φ ^ (2 * m * e') * φ ^ m := by rw [← pow_add]; congr 1; ring
    have e2 : ψ ^ ((2 * e + 1) * m) = ψ ^ (2 * m * e) * ψ ^ m := by rw [← pow_add]; congr 1; ring
    rw [e1, e2]
    linear_combination (s * b e' * ψ ^ (2 * m * e) * φ ^ (2 * m * e')) * h2
  rw [sum_congr rfl h, sum_comm]
  simp only [← mul_sum]
  rw [sum_eq_single e]
  · rw [orthogonal N ψ φ hord hN hφ e e he he, if_pos rfl]
    linear_combination (b e) * hs
  · intro e' he' hne
    rw [orthogonal N ψ φ hord hN hφ e' e (mem_range.1 he') he, if_neg hne, mul_zero]
  · intro h; exact absurd (mem_range.2 he) h

end field

end Verif.NttBat
