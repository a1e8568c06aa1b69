import Mathlib.RingTheory.AdjoinRoot
import Mathlib.Algebra.Polynomial.Div
import Mathlib.Algebra.Polynomial.Degree.Lemmas
import Mathlib.Algebra.Polynomial.BigOperators
import Mathlib.Data.Fin.Basic
import Mathlib.Data.ZMod.Defs
import Mathlib.Tactic.Ring
import Mathlib.Tactic.LinearCombination

/-!
# The ring `R[X]/(X^N + 1)` and coefficient vectors
-/

namespace Verif.Nega
open Polynomial

variable {R : Type*} [CommRing R] {N : Nat}

/-- The polynomial with the given coefficient vector. -/
noncomputable def toPoly (a : Fin N → R) : R[X] := ∑ i, C (a i) * X ^ (i : ℕ)

/-- The ring modulus. -/
noncomputable def modulus (R : Type*) [CommRing R] (N : Nat) : R[X] := X ^ N + 1

/-- The quotient ring. -/
abbrev Q (R : Type*) [CommRing R] (N : Nat) := AdjoinRoot (modulus R N)

/-- The class of `X`. -/
noncomputable def x (R : Type*) [CommRing R] (N : Nat) : Q R N := AdjoinRoot.root (modulus R N)

/-- The class of the polynomial with the given coefficients. -/
noncomputable def ev (a : Fin N → R) : Q R N := AdjoinRoot.mk _ (toPoly a)

/-- Constants. -/
noncomputable def cst (N : Nat) (r : R) : Q R N := AdjoinRoot.of _ r

theorem ev_eq (a : Fin N → R) : ev a = ∑ i, cst N (a i) * x R N ^ (i : ℕ) := by
  unfold ev toPoly
  rw [map_sum]
  apply Finset.sum_congr rfl
  intro i _
  rw [map_mul, map_pow, AdjoinRoot.mk_C, AdjoinRoot.mk_X]
  rfl

theorem x_pow_N : x R N ^ N = -1 := by
  have h : AdjoinRoot.mk (modulus R N) (modulus R N) = 0 := AdjoinRoot.mk_self
  unfold modulus at h
  rw [map_add, map_pow, map_one, AdjoinRoot.mk_X] at h
  exact eq_neg_of_add_eq_zero_left h

theorem x_pow_2N : x R N ^ (2 * N) = 1 := by
  rw [Nat.mul_comm, pow_mul, x_pow_N]; ring

theorem x_pow_mod (k : Nat) : x R N ^ (k % (2 * N)) = x R N ^ k := by
  conv_rhs => rw [← Nat.div_add_mod k (2 * N), pow_add, pow_mul, x_pow_2N, one_pow, one_mul]

theorem x_pow_congr {a b : Nat} (h : a % (2 * N) = b % (2 * N)) : x R N ^ a = x R N ^ b := by
  rw [← x_pow_mod a, h, x_pow_mod]

theorem cst_add (a b : R) : cst N (a + b) = cst N a + cst N b := map_add _ _ _
theorem cst_sub (a b : R) : cst N (a - b) = cst N a - cst N b := map_sub _ _ _
theorem cst_mul (a b : R) : cst N (a * b) = cst N a * cst N b := map_mul _ _ _
theorem cst_neg (a : R) : cst N (-a) = -cst N a := map_neg _ _
theorem cst_zero : cst N (0 : R) = 0 := map_zero _
theorem cst_one : cst N (1 : R) = 1 := map_one _

theorem ev_add (a b : Fin N → R) : ev (fun i => a i + b i) = ev a + ev b := by
  simp only [ev_eq, cst_add, add_mul, Finset.sum_add_distrib]

theorem ev_sub (a b : Fin N → R) : ev (fun i => a i - b i) = ev a - ev b := by
  simp only [ev_eq, cst_sub, sub_mul, Finset.sum_sub_distrib]

theorem ev_neg (a : Fin N → R) : ev (fun i => -a i) = -ev a := by
  simp only [ev_eq, cst_neg, neg_mul, Finset.sum_neg_distrib]

theorem ev_smul (c : R) (a : Fin N → R) : ev (fun i => c * a i) = cst N c * ev a := by
  simp only [ev_eq, cst_mul, mul_assoc, ← Finset.mul_sum]

theorem ev_zero : ev (fun _ : Fin N => (0 : R)) = 0 := by
  simp [ev_eq, cst_zero]

theorem ev_sum {ι : Type*} (s : Finset ι) (f : ι → Fin N → R) :
    ev (fun i => ∑ j ∈ s, f j i) = ∑ j ∈ s, ev (f j) := by
  simp only [ev_eq]
  rw [Finset.sum_comm]
  apply Finset.sum_congr rfl
  intro i _
  rw [← Finset.sum_mul]
  congr 1
  unfold cst
  rw [map_sum]

theorem toPoly_coeff (a : Fin N → R) (i : Fin N) : (toPoly a).coeff i = a i := by
  unfold toPoly
  rw [finsetSum_coeff]
  simp only [coeff_C_mul, coeff_X_pow]
  rw [Finset.sum_eq_single i]
  · simp
  · intro j _ hj
    have : (i : ℕ) ≠ j := fun h => hj (Fin.ext h.symm)
    simp [this]
  · simp

theorem toPoly_degree_lt (a : Fin N → R) : (toPoly a).degree < N := by
  unfold toPoly
  refine lt_of_le_of_lt (degree_sum_le _ _) ?_
  rw [Finset.sup_lt_iff (by exact WithBot.bot_lt_coe N)]
  intro i _
  refine lt_of_le_of_lt (degree_C_mul_X_pow_le _ _) ?_
  exact_mod_cast i.isLt

theorem modulus_monic (hN : N ≠ 0) : (modulus R N).Monic := by
  unfold modulus
  have := monic_X_pow_add_C (1 : R) hN
  rwa [C_1] at this

theorem modulus_degree [Nontrivial R] (hN : 0 < N) : (modulus R N).degree = N := by
  unfold modulus
  have := degree_X_pow_add_C hN (1 : R)
  rwa [C_1] at this

theorem toPoly_injective : Function.Injective (toPoly : (Fin N → R) → R[X]) := by
  intro a b h
  funext i
  rw [← toPoly_coeff a i, h, toPoly_coeff]

theorem ev_eq_iff_modByMonic [Nontrivial R] (hN : 0 < N) (a : Fin N → R) (p : R[X]) :
    ev a = AdjoinRoot.mk _ p ↔ toPoly a = p %ₘ modulus R N := by
  have hm := modulus_monic (R := R) (N := N) (by omega)
  unfold ev
  rw [AdjoinRoot.mk_eq_mk]
  constructor
  · intro h
    have h1 : (toPoly a) %ₘ modulus R N = toPoly a := by
      rw [modByMonic_eq_self_iff hm, modulus_degree hN]; exact toPoly_degree_lt a
    rw [← h1]
    have h2 := (modByMonic_eq_zero_iff_dvd hm).2 h
    rw [sub_modByMonic] at h2
    exact sub_eq_zero.1 h2
  · intro h
    rw [h]
    have := modByMonic_add_div p (modulus R N)
    exact ⟨-(p /ₘ modulus R N), by linear_combination this⟩

theorem ev_injective (hN : 0 < N) : Function.Injective (ev : (Fin N → R) → Q R N) := by
  intro a b h
  rcases subsingleton_or_nontrivial R with hs | hn
  · funext i; exact Subsingleton.elim _ _
  · apply toPoly_injective
    have h1 := (ev_eq_iff_modByMonic hN a (toPoly b)).1 h
    have h2 := (ev_eq_iff_modByMonic hN b (toPoly b)).1 rfl
    exact h1.trans h2.symm

/-- The coefficient vector of a class. -/
noncomputable def coeffs (q : Q R N) : Fin N → R :=
  fun i => ((Function.surjInv AdjoinRoot.mk_surjective q) %ₘ modulus R N).coeff i

theorem ev_coeffs [Nontrivial R] (hN : 0 < N) (q : Q R N) : ev (coeffs q) = q := by
  have hq : AdjoinRoot.mk _ (Function.surjInv AdjoinRoot.mk_surjective q) = q :=
    Function.surjInv_eq AdjoinRoot.mk_surjective q
  conv_rhs => rw [← hq]
  rw [ev_eq_iff_modByMonic hN]
  set p := (Function.surjInv AdjoinRoot.mk_surjective q) %ₘ modulus R N with hp
  have hd : p.degree < N := by
    rw [hp, ← modulus_degree (R := R) hN]
    exact degree_modByMonic_lt _ (modulus_monic (by omega))
  ext i
  by_cases hi : i < N
  · exact toPoly_coeff (coeffs q) ⟨i, hi⟩
  · rw [coeff_eq_zero_of_degree_lt (lt_of_lt_of_le (toPoly_degree_lt _) (by exact_mod_cast not_lt.1 hi)),
      coeff_eq_zero_of_degree_lt (lt_of_lt_of_le hd (by exact_mod_cast not_lt.1 hi))]

theorem coeffs_ev [Nontrivial R] (hN : 0 < N) (a : Fin N → R) : coeffs (ev a) = a :=
  ev_injective hN (ev_coeffs hN _)

/-- Multiplication of a coefficient vector by `X^e` for `e < N`. -/
def shift (e : Nat) (a : Fin N → R) : Fin N → R := fun k =>
  if h : e ≤ k.val then a ⟨k.val - e, by have := k.isLt; omega⟩
  else if h2 : N + k.val - e < N then -a ⟨N + k.val - e, h2⟩ else 0

theorem ev_shift (e : Nat) (he : e < N) (a : Fin N → R) : ev (shift e a) = x R N ^ e * ev a := by
  have : NeZero N := ⟨by omega⟩
  rw [ev_eq, ev_eq, Finset.mul_sum]
  rw [← (Equiv.subRight (⟨e, he⟩ : Fin N)).sum_comp
    (fun i => x R N ^ e * (cst N (a i) * x R N ^ (i : ℕ)))]
  apply Finset.sum_congr rfl
  intro k _
  have hk := k.isLt
  have hv : ((Equiv.subRight (⟨e, he⟩ : Fin N)) k).val = (N - e + k.val) % N := by
    simp [Fin.sub_def]
  set j := (Equiv.subRight (⟨e, he⟩ : Fin N)) k with hj
  unfold shift
  split
  · rename_i hle
    have hjv : j.val = k.val - e := by
      rw [hv]
      have : N - e + k.val = (k.val - e) + N := by omega
      rw [this, Nat.add_mod_right, Nat.mod_eq_of_lt (by omega)]
    have : (⟨k.val - e, by omega⟩ : Fin N) = j := Fin.ext hjv.symm
    rw [this, hjv]
    have hp : x R N ^ k.val = x R N ^ e * x R N ^ (k.val - e) := by
      rw [← pow_add]; congr 1; omega
    rw [hp]; ring
  · rename_i hlt
    have hjv : j.val = N + k.val - e := by
      rw [hv, Nat.mod_eq_of_lt (by omega)]; omega
    rw [dif_pos (by omega)]
    have : (⟨N + k.val - e, by omega⟩ : Fin N) = j := Fin.ext hjv.symm
    rw [this, hjv, cst_neg]
    have hp : x R N ^ e * x R N ^ (N + k.val - e) = -x R N ^ k.val := by
      rw [← pow_add]
      have : e + (N + k.val - e) = N + k.val := by omega
      rw [this, pow_add, x_pow_N]; ring
    linear_combination (-cst N (a j)) * hp

/-- Negacyclic product of coefficient vectors. -/
def mul (a b : Fin N → R) : Fin N → R := fun k => ∑ i, b i * shift i.val a k

theorem ev_mul (a b : Fin N → R) : ev (mul a b) = ev a * ev b := by
  have h : mul a b = fun k => ∑ i, (fun k => b i * shift i.val a k) k := rfl
  rw [h, ev_sum]
  rw [ev_eq b, Finset.mul_sum]
  apply Finset.sum_congr rfl
  intro i _
  rw [ev_smul, ev_shift _ i.isLt]
  ring

end Verif.Nega
