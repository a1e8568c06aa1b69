import Verif.Lemmas.Slots
import Verif.Model.Automorphism

/-!
# The ring automorphisms `X ↦ X^g` and their action on slots
-/

namespace Verif.Automorphism
open Verif.BitReversal Verif.Slots Verif.Props Finset

/-- `revStep` agrees with the bit reversal as long as the result fits into 32 bits. -/
theorem revStep_iterate (n r x : Nat) (h : r < 2 ^ (32 - n)) (hn : n ≤ 32) :
    (revStep^[n] (r, x)).1 = bitReversalLoop n r x := by
  induction n generalizing r x with
  | zero => rfl
  | succ n ih =>
    rw [Function.iterate_succ_apply]
    have h2 : r <<< 1 < 2 ^ 32 := by
      rw [Nat.shiftLeft_eq]
      have : 2 ^ 32 = 2 ^ (32 - (n + 1)) * 2 ^ (n + 1) := by rw [← pow_add]; congr 1; omega
      rw [this, pow_succ 2 n]
      have h3 := Nat.one_le_two_pow (n := n)
      nlinarith
    unfold bitReversalLoop
    have e : revStep (r, x) = ((r <<< 1) ||| (x &&& 1), x >>> 1) := by
      unfold revStep
      simp only
      rw [Nat.mod_eq_of_lt h2]
    rw [e]
    apply ih _ _ _ (by omega)
    rw [shift_or_bit]
    have : 2 ^ (32 - n) = 2 * 2 ^ (32 - (n + 1)) := by rw [← pow_succ']; congr 1; omega
    omega

theorem bitReverse32_eq (n x : Nat) (hn : n ≤ 32) : bitReverse32 n x = bitReversal x n :=
  revStep_iterate n 0 x (by positivity) hn

variable {R : Type*} [CommRing R] {N : Nat}

theorem odd_pow (g : Nat) (hg : g % 2 = 1) : (Nega.x R N ^ g) ^ N = -1 := by
  rw [← pow_mul, Nat.mul_comm, pow_mul, Nega.x_pow_N]
  obtain ⟨m, hm⟩ : ∃ m, g = 2 * m + 1 := ⟨g / 2, by omega⟩
  rw [hm, pow_succ, pow_mul]
  simp

theorem eval_modulus {S : Type*} [CommRing S] (f : R →+* S) (z : S) (hz : z ^ N = -1) :
    Polynomial.eval₂ f z (Nega.modulus R N) = 0 := by
  unfold Nega.modulus
  simp [hz]

/-- The ring homomorphism fixing constants with `X ↦ X^g`. -/
noncomputable def sigma (g : Nat) (hg : g % 2 = 1) : Nega.Q R N →+* Nega.Q R N :=
  AdjoinRoot.lift (AdjoinRoot.of _) (Nega.x R N ^ g) (eval_modulus _ _ (odd_pow g hg))

theorem sigma_x (g : Nat) (hg : g % 2 = 1) : sigma g hg (Nega.x R N) = Nega.x R N ^ g :=
  AdjoinRoot.lift_root _

theorem sigma_cst (g : Nat) (hg : g % 2 = 1) (c : R) : sigma g hg (Nega.cst N c) = Nega.cst N c :=
  AdjoinRoot.lift_of _

theorem sigma_ev (g : Nat) (hg : g % 2 = 1) (a : Fin N → R) :
    sigma g hg (Nega.ev a) = ∑ i, Nega.cst N (a i) * Nega.x R N ^ (g * (i : ℕ)) := by
  rw [Nega.ev_eq, map_sum]
  apply sum_congr rfl
  intro i _
  rw [map_mul, map_pow, sigma_cst, sigma_x, pow_mul]

variable {k q : Nat}

/-- `sigma` of an element with known integer coefficients. -/
theorem sigma_polyOf (g : Nat) (hg : g % 2 = 1) (x : Nat → Int) :
    sigma g hg (polyOf k q x) = ∑ j ∈ range (2 ^ k), (x j : Rq k q) * Nega.x (ZMod q) (2 ^ k) ^ (g * j) := by
  unfold polyOf
  rw [sigma_ev, ← Fin.sum_univ_eq_sum_range (fun j => (x j : Rq k q) * Nega.x (ZMod q) (2 ^ k) ^ (g * j))]
  apply sum_congr rfl
  intro i _
  rw [cst_int]

/-- Evaluation after `sigma`. -/
theorem evalE_sigma (h : NttPrime k q) (g : Nat) (hg : g % 2 = 1) (e e' : Nat)
    (he : ((2 * e + 1) * g) % (2 * 2 ^ k) = (2 * e' + 1) % (2 * 2 ^ k)) (a : Rq k q) :
    evalE h e (sigma g hg a) = evalE h e' a := by
  obtain ⟨x, rfl, -⟩ := exists_poly h a
  rw [sigma_polyOf, evalE_polyOf, map_sum]
  apply sum_congr rfl
  intro j _
  rw [map_mul, map_intCast, map_pow]
  congr 1
  have hx : evalE h e (Nega.x (ZMod q) (2 ^ k)) = root h ^ (2 * e + 1) := by
    unfold evalE evalAt Nega.x
    exact AdjoinRoot.lift_root _
  rw [hx, ← pow_mul, ← Nat.mul_assoc, pow_mul, pow_mul (root h) (2 * e' + 1)]
  congr 1
  rw [← pow_mod_orderOf, root_order, he]
  conv_rhs => rw [← pow_mod_orderOf, root_order]

/-- A slot permutation that follows the exponents implements `sigma`. -/
theorem ringOf_perm (h : NttPrime k q) (g : Nat) (hg : g % 2 = 1) (f : Nat → Nat) (π : Nat → Nat)
    (hπ : ∀ p, p < 2 ^ k → π p < 2 ^ k ∧
      ((2 * bitReversal p k + 1) * g) % (2 * 2 ^ k) = (2 * bitReversal (π p) k + 1) % (2 * 2 ^ k)) :
    ringOf k q (fun p => f (π p)) = sigma g hg (ringOf k q f) := by
  rw [ringOf_eq_iff h]
  intro p hp
  obtain ⟨h1, h2⟩ := hπ p hp
  unfold slot
  rw [evalE_sigma h g hg _ _ h2]
  exact (slot_ringOf h f (π p) h1).symm

/-- The index the code computes. -/
theorem targetRoot_spec (k g br : Nat) (hk : k ≤ 31) (hg : g % 2 = 1) (hbr : br < 2 ^ k) :
    targetRoot (2 ^ k) g br < 2 ^ k ∧
    ((2 * br + 1) * g) % (2 * 2 ^ k) = (2 * targetRoot (2 ^ k) g br + 1) % (2 * 2 ^ k) := by
  have hp : 0 < 2 ^ k := by positivity
  refine ⟨Nat.mod_lt _ hp, ?_⟩
  have hle : 2 ^ k ≤ 2 ^ 31 := Nat.pow_le_pow_right (by norm_num) hk
  obtain ⟨c, hc⟩ : 2 ^ k ∣ 2 ^ 31 := pow_dvd_pow 2 hk
  unfold targetRoot
  simp only
  have e1 : (2 * br % 2 ^ 32 + 1) % 2 ^ 32 = 2 * br + 1 := by omega
  rw [e1]
  obtain ⟨m, hm⟩ : ∃ m, (2 * br + 1) * g = 2 * m + 1 := by
    have : ((2 * br + 1) * g) % 2 = 1 := by rw [Nat.mul_mod, hg]; omega
    exact ⟨((2 * br + 1) * g) / 2, by omega⟩
  rw [hm]
  have e2 : ((2 * m + 1) % 2 ^ 32 + 2 ^ 32 - 1) % 2 ^ 32 / 2 = m % 2 ^ 31 := by omega
  rw [e2, hc, Nat.mod_mul_right_mod]
  have e3 : 2 * m + 1 = 2 * (m % 2 ^ k) + 1 + 2 * 2 ^ k * (m / 2 ^ k) := by
    have := Nat.mod_add_div m (2 ^ k)
    nlinarith
  rw [e3, Nat.add_mul_mod_self_left]

/-- The permutation of `apply_automorphism_ntt` implements `sigma`. -/
theorem applyAutomorphism_ringOf (h : NttPrime k q) (hk : k ≤ 31) (g : Nat) (hg : g % 2 = 1) (hlt : g < 2 ^ 32) :
    ∃ π : Nat → Nat, (∀ p, π p < 2 ^ k) ∧
      (∀ f, applyAutomorphism (2 ^ k) (g : Int) f = .ok (fun p => f (π p))) ∧
      ∀ f, ringOf k q (fun p => f (π p)) = sigma g hg (ringOf k q f) := by
  refine ⟨fun p => bitReverse32 k (targetRoot (2 ^ k) g (bitReverse32 k p)), ?_, ?_, ?_⟩
  · intro p
    simp only [bitReverse32_eq _ _ (by omega : k ≤ 32)]
    exact rev_lt _ _
  · intro f
    unfold applyAutomorphism
    rw [if_neg (by omega)]
    simp only [Nat.log_pow (by norm_num : 1 < 2), Int.toNat_natCast]
  · intro f
    apply ringOf_perm h g hg f
    intro p hp
    simp only [bitReverse32_eq _ _ (by omega : k ≤ 32)]
    obtain ⟨h1, h2⟩ := targetRoot_spec k g (bitReversal p k) hk hg (rev_lt p k)
    exact ⟨rev_lt _ _, by rw [h2, rev_rev_of_lt h1]⟩

/-- The flip implements `X ↦ X^(2N-1) = X^-1`. -/
theorem flip_ringOf (h : NttPrime k q) (f : Nat → Nat) :
    ringOf k q (flip (2 ^ k) f) =
      sigma (2 * 2 ^ k - 1) (by have := Nat.one_le_two_pow (n := k); omega) (ringOf k q f) := by
  have hp := Nat.one_le_two_pow (n := k)
  unfold flip
  apply ringOf_perm h _ _ f (fun p => 2 ^ k - 1 - p)
  intro p hp'
  refine ⟨by omega, ?_⟩
  rw [rev_compl hp']
  have hb := rev_lt p k
  generalize bitReversal p k = b at *
  clear hp'
  generalize 2 ^ k = n at *
  have e : (2 * b + 1) * (2 * n - 1) = 2 * (n - 1 - b) + 1 + 2 * n * (2 * b) := by
    obtain ⟨d, rfl⟩ : ∃ d, n = b + 1 + d := ⟨n - b - 1, by omega⟩
    have e1 : 2 * (b + 1 + d) - 1 = 2 * b + 1 + 2 * d := by omega
    have e2 : b + 1 + d - 1 - b = d := by omega
    rw [e1, e2]; ring
  rw [e, Nat.add_mul_mod_self_left]

end Verif.Automorphism
