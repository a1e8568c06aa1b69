import Verif.Props.Lwe
import Mathlib.Analysis.SpecialFunctions.Trigonometric.Series
import Mathlib.Algebra.BigOperators.Ring.Finset

/-!
# Tail bounds, by counting, for sums of the low bits of 32-bit words
-/

namespace Verif.UniformTail
open Verif.Arith

/-- The centred exponential sum over `2^w` consecutive integers. -/
theorem expSum_le (w : Nat) (t : ℝ) :
    ∑ r ∈ Finset.range (2 ^ w), Real.exp (t * (r - ((2 : ℝ) ^ w - 1) / 2)) ≤
      2 ^ w * Real.exp (t ^ 2 * (4 ^ w - 1) / 24) := by
  induction w with
  | zero => simp
  | succ w ih =>
    have e : ∑ r ∈ Finset.range (2 ^ (w + 1)), Real.exp (t * (r - ((2 : ℝ) ^ (w + 1) - 1) / 2)) =
        (∑ r ∈ Finset.range (2 ^ w), Real.exp (t * (r - ((2 : ℝ) ^ w - 1) / 2))) *
          (2 * Real.cosh (t * 2 ^ w / 2)) := by
      rw [pow_succ 2 w, mul_two, Finset.sum_range_add, Real.cosh_eq, Finset.sum_mul, ← Finset.sum_add_distrib]
      refine Finset.sum_congr rfl (fun r _ => ?_)
      rw [mul_div_cancel₀ _ (two_ne_zero), mul_add, ← Real.exp_add, ← Real.exp_add, add_comm]
      congr 2
      · push_cast; ring
      · ring
    rw [e]
    have hc := Real.cosh_le_exp_half_sq (t * 2 ^ w / 2)
    have hc0 := Real.cosh_pos (t * 2 ^ w / 2)
    calc _ ≤ (2 ^ w * Real.exp (t ^ 2 * (4 ^ w - 1) / 24)) * (2 * Real.exp ((t * 2 ^ w / 2) ^ 2 / 2)) := by
          gcongr
      _ = 2 ^ (w + 1) * (Real.exp (t ^ 2 * (4 ^ w - 1) / 24) * Real.exp ((t * 2 ^ w / 2) ^ 2 / 2)) := by
          rw [pow_succ]; ring
      _ = _ := by
          rw [← Real.exp_add]
          congr 2
          have h4 : (4 : ℝ) ^ w = 2 ^ w * 2 ^ w := by rw [← mul_pow]; norm_num
          have h5 : (4 : ℝ) ^ (w + 1) = 4 * (2 ^ w * 2 ^ w) := by rw [pow_succ, h4]; ring
          rw [h5, h4]
          ring

/-- Residues of all numbers below a multiple of the modulus are evenly distributed. -/
theorem sum_range_mod (D q : Nat) (f : Nat → ℝ) :
    ∑ k ∈ Finset.range (q * D), f (k % D) = q * ∑ r ∈ Finset.range D, f r := by
  induction q with
  | zero => simp
  | succ q ih =>
    rw [Nat.succ_mul, Finset.sum_range_add, ih]
    have : ∑ x ∈ Finset.range D, f ((q * D + x) % D) = ∑ r ∈ Finset.range D, f r := by
      refine Finset.sum_congr rfl (fun r hr => ?_)
      rw [mul_comm, Nat.mul_add_mod, Nat.mod_eq_of_lt (Finset.mem_range.1 hr)]
    rw [this]; push_cast; ring

/-- The rounded away bits of a word, with offset: between `0` and `2^g - 1`. -/
def low (g : Nat) (x : W) : Nat := (x + BitVec.ofNat 32 (2 ^ (g - 1))).toNat % 2 ^ g

noncomputable instance bitVecFintype (n : Nat) : Fintype (BitVec n) :=
  Fintype.ofEquiv _ (BitVec.equivFin (m := n)).toEquiv.symm

theorem sum_bitVec (n : Nat) (f : Nat → ℝ) : ∑ x : BitVec n, f x.toNat = ∑ k ∈ Finset.range (2 ^ n), f k := by
  rw [← Fin.sum_univ_eq_sum_range]
  exact Fintype.sum_equiv (BitVec.equivFin (m := n)).toEquiv _ _ (fun x => rfl)

/-- Every value of the low bits is taken by equally many words. -/
theorem sum_low (g : Nat) (hg : g ≤ 32) (f : Nat → ℝ) :
    ∑ x : W, f (low g x) = 2 ^ (32 - g) * ∑ r ∈ Finset.range (2 ^ g), f r := by
  have h1 : ∑ x : W, f (low g x) = ∑ x : W, f (x.toNat % 2 ^ g) :=
    Fintype.sum_equiv (Equiv.addRight (BitVec.ofNat 32 (2 ^ (g - 1)))) _ _ (fun x => rfl)
  rw [h1]
  refine (sum_bitVec 32 (fun k => f (k % 2 ^ g))).trans ?_
  have e : 2 ^ 32 = 2 ^ (32 - g) * 2 ^ g := (Nat.pow_sub_mul_pow 2 hg).symm
  rw [e, sum_range_mod]
  push_cast; rfl

/-- The rounding error is the offset minus the low bits. -/
theorem roundErr_low (g : Nat) (h1 : 1 ≤ g) (hg : g ≤ 31) (x : W) :
    Props.roundErr g x = 2 ^ (g - 1) - (low g x : Int) := by
  have hpow : (2 : Nat) ^ g ≤ 2 ^ 31 := Nat.pow_le_pow_right (by norm_num) hg
  have hd : (BitVec.ofNat 32 (2 ^ g)).toNat = 2 ^ g := by
    rw [BitVec.toNat_ofNat]; apply Nat.mod_eq_of_lt; norm_num at hpow ⊢; omega
  have hhalf : (2 : Nat) ^ g = 2 * 2 ^ (g - 1) := by rw [← pow_succ']; congr 1; omega
  have hd' : (BitVec.ofNat 32 (2 ^ (g - 1))).toNat = 2 ^ (g - 1) := by
    rw [BitVec.toNat_ofNat]; apply Nat.mod_eq_of_lt; norm_num at hpow ⊢; omega
  have hpos : 0 < (2 : Nat) ^ (g - 1) := by positivity
  have hlow : low g x = (x.toNat + 2 ^ (g - 1)) % 2 ^ g := by
    unfold low
    rw [BitVec.toNat_add, hd', Nat.mod_mod_of_dvd _ (pow_dvd_pow 2 (by omega : g ≤ 32))]
  unfold Props.roundErr
  rw [Props.C11_integer_div _ _ (by omega) (by omega), hd, hlow]
  have hI : (2 : Int) ^ (g - 1) = ((2 ^ (g - 1) : Nat) : Int) := by push_cast; rfl
  have hI' : (2 : Int) ^ g = ((2 ^ g : Nat) : Int) := by push_cast; rfl
  rw [hI, hI', show (2 : Nat) ^ g / 2 = 2 ^ (g - 1) by omega]
  have := Nat.div_add_mod (x.toNat + 2 ^ (g - 1)) (2 ^ g)
  have h3 : ((2 ^ g : Nat) : Int) * ((x.toNat + 2 ^ (g - 1)) / 2 ^ g : Nat) + ((x.toNat + 2 ^ (g - 1)) % 2 ^ g : Nat) =
      x.toNat + (2 ^ (g - 1) : Nat) := by exact_mod_cast this
  linarith

/-- Sum of the centred low bits over the entries selected by the key. -/
noncomputable def centred {n : Nat} (g : Nat) (s : Fin n → Bool) (a : Fin n → W) : ℝ :=
  ∑ i, if s i then ((low g (a i) : ℝ) - (2 ^ g - 1) / 2) else 0

theorem expSum_word (g : Nat) (hg : g ≤ 32) (t : ℝ) :
    ∑ x : W, Real.exp (t * ((low g x : ℝ) - (2 ^ g - 1) / 2)) ≤ 2 ^ 32 * Real.exp (t ^ 2 * (4 ^ g - 1) / 24) := by
  rw [sum_low g hg (fun r => Real.exp (t * ((r : ℝ) - (2 ^ g - 1) / 2)))]
  calc _ ≤ 2 ^ (32 - g) * (2 ^ g * Real.exp (t ^ 2 * (4 ^ g - 1) / 24)) := by
        gcongr; exact expSum_le g t
    _ = _ := by
        rw [← mul_assoc, ← pow_add]; congr 2; omega

theorem expSum_vec {n : Nat} (g : Nat) (hg : g ≤ 32) (s : Fin n → Bool) (t : ℝ) :
    ∑ a : Fin n → W, Real.exp (t * centred g s a) ≤
      (2 ^ 32) ^ n * Real.exp (Props.keyWeight s * (t ^ 2 * (4 ^ g - 1) / 24)) := by
  have h1 : ∀ a : Fin n → W, Real.exp (t * centred g s a) =
      ∏ i, Real.exp (if s i then t * ((low g (a i) : ℝ) - (2 ^ g - 1) / 2) else 0) := by
    intro a
    rw [← Real.exp_sum]
    unfold centred
    rw [Finset.mul_sum]
    congr 1
    refine Finset.sum_congr rfl (fun i _ => ?_)
    split <;> simp
  simp_rw [h1]
  rw [← Fintype.piFinset_univ, ← Finset.prod_univ_sum (fun _ => Finset.univ)
    (fun i x => Real.exp (if s i then t * ((low g x : ℝ) - (2 ^ g - 1) / 2) else 0))]
  have h2 : ∀ i, ∑ x : W, Real.exp (if s i then t * ((low g x : ℝ) - (2 ^ g - 1) / 2) else 0) ≤
      2 ^ 32 * Real.exp (if s i then t ^ 2 * (4 ^ g - 1) / 24 else 0) := by
    intro i
    cases s i
    · have hc : Fintype.card W = 2 ^ 32 := by rw [Fintype.card_congr (BitVec.equivFin (m := 32)).toEquiv, Fintype.card_fin]
      simp only [Bool.false_eq_true, if_false, Real.exp_zero, Finset.sum_const, Finset.card_univ, nsmul_eq_mul, mul_one]
      rw [hc]; norm_num
    · simpa using expSum_word g hg t
  refine (Finset.prod_le_prod (fun i _ => Finset.sum_nonneg (fun x _ => (Real.exp_pos _).le)) (fun i _ => h2 i)).trans ?_
  rw [Finset.prod_mul_distrib, ← Real.exp_sum]
  simp only [Finset.prod_const, Finset.card_univ, Fintype.card_fin]
  refine le_of_eq ?_
  congr 2
  unfold Props.keyWeight
  push_cast
  rw [Finset.sum_mul]
  refine Finset.sum_congr rfl (fun i _ => ?_)
  split <;> simp

/-- Few masks have a large sum of centred low bits. -/
theorem tail {n : Nat} (g : Nat) (hg : g ≤ 32) (s : Fin n → Bool) (H : Nat) (hH : Props.keyWeight s ≤ H)
    (hH0 : 0 < H) (T : ℝ) (hT : 0 ≤ T)
    (S : Finset (Fin n → W)) (hS : ∀ a ∈ S, T * 2 ^ g ≤ |centred g s a|) :
    (S.card : ℝ) ≤ 2 * Real.exp (-(6 * T ^ 2 / H)) * (2 ^ 32) ^ n := by
  have hk : (0 : ℝ) < H := by exact_mod_cast hH0
  set V : ℝ := H * 4 ^ g with hV
  have hVp : 0 < V := by positivity
  set t : ℝ := 12 * (T * 2 ^ g) / V with ht
  have ht0 : 0 ≤ t := by positivity
  have hb : ∑ a : Fin n → W, (Real.exp (t * centred g s a) + Real.exp (-t * centred g s a)) ≤
      2 * ((2 ^ 32) ^ n * Real.exp (t ^ 2 * V / 24)) := by
    rw [Finset.sum_add_distrib]
    have e1 := expSum_vec g hg s t
    have e2 := expSum_vec g hg s (-t)
    rw [neg_sq] at e2
    have e3 : Real.exp (Props.keyWeight s * (t ^ 2 * (4 ^ g - 1) / 24)) ≤ Real.exp (t ^ 2 * V / 24) := by
      apply Real.exp_le_exp.2
      have hw : (Props.keyWeight s : ℝ) ≤ H := by exact_mod_cast hH
      have h1 : (1 : ℝ) ≤ 4 ^ g := one_le_pow₀ (by norm_num)
      have h2 : 0 ≤ t ^ 2 * (4 ^ g - 1) / 24 := by
        have := mul_nonneg (sq_nonneg t) (sub_nonneg.2 h1)
        positivity
      calc (Props.keyWeight s : ℝ) * (t ^ 2 * (4 ^ g - 1) / 24) ≤ H * (t ^ 2 * (4 ^ g - 1) / 24) := by gcongr
        _ ≤ H * (t ^ 2 * (4 ^ g) / 24) := by gcongr; linarith
        _ = t ^ 2 * V / 24 := by rw [hV]; ring
    have e4 : (0 : ℝ) ≤ (2 ^ 32) ^ n := by positivity
    have e5 := mul_le_mul_of_nonneg_left e3 e4
    linarith
  have hlow : S.card * Real.exp (t * (T * 2 ^ g)) ≤
      ∑ a : Fin n → W, (Real.exp (t * centred g s a) + Real.exp (-t * centred g s a)) := by
    calc S.card * Real.exp (t * (T * 2 ^ g)) = ∑ _a ∈ S, Real.exp (t * (T * 2 ^ g)) := by rw [Finset.sum_const, nsmul_eq_mul]
      _ ≤ ∑ a ∈ S, (Real.exp (t * centred g s a) + Real.exp (-t * centred g s a)) := by
          refine Finset.sum_le_sum (fun a ha => ?_)
          have := hS a ha
          rcases abs_cases (centred g s a) with ⟨e, -⟩ | ⟨e, -⟩
          · rw [e] at this
            have h := Real.exp_le_exp.2 (mul_le_mul_of_nonneg_left this ht0)
            have := Real.exp_pos (-t * centred g s a)
            linarith
          · rw [e] at this
            have h := Real.exp_le_exp.2 (mul_le_mul_of_nonneg_left this ht0)
            rw [mul_neg, ← neg_mul] at h
            have := Real.exp_pos (t * centred g s a)
            linarith
      _ ≤ _ := Finset.sum_le_sum_of_subset_of_nonneg (Finset.subset_univ _) (fun _ _ _ => by positivity)
  have hall := hlow.trans hb
  have hp := Real.exp_pos (t * (T * 2 ^ g))
  have e3 : Real.exp (-(6 * T ^ 2 / H)) = Real.exp (t ^ 2 * V / 24) / Real.exp (t * (T * 2 ^ g)) := by
    rw [← Real.exp_sub]
    congr 1
    have h4 : (4 : ℝ) ^ g = 2 ^ g * 2 ^ g := by rw [← mul_pow]; norm_num
    rw [ht, hV, h4]
    field_simp
    ring
  rw [e3, show 2 * (Real.exp (t ^ 2 * V / 24) / Real.exp (t * (T * 2 ^ g))) * (2 ^ 32) ^ n =
    (2 * ((2 ^ 32) ^ n * Real.exp (t ^ 2 * V / 24))) / Real.exp (t * (T * 2 ^ g)) by ring, le_div_iff₀ hp]
  exact hall

/-- Sum over all binary keys of an exponential of the weight. -/
theorem expSum_keys (n : Nat) (x : ℝ) :
    ∑ s : Fin n → Bool, Real.exp (Props.keyWeight s * x) ≤ 2 ^ n * Real.exp (n * (x / 2 + x ^ 2 / 8)) := by
  have h1 : ∀ s : Fin n → Bool, Real.exp (Props.keyWeight s * x) = ∏ i, Real.exp (if s i then x else 0) := by
    intro s
    rw [← Real.exp_sum]
    congr 1
    unfold Props.keyWeight
    push_cast
    rw [Finset.sum_mul]
    refine Finset.sum_congr rfl (fun i _ => ?_)
    split <;> simp
  simp_rw [h1]
  rw [← Fintype.piFinset_univ, ← Finset.prod_univ_sum (fun _ => Finset.univ)
    (fun (_ : Fin n) (b : Bool) => Real.exp (if b then x else 0))]
  have h2 : ∑ b : Bool, Real.exp (if b then x else 0) ≤ 2 * Real.exp (x / 2 + x ^ 2 / 8) := by
    have hc := Real.cosh_le_exp_half_sq (x / 2)
    have e : ∑ b : Bool, Real.exp (if b then x else 0) = 2 * (Real.exp (x / 2) * Real.cosh (x / 2)) := by
      rw [Fintype.sum_bool, Real.cosh_eq]
      simp only [if_true, Bool.false_eq_true, if_false, Real.exp_zero]
      have a1 : Real.exp (x / 2) * Real.exp (x / 2) = Real.exp x := by rw [← Real.exp_add]; congr 1; ring
      have a2 : Real.exp (x / 2) * Real.exp (-(x / 2)) = 1 := by rw [← Real.exp_add]; simp
      linarith
    rw [e, Real.exp_add]
    have : (x / 2) ^ 2 / 2 = x ^ 2 / 8 := by ring
    rw [this] at hc
    have := mul_le_mul_of_nonneg_left hc (Real.exp_pos (x / 2)).le
    linarith
  rw [Finset.prod_const, Finset.card_univ, Fintype.card_fin]
  calc _ ≤ (2 * Real.exp (x / 2 + x ^ 2 / 8)) ^ n :=
        pow_le_pow_left₀ (Finset.sum_nonneg (fun _ _ => (Real.exp_pos _).le)) h2 n
    _ = _ := by rw [mul_pow, ← Real.exp_nat_mul]

/-- Few pairs of a key and a mask have a large sum of centred low bits. -/
theorem tail_keys {n : Nat} (hn : 0 < n) (g : Nat) (hg : g ≤ 32) (T : ℝ) (hT : 0 ≤ T)
    (S : Finset ((Fin n → Bool) × (Fin n → W))) (hS : ∀ p ∈ S, T * 2 ^ g ≤ |centred g p.1 p.2|) :
    (S.card : ℝ) ≤ 2 * Real.exp (-(12 * T ^ 2 / n) + 72 * T ^ 4 / n ^ 3) * (2 ^ n * (2 ^ 32) ^ n) := by
  have hk : (0 : ℝ) < n := by exact_mod_cast hn
  have hg0 : (0 : ℝ) < 2 ^ g := by positivity
  set τ : ℝ := 24 * T / n with hτ
  have hτ0 : 0 ≤ τ := by positivity
  set t : ℝ := τ / 2 ^ g with ht
  have ht0 : 0 ≤ t := by positivity
  set x : ℝ := τ ^ 2 / 24 with hx
  have hx1 : t ^ 2 * (4 ^ g - 1) / 24 ≤ x := by
    have h4 : (4 : ℝ) ^ g = 2 ^ g * 2 ^ g := by rw [← mul_pow]; norm_num
    have : t ^ 2 * 4 ^ g = τ ^ 2 := by rw [ht, h4]; field_simp
    have := sq_nonneg t
    rw [hx]; linarith
  have hvec : ∀ u : ℝ, u ^ 2 = t ^ 2 → ∑ p : (Fin n → Bool) × (Fin n → W), Real.exp (u * centred g p.1 p.2) ≤
      (2 ^ 32) ^ n * (2 ^ n * Real.exp (n * (x / 2 + x ^ 2 / 8))) := by
    intro u hu
    rw [Fintype.sum_prod_type]
    calc _ ≤ ∑ s : Fin n → Bool, (2 ^ 32) ^ n * Real.exp (Props.keyWeight s * x) := by
          refine Finset.sum_le_sum (fun s _ => (expSum_vec g hg s u).trans ?_)
          rw [hu]
          gcongr
      _ = (2 ^ 32) ^ n * ∑ s : Fin n → Bool, Real.exp (Props.keyWeight s * x) := by rw [Finset.mul_sum]
      _ ≤ _ := by gcongr; exact expSum_keys n x
  have hlow : S.card * Real.exp (τ * T) ≤
      ∑ p : (Fin n → Bool) × (Fin n → W), (Real.exp (t * centred g p.1 p.2) + Real.exp (-t * centred g p.1 p.2)) := by
    have hτT : τ * T = t * (T * 2 ^ g) := by rw [ht]; field_simp
    rw [hτT]
    calc S.card * Real.exp (t * (T * 2 ^ g)) = ∑ _p ∈ S, Real.exp (t * (T * 2 ^ g)) := by
          rw [Finset.sum_const, nsmul_eq_mul]
      _ ≤ ∑ p ∈ S, (Real.exp (t * centred g p.1 p.2) + Real.exp (-t * centred g p.1 p.2)) := by
          refine Finset.sum_le_sum (fun p hp => ?_)
          have := hS p hp
          rcases abs_cases (centred g p.1 p.2) with ⟨e, -⟩ | ⟨e, -⟩
          · rw [e] at this
            have h := Real.exp_le_exp.2 (mul_le_mul_of_nonneg_left this ht0)
            have := Real.exp_pos (-t * centred g p.1 p.2)
            linarith
          · rw [e] at this
            have h := Real.exp_le_exp.2 (mul_le_mul_of_nonneg_left this ht0)
            rw [mul_neg, ← neg_mul] at h
            have := Real.exp_pos (t * centred g p.1 p.2)
            linarith
      _ ≤ _ := Finset.sum_le_sum_of_subset_of_nonneg (Finset.subset_univ _) (fun _ _ _ => by positivity)
  have hall : S.card * Real.exp (τ * T) ≤ 2 * ((2 ^ 32) ^ n * (2 ^ n * Real.exp (n * (x / 2 + x ^ 2 / 8)))) := by
    refine hlow.trans ?_
    rw [Finset.sum_add_distrib]
    have e1 := hvec t rfl
    have e2 := hvec (-t) (neg_sq t)
    linarith
  have hp := Real.exp_pos (τ * T)
  have e3 : Real.exp (-(12 * T ^ 2 / n) + 72 * T ^ 4 / n ^ 3) =
      Real.exp (n * (x / 2 + x ^ 2 / 8)) / Real.exp (τ * T) := by
    rw [← Real.exp_sub]
    congr 1
    rw [hx, hτ]
    field_simp
    ring
  rw [e3, show 2 * (Real.exp (n * (x / 2 + x ^ 2 / 8)) / Real.exp (τ * T)) * (2 ^ n * (2 ^ 32) ^ n) =
    (2 * ((2 ^ 32) ^ n * (2 ^ n * Real.exp (n * (x / 2 + x ^ 2 / 8))))) / Real.exp (τ * T) by ring, le_div_iff₀ hp]
  exact hall

end Verif.UniformTail
