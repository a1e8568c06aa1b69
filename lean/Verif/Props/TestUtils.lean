import Verif.Model.TestUtils
import Verif.Props.Bootstrap
import Mathlib.Data.Real.Sqrt

/-!
# Property C75: the modulus-switch check
-/

namespace Verif.Props
open Verif.Rlwe Verif.Arith Verif.Encoding Verif.TestUtils Verif.Lwe

theorem emod_ofInt_toNat (w : W) (t : Nat) (ht : t ≤ 32) (x : Int) (h : w = BitVec.ofInt 32 x) :
    ∃ K : Int, modLog w t = BitVec.ofInt 32 (x + K * 2 ^ t) := by
  refine ⟨-(x / 2 ^ t), ?_⟩
  apply BitVec.eq_of_toNat_eq
  rw [modLog_toNat _ _ ht, h, BitVec.toNat_ofInt, BitVec.toNat_ofInt]
  have hp : (0 : Int) < 2 ^ t := by positivity
  have hle : (2 : Int) ^ t ≤ 2 ^ 32 := by exact_mod_cast Nat.pow_le_pow_right (by norm_num : 0 < 2) ht
  have hdvd : (2 : Int) ^ t ∣ 2 ^ 32 := pow_dvd_pow 2 ht
  have e1 : x + -(x / 2 ^ t) * 2 ^ t = x % 2 ^ t := by rw [Int.emod_def]; ring
  rw [e1]
  have h0 := Int.emod_nonneg x hp.ne'
  have h1 := Int.emod_lt_of_pos x hp
  have e2 : x % 2 ^ t % ((2 ^ 32 : Nat) : Int) = x % 2 ^ t := Int.emod_eq_of_lt h0 (by push_cast; omega)
  rw [e2]
  have e3 : x % ((2 ^ 32 : Nat) : Int) % 2 ^ t = x % 2 ^ t := Int.emod_emod_of_dvd x (by exact_mod_cast hdvd)
  have h2 := Int.emod_nonneg x (show ((2 ^ 32 : Nat) : Int) ≠ 0 by norm_num)
  obtain ⟨a, ha⟩ := Int.eq_ofNat_of_zero_le h2
  obtain ⟨b, hb⟩ := Int.eq_ofNat_of_zero_le h0
  rw [ha, hb, Int.toNat_natCast, Int.toNat_natCast]
  rw [ha, hb] at e3
  exact_mod_cast e3

/-- The message survives the modulus switch when noise and rounding error together stay below half a
message step. -/
theorem modSwitch_survives {n : Nat} (logN m : Nat) (hm : 1 ≤ m) (hmN : m < logN) (hN : logN ≤ 30)
    (s : Fin n → Bool) (ct : Fin (n + 1) → W) (v : Nat) (hv : v < 2 ^ m) (noise : Int)
    (hct : lwePhase ct (fun i => BitVec.ofInt 32 (bit (s i))) = BitVec.ofInt 32 (v * 2 ^ (31 - m) + noise))
    (h1 : 2 * |noise + phaseErr (31 - logN) ct s| < 2 ^ (31 - m)) :
    cleartextPostModSwitch (switchModulus ct 32 (logN + 1)) (fun i => BitVec.ofInt 32 (bit (s i))) logN m 1 =
      .ok (BitVec.ofNat 32 v) := by
  have hp : mkParams ((logN + 1 : Nat) : Int) (m : Nat) (1 : Nat) =
      .ok ⟨logN + 1, m, 1, logN - m, 0, 2 ^ m - 1⟩ := by
    unfold mkParams
    rw [if_neg (by omega), if_neg (by omega), if_neg (by omega)]
    simp only
    rw [if_neg (by omega)]
    congr 2
    · omega
    · simp [Nat.one_shiftLeft]
  have hvalid : ValidParams ⟨logN + 1, m, 1, logN - m, 0, 2 ^ m - 1⟩ :=
    ⟨⟨_, _, _, hp⟩, by show logN + 1 ≤ 32; omega, by show 1 ≤ logN - m; omega⟩
  have hδ := switchModulus_phaseErr ct s 32 (logN + 1) (by omega) (by omega)
  have hgap : 32 - (logN + 1) = 31 - logN := by omega
  rw [hgap] at hδ
  set δ := phaseErr (31 - logN) ct s with hδdef
  -- the phase before the switch
  obtain ⟨j, hj⟩ : ∃ j : Int, intPhase ct s = v * 2 ^ (31 - m) + noise + j * 2 ^ 32 := by
    have h := lwePhase_intPhase ct s
    rw [hct] at h
    have h2 := congrArg BitVec.toNat h
    rw [BitVec.toNat_ofInt, BitVec.toNat_ofInt] at h2
    have h3 : (v * 2 ^ (31 - m) + noise) % ((2 ^ 32 : Nat) : Int) = intPhase ct s % ((2 ^ 32 : Nat) : Int) := by
      have a1 := Int.emod_nonneg (v * 2 ^ (31 - m) + noise) (show ((2 ^ 32 : Nat) : Int) ≠ 0 by norm_num)
      have a2 := Int.emod_nonneg (intPhase ct s) (show ((2 ^ 32 : Nat) : Int) ≠ 0 by norm_num)
      rw [← Int.toNat_of_nonneg a1, ← Int.toNat_of_nonneg a2, h2]
    obtain ⟨j, hj⟩ := Int.ModEq.dvd h3
    exact ⟨j, by push_cast at hj; linarith⟩
  -- the phase after the switch
  set D : Int := 2 ^ (31 - logN) with hD
  have hDpos : 0 < D := by positivity
  have hDe : (2 : Int) ^ (31 - m) = D * 2 ^ (logN - m) := by rw [hD, ← pow_add]; congr 1; omega
  have hD32 : (2 : Int) ^ 32 = D * 2 ^ (logN + 1) := by rw [hD, ← pow_add]; congr 1; omega
  obtain ⟨j2, hj2⟩ := Int.ModEq.dvd hδ
  set q := intPhase (switchModulus ct 32 (logN + 1)) s with hq
  -- the rounding error is a multiple of the unit
  obtain ⟨r, hr⟩ : ∃ r, noise + δ = D * r :=
    ⟨q - v * 2 ^ (logN - m) + (j2 - j) * 2 ^ (logN + 1), by
      rw [hj, hDe, hD32] at hj2
      linear_combination hj2⟩
  have hqr : q = v * 2 ^ (logN - m) + r + (j - j2) * 2 ^ (logN + 1) := by
    rw [hj, hDe, hD32] at hj2
    have : D * q = D * (v * 2 ^ (logN - m) + r + (j - j2) * 2 ^ (logN + 1)) := by
      linear_combination (-1 : Int) * hj2 + hr
    exact mul_left_cancel₀ hDpos.ne' this
  have hrb : -2 ^ (logN - m - 1) ≤ r ∧ r < 2 ^ (logN - m - 1) := by
    rw [hr, abs_mul, abs_of_pos hDpos, hDe] at h1
    have h2 : (2 : Int) ^ (logN - m) = 2 * 2 ^ (logN - m - 1) := by rw [← pow_succ']; congr 1; omega
    rw [h2] at h1
    have h3 : |r| < 2 ^ (logN - m - 1) := by
      by_contra hc
      have := mul_le_mul_of_nonneg_left (not_lt.1 hc) hDpos.le
      linarith
    have := abs_lt.1 h3
    exact ⟨this.1.le, this.2⟩
  unfold cleartextPostModSwitch
  simp only [hp, bind, Except.bind, pure, Except.pure]
  congr 1
  have hdec : decryptWithoutDenoising (switchModulus ct 32 (logN + 1))
      ⟨logN + 1, fun i => BitVec.ofInt 32 (bit (s i))⟩ =
      modLog (lwePhase (switchModulus ct 32 (logN + 1)) (fun i => BitVec.ofInt 32 (bit (s i)))) (logN + 1) := rfl
  obtain ⟨K, hK⟩ := emod_ofInt_toNat _ (logN + 1) (by omega) _
    (lwePhase_intPhase (switchModulus ct 32 (logN + 1)) s)
  rw [hdec, hK, ← hq, hqr]
  have hpow : (2 : Int) ^ (logN + 1) = 2 ^ (m + 1) * 2 ^ (logN - m) := by rw [← pow_add]; congr 1; omega
  have hval : (v : Int) * 2 ^ (logN - m) + r + (j - j2) * 2 ^ (logN + 1) + K * 2 ^ (logN + 1) =
      (v + (j - j2 + K) * 2 ^ (m + 1)) * 2 ^ (logN - m) + r := by rw [hpow]; ring
  rw [hval]
  have h := (C05_decode_any ⟨logN + 1, m, 1, logN - m, 0, 2 ^ m - 1⟩ hvalid
    (v + (j - j2 + K) * 2 ^ (m + 1)) r hrb.1 hrb.2).1
  simp only at h
  apply BitVec.eq_of_toNat_eq
  zify
  rw [h, BitVec.toNat_ofNat]
  have e : (v + (j - j2 + K) * 2 ^ (m + 1) : Int) % 2 ^ m = v := by
    rw [pow_succ, show (v : Int) + (j - j2 + K) * (2 ^ m * 2) = v + 2 ^ m * ((j - j2 + K) * 2) by ring,
      Int.add_mul_emod_self_left]
    exact Int.emod_eq_of_lt (by positivity) (by exact_mod_cast hv)
  rw [e, Nat.mod_eq_of_lt (lt_trans hv (Nat.pow_lt_pow_right (by norm_num) (by omega)))]

/-- C75, what holds: the message survives the modulus switch when the worst case of the rounding,
half a unit per entry, fits: `2 |noise| + 2^(31 - log N) (n + 1) < 2^(31 - messageBits)`. -/
theorem C75_modulus_switch_partial {n : Nat} (logN m : Nat) (hm : 1 ≤ m) (hmN : m < logN) (hN : logN ≤ 30)
    (s : Fin n → Bool) (ct : Fin (n + 1) → W) (v : Nat) (hv : v < 2 ^ m) (noise : Int)
    (hct : lwePhase ct (fun i => BitVec.ofInt 32 (bit (s i))) = BitVec.ofInt 32 (v * 2 ^ (31 - m) + noise))
    (hroom : 2 * |noise| + 2 ^ (31 - logN) * ((n : Int) + 1) < 2 ^ (31 - m)) :
    cleartextPostModSwitch (switchModulus ct 32 (logN + 1)) (fun i => BitVec.ofInt 32 (bit (s i))) logN m 1 =
      .ok (BitVec.ofNat 32 v) := by
  apply modSwitch_survives logN m hm hmN hN s ct v hv noise hct
  have hb := two_phaseErr_le ct s (31 - logN) (by omega)
  have h0 : (0 : Int) < 2 ^ (31 - logN) := by positivity
  have h1 : (keyWeight s : Int) ≤ n := by exact_mod_cast keyWeight_le s
  have h2 := mul_le_mul_of_nonneg_left (add_le_add_left h1 1) h0.le
  have := abs_add_le noise (phaseErr (31 - logN) ct s)
  linarith

/-- C75: the check accepts exactly the parameters with `sqrt(1 + n) <= N / 2 / 2^messageBits`, and rejects the others
with an `AssertionError`. -/
theorem C75_guard (modDegree messageBits lweDimension : Nat) :
    (assertSafeModulusSwitch modDegree messageBits lweDimension = .ok () ↔
      Real.sqrt (1 + lweDimension) ≤ 0.5 * modDegree / 2 ^ messageBits) ∧
    (assertSafeModulusSwitch modDegree messageBits lweDimension = .ok () ∨
      assertSafeModulusSwitch modDegree messageBits lweDimension = .error "AssertionError") := by
  have h0 : (0 : ℝ) < 2 * 2 ^ messageBits := by positivity
  have key : (1 + lweDimension) * (2 * 2 ^ messageBits) ^ 2 ≤ modDegree ^ 2 ↔
      Real.sqrt (1 + lweDimension) ≤ 0.5 * modDegree / 2 ^ messageBits := by
    rw [show (0.5 * modDegree / 2 ^ messageBits : ℝ) = modDegree / (2 * 2 ^ messageBits) by
      rw [mul_comm, div_mul_eq_div_div]; ring_nf]
    rw [Real.sqrt_le_left (by positivity), div_pow, le_div_iff₀ (by positivity)]
    constructor
    · intro h; exact_mod_cast h
    · intro h; exact_mod_cast h
  unfold assertSafeModulusSwitch
  rw [← key]
  split <;> simp_all

/-- C75 fails: the production parameters (degree 512, 3 message bits, LWE dimension 800) pass
`assert_safe_modulus_switch`, but there is an encryption of 0 without any noise whose message after the
modulus switch is 6. -/
theorem C75_guard_false :
    assertSafeModulusSwitch 512 3 800 = .ok () ∧
    ∃ (s : Fin 800 → Bool) (ct : Fin 801 → W),
      lwePhase ct (fun i => BitVec.ofInt 32 (bit (s i))) = BitVec.ofInt 32 (0 * 2 ^ 28 + 0) ∧
      cleartextPostModSwitch (switchModulus ct 32 10) (fun i => BitVec.ofInt 32 (bit (s i))) 9 3 1 = .ok 6#32 := by
  refine ⟨by decide, fun _ => true,
    Fin.snoc (α := fun _ => W) (fun _ : Fin 800 => 2097151#32) (800#32 * 2097151#32), ?_, ?_⟩
  · unfold lwePhase
    simp only [Fin.snoc_last, Fin.snoc_castSucc]
    simp only [show BitVec.ofInt 32 (bit true) = (1 : W) from rfl, mul_one, Finset.sum_const, Finset.card_univ,
      Fintype.card_fin, nsmul_eq_mul]
    decide
  · unfold cleartextPostModSwitch decryptWithoutDenoising dot switchModulus
    simp only [Fin.snoc_last, Fin.snoc_castSucc]
    simp only [show BitVec.ofInt 32 (bit true) = (1 : W) from rfl, mul_one, Finset.sum_const, Finset.card_univ,
      Fintype.card_fin, nsmul_eq_mul]
    decide

/-- The boundary of the check for degree 512 and 3 message bits. -/
example : assertSafeModulusSwitch 512 3 1023 = .ok () ∧ assertSafeModulusSwitch 512 3 1024 = .error "AssertionError" := by
  decide

/-- The hypotheses of the positive theorem are met by the test parameters (dimension 4, degree 512). -/
example : cleartextPostModSwitch (switchModulus (n := 4) ![1234567891, 5, 4000000000, 77, 2818649864] 32 10)
    (fun i => BitVec.ofInt 32 (bit ((![true, false, true, true] : Fin 4 → Bool) i))) 9 3 1 = .ok (BitVec.ofNat 32 7) := by
  refine C75_modulus_switch_partial 9 3 (by norm_num) (by norm_num) (by norm_num) _ _ 7 (by norm_num) 1000 ?_
    (by decide)
  decide

end Verif.Props
