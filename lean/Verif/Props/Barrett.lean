import Verif.Lemmas.Barrett
import Verif.Lemmas.PrimeCheck

/-!
# Properties C28 and C29: Barrett reduction and the addition kernels
-/

namespace Verif.Props
open Verif.Barrett

/-- The double-precision reciprocal of `q` does not round up to an integer: with `L = ceil(log2 q)`, the
quotient `2^(2L)/q` is not within `2^(L-53)` below an integer. Decidable for a given modulus. -/
def ReciprocalExact (q : Nat) : Prop :=
  q < 2 ^ (53 - Nat.clog 2 q) * (q - 2 ^ (2 * Nat.clog 2 q) % q)

instance (q : Nat) : Decidable (ReciprocalExact q) := by unfold ReciprocalExact; infer_instance

/-- A modulus for which the Barrett reduction is right on its whole range. -/
structure GoodModulus (q : Nat) : Prop where
  pos : 2 ≤ q
  lt : q < 2 ^ 31
  exact : ReciprocalExact q

theorem lt_two_pow_of_lt_sq {m z : Nat} (hz : z < m * m) : z < 2 ^ (2 * Nat.clog 2 m) := by
  have hmL : m ≤ 2 ^ Nat.clog 2 m := Nat.le_pow_clog (by norm_num) m
  have : 2 ^ (2 * Nat.clog 2 m) = 2 ^ Nat.clog 2 m * 2 ^ Nat.clog 2 m := by ring
  rw [this]
  exact lt_of_lt_of_le hz (Nat.mul_le_mul hmL hmL)

/-- C28 (partial): for a modulus whose double-precision reciprocal is exact, the reduction is `z mod m` for all
`z < 2^(2L)`, in particular for all `z < m^2`. Missing: the moduli whose reciprocal is rounded up, for which
the claim is false (`C28_violated`). -/
theorem C28_reduction_partial (m z : Nat) (hm : GoodModulus m) (hz : z < 2 ^ (2 * Nat.clog 2 m)) :
    modularReduction z (precompute m) = z % m :=
  modularReduction_exact m z (by have := hm.pos; omega) hm.lt.le hz
    (precompute_exact m (by have := hm.pos; omega) hm.lt.le hm.exact)

/-- C28 (partial): every modulus up to `2^26` is covered. -/
theorem C28_small_moduli_partial (m z : Nat) (hm : 0 < m) (hm26 : m ≤ 2 ^ 26) (hz : z < m * m) :
    modularReduction z (precompute m) = z % m := by
  have hL : Nat.clog 2 m ≤ 26 := by rw [Nat.clog_le_iff_le_pow (by norm_num)]; exact hm26
  have hml := Nat.mod_lt (2 ^ (2 * Nat.clog 2 m)) hm
  apply modularReduction_exact m z hm (by omega) (lt_two_pow_of_lt_sq hz)
  apply precompute_exact m hm (by omega)
  calc m ≤ 2 ^ 26 * 1 := by omega
    _ < 2 ^ 27 * 1 := by norm_num
    _ ≤ 2 ^ (53 - Nat.clog 2 m) * (m - 2 ^ (2 * Nat.clog 2 m) % m) :=
        Nat.mul_le_mul (Nat.pow_le_pow_right (by norm_num) (by omega)) (by omega)

example := C28_small_moduli_partial 65537 (65536 * 65535) (by norm_num) (by norm_num) (by norm_num)

/-- C28 (partial): for every modulus below `2^31`, all `z < m^2` that are also below `2^53`. -/
theorem C28_below_2_53_partial (m z : Nat) (hm : 0 < m) (hm31 : m < 2 ^ 31) (hz : z < m * m)
    (hz53 : z < 2 ^ 53) : modularReduction z (precompute m) = z % m :=
  modularReduction_lt53 m z hm hm31.le (lt_two_pow_of_lt_sq hz) hz53

example := C28_below_2_53_partial 2147483629 (2147483628 * 4000) (by norm_num) (by norm_num) (by norm_num) (by norm_num)

/-- C28 is violated: 536903681 is a 30-bit prime, `1` modulo `2^15`, and for two reduced residues the Barrett
reduction of their product is not even reduced: the double `2^60 / m` rounds up to an integer. -/
theorem C28_violated :
    Nat.Prime 536903681 ∧ 2 ^ 15 ∣ 536903681 - 1 ∧
    ∃ a b, a < 536903681 ∧ b < 536903681 ∧
      modularReduction (a * b) (precompute 536903681) = 3758063614 ∧
      a * b % 536903681 = 536903680 := by
  refine ⟨PrimeCheck.prime_of_noDiv _ 15 (by norm_num) (by decide +kernel) (by norm_num), by norm_num, 536887296, 536870913, by norm_num, by norm_num, ?_, by norm_num⟩
  have hL : Nat.clog 2 536903681 = 30 := by
    apply le_antisymm
    · rw [Nat.clog_le_iff_le_pow (by norm_num)]; norm_num
    · have : 29 < Nat.clog 2 536903681 := by rw [Nat.lt_clog_iff_pow_lt (by norm_num)]; norm_num
      exact this
  have hlog := log_quotient (m := 536903681) (by norm_num)
  rw [hL] at hlog
  have hp : precompute 536903681 = ⟨2147352580, 536903681, 32, 28⟩ := by
    unfold precompute floorTrueDiv
    simp only [hL, hlog]
    decide +kernel
  rw [hp]
  decide +kernel

/-- The modulus constants used in the package's tests are good, for example: -/
theorem goodModulus_1073184769 : GoodModulus 1073184769 := by
  refine ⟨by norm_num, by norm_num, ?_⟩
  have hL : Nat.clog 2 1073184769 = 30 := by
    apply le_antisymm
    · rw [Nat.clog_le_iff_le_pow (by norm_num)]; norm_num
    · have : 29 < Nat.clog 2 1073184769 := by rw [Nat.lt_clog_iff_pow_lt (by norm_num)]; norm_num
      exact this
  unfold ReciprocalExact
  rw [hL]
  decide +kernel

/-- C29: `AddModularBarrett` returns `(a + b) mod q` for reduced inputs, for every modulus below `2^31`
(no condition on the reciprocal is needed here), and raises without constants. -/
theorem C29_barrett (q a b : Nat) (hq : 1 ≤ q) (hq31 : q < 2 ^ 31) (ha : a < q) (hb : b < q) :
    addModularBarrett (some (precompute q)) a b = .ok ((a + b) % q) ∧
    addModularBarrett none a b = .error "ValueError" := by
  refine ⟨?_, rfl⟩
  unfold addModularBarrett
  simp only
  rw [Nat.mod_eq_of_lt (a := a + b) (b := 2 ^ 32) (by omega)]
  rw [modularReduction_lt53 q (a + b) (by omega) hq31.le _ (by omega)]
  apply lt_two_pow_of_lt_sq
  rcases Nat.lt_or_ge q 2 with h | h
  · have : q = 1 := by omega
    subst this; omega
  · nlinarith

example := C29_barrett 2147483629 2147483628 2147483627 (by norm_num) (by norm_num) (by norm_num) (by norm_num)

/-- C29: `AddModularSubtract` returns `(a + b) mod q` for reduced inputs. -/
theorem C29_subtract (q a b : Nat) (hq31 : q < 2 ^ 31) (ha : a < q) (hb : b < q) :
    addModularSubtract q a b = (a + b) % q := by
  unfold addModularSubtract
  simp only
  have e : (a + b) % 2 ^ 32 = a + b := Nat.mod_eq_of_lt (by omega)
  rw [e]
  split
  · rename_i h
    have h1 : (a + b + 2 ^ 32 - q) % 2 ^ 32 = a + b - q := by omega
    rw [h1, Nat.mod_eq_sub_mod h, Nat.mod_eq_of_lt (by omega)]
  · rename_i h
    rw [Nat.mod_eq_of_lt (by omega)]

example := C29_subtract 2147483629 2147483628 2147483627 (by norm_num) (by norm_num) (by norm_num)

/-- C29: the two kernels agree, and `AddSimple` does not wrap, on reduced inputs. -/
theorem C29_agree (q a b : Nat) (hq31 : q < 2 ^ 31) (ha : a < q) (hb : b < q) :
    addModularBarrett (some (precompute q)) a b = .ok (addModularSubtract q a b) ∧
    addSimple a b = a + b := by
  refine ⟨?_, ?_⟩
  · rw [(C29_barrett q a b (by omega) hq31 ha hb).1, C29_subtract q a b hq31 ha hb]
  · unfold addSimple; exact Nat.mod_eq_of_lt (by omega)

example := C29_agree 2147483629 2147483628 2147483627 (by norm_num) (by norm_num) (by norm_num)

/-- C29: `AddModularBarrett` also accepts unreduced inputs whose sum is below `q^2` and fits 32 bits. -/
theorem C29_unreduced (q a b : Nat) (hq : 1 ≤ q) (hq31 : q < 2 ^ 31) (h : a + b < q * q) (h32 : a + b < 2 ^ 32) :
    addModularBarrett (some (precompute q)) a b = .ok ((a + b) % q) := by
  unfold addModularBarrett
  simp only
  rw [Nat.mod_eq_of_lt h32, modularReduction_lt53 q (a + b) (by omega) hq31.le (lt_two_pow_of_lt_sq h) (by omega)]

example := C29_unreduced 1073184769 2147483648 2147483000 (by norm_num) (by norm_num) (by norm_num) (by norm_num)

example : addModularSubtract 2147483629 2147483628 2147483627 = 2147483626 := by decide
/-- At `q = 2^32 - 5` the sum of reduced inputs wraps and the answer is wrong. -/
example : addModularSubtract 4294967291 4294967290 4294967290 ≠ (4294967290 + 4294967290) % 4294967291 := by
  decide
example : GoodModulus 1073184769 := goodModulus_1073184769
example := C28_reduction_partial 1073184769 (1073184768 * 1073184768) goodModulus_1073184769 (by
  rw [show Nat.clog 2 1073184769 = 30 by decide +kernel]; norm_num)

end Verif.Props
