import Verif.Model.X64Barrett
import Verif.Props.Barrett
import Verif.Props.X64

/-!
# C110: Barrett reduction needs 64-bit types that its module does not enable
-/

namespace Verif.Props
open Verif.Barrett
open Verif.X64 (Module flagAfter wide)
open Verif.X64Barrett (precomputeW mulW addW subW)

theorem precompute_m_lt (q : Nat) (hq : 1 ≤ q) (hq31 : q < 2 ^ 31) : (precompute q).m < 2 ^ 64 := by
  have hL31 : Nat.clog 2 q ≤ 31 := by rw [Nat.clog_le_iff_le_pow (by norm_num)]; omega
  have hlq := log_quotient (m := q) hq
  have hql := quotient_lt hq hq31.le
  show floorTrueDiv (2 ^ (2 * Nat.clog 2 q)) q < 2 ^ 64
  rcases floorTrueDiv_cases (2 ^ (2 * Nat.clog 2 q)) q hq (by rw [hlq]; omega) with h | ⟨h, -⟩ <;>
    rw [h] <;> omega

/-- C110: with 64-bit types the reduction and the addition are those of the model of C28 and C29. -/
theorem C110_wide (q : Nat) (hq : 1 ≤ q) (hq31 : q < 2 ^ 31) :
    (∀ z, X64Barrett.modularReduction true z (precomputeW true q) = modularReduction z (precompute q)) ∧
    ∀ a b, addModularBarrett (some (precompute q)) a b =
      .ok (X64Barrett.addModularBarrett true (precomputeW true q) a b) := by
  have e : precomputeW true q = precompute q := by
    show ({ precompute q with m := (precompute q).m % 2 ^ 64 } : Constants) = precompute q
    rw [Nat.mod_eq_of_lt (precompute_m_lt q hq hq31)]
  rw [e]
  exact ⟨fun z => rfl, fun a b => rfl⟩

/-- C110: without them, for every modulus above `2^15` and every word, all that is left of the reduction is
one conditional subtraction. -/
theorem C110_one_subtraction (q z : Nat) (hq15 : 2 ^ 15 < q) (hq31 : q < 2 ^ 31) (hz : z < 2 ^ 32) :
    X64Barrett.modularReduction false z (precomputeW false q) = if q ≤ z then z - q else z := by
  have hL : 16 ≤ Nat.clog 2 q := by
    have : 15 < Nat.clog 2 q := by rw [Nat.lt_clog_iff_pow_lt (by norm_num)]; exact hq15
    omega
  have hw : (precomputeW false q).w = 32 := by
    show min (2 * Nat.clog 2 q) 32 = 32
    omega
  have hmod : (precomputeW false q).modulus = q := rfl
  unfold X64Barrett.modularReduction
  have hwide : wide false = 32 := rfl
  simp only [hw, hmod, hwide]
  have h1 : (mulW 32 (z &&& 0xFFFFFFFF) (precomputeW false q).m) >>> 32 = 0 := by
    rw [Nat.shiftRight_eq_div_pow]
    exact Nat.div_eq_of_lt (Nat.mod_lt _ (by norm_num))
  have h2 : z >>> 32 = 0 := by
    rw [Nat.shiftRight_eq_div_pow]
    exact Nat.div_eq_of_lt hz
  rw [h1, h2]
  have h3 : addW 32 0 (mulW 32 0 (precomputeW false q).m) = 0 := by
    unfold addW mulW; rw [Nat.zero_mul]; norm_num
  rw [h3, Nat.zero_shiftRight]
  have h4 : subW 32 z (mulW 32 0 q) = z := by
    unfold subW mulW; rw [Nat.zero_mul]; omega
  rw [h4]
  by_cases h : q ≤ z
  · rw [if_pos h, if_pos h]; unfold subW; omega
  · rw [if_neg h, if_neg h]; omega

/-- C110: so the result is right exactly for inputs below twice the modulus, although the reduction is
documented up to the square of the modulus. -/
theorem C110_right_iff (q z : Nat) (hq15 : 2 ^ 15 < q) (hq31 : q < 2 ^ 31) (hz : z < 2 ^ 32) :
    X64Barrett.modularReduction false z (precomputeW false q) = z % q ↔ z < 2 * q := by
  rw [C110_one_subtraction q z hq15 hq31 hz]
  constructor
  · intro h
    by_contra hc
    rw [if_pos (by omega)] at h
    have := Nat.mod_lt z (show 0 < q by omega)
    omega
  · intro h
    split
    · rename_i hle
      rw [Nat.mod_eq_sub_mod hle, Nat.mod_eq_of_lt (by omega)]
    · exact (Nat.mod_eq_of_lt (by omega)).symm

/-- C110 (negation): in a program that imports `barrett` and `add` but none of the five modules that enable
64-bit types, `AddModularBarrett` gives a wrong answer for every modulus from `2^15` to `2^31` and all inputs
whose sum is at least twice the modulus. Its documentation asks only that the sum be below the square of the
modulus. After one import of one of the five modules the same calls are right. -/
theorem C110_negation (imports : List Module) (q a b : Nat) (hq15 : 2 ^ 15 < q)
    (hq31 : q < 2 ^ 31) (hlo : 2 * q ≤ a + b) (h32 : a + b < 2 ^ 32) (hdoc : a + b < q * q) :
    X64Barrett.addModularBarrett (flagAfter imports) (precomputeW (flagAfter imports) q) a b = (a + b) % q ↔
      ∃ m ∈ imports, m ≠ .other := by
  rw [← C109_flag]
  constructor
  · intro h
    by_contra hf
    have hf' : flagAfter imports = false := by simpa using hf
    rw [hf'] at h
    unfold X64Barrett.addModularBarrett at h
    rw [Nat.mod_eq_of_lt h32] at h
    have := (C110_right_iff q (a + b) hq15 hq31 h32).1 h
    omega
  · intro hf
    rw [hf]
    have h1 := (C110_wide q (by omega) hq31).2 a b
    rw [C29_unreduced q a b (by omega) hq31 hdoc h32] at h1
    exact (Except.ok.inj h1).symm

/-- The modulus 268369921 and two copies of it: without the flag the sum of `q` and `q` is `q`, not `0`. -/
example : X64Barrett.addModularBarrett (flagAfter [.other, .other]) (precomputeW (flagAfter [.other, .other]) 268369921)
    268369921 268369921 ≠ 0 := by
  intro h
  have := (C110_negation [.other, .other] 268369921 268369921 268369921 (by norm_num) (by norm_num) (by norm_num)
    (by norm_num) (by norm_num)).1 (by rw [h])
  revert this
  decide

/-- C110 (part that holds): on reduced inputs `AddModularBarrett` is right in either mode, for every modulus
below `2^31`. -/
theorem C110_reduced_partial (x64 : Bool) (q a b : Nat) (hq31 : q < 2 ^ 31) (ha : a < q) (hb : b < q) :
    X64Barrett.addModularBarrett x64 (precomputeW x64 q) a b = (a + b) % q := by
  have hq : 1 ≤ q := by omega
  cases x64
  case true =>
    have h1 := (C110_wide q hq hq31).2 a b
    rw [(C29_barrett q a b hq hq31 ha hb).1] at h1
    exact (Except.ok.inj h1).symm
  case false =>
    unfold X64Barrett.addModularBarrett
    rw [Nat.mod_eq_of_lt (a := a + b) (by omega)]
    rcases Nat.lt_or_ge (2 ^ 15) q with h15 | h15
    · exact (C110_right_iff q (a + b) h15 hq31 (by omega)).2 (by omega)
    · obtain ⟨z, hz⟩ : ∃ z, z = a + b := ⟨_, rfl⟩
      rw [← hz]
      rcases Nat.lt_or_ge q 2 with h2 | h2
      · have e1 : q = 1 := by omega
        have e2 : z = 0 := by omega
        subst e1 e2
        decide +kernel
      · have hL : Nat.clog 2 q ≤ 15 := by rw [Nat.clog_le_iff_le_pow (by norm_num)]; exact h15
        have hqL : q ≤ 2 ^ Nat.clog 2 q := Nat.le_pow_clog (by norm_num) q
        have hlq := log_quotient (m := q) hq
        obtain ⟨S, hS⟩ : ∃ S, S = 2 ^ (2 * Nat.clog 2 q) := ⟨_, rfl⟩
        have hSle : S ≤ 2 ^ 30 := by rw [hS]; exact Nat.pow_le_pow_right (by norm_num) (by omega)
        have hqS : q * q ≤ S := by
          rw [hS, two_mul, pow_add]; exact Nat.mul_le_mul hqL hqL
        have hmm : (precompute q).m = S / q := by
          rw [hS]
          refine precompute_exact q hq (by omega) ?_
          have h1 : q - 2 ^ (2 * Nat.clog 2 q) % q ≥ 1 := by
            have := Nat.mod_lt (2 ^ (2 * Nat.clog 2 q)) hq
            omega
          calc q < 2 ^ 38 := by omega
            _ ≤ 2 ^ (53 - Nat.clog 2 q) := Nat.pow_le_pow_right (by norm_num) (by omega)
            _ = 2 ^ (53 - Nat.clog 2 q) * 1 := (Nat.mul_one _).symm
            _ ≤ _ := Nat.mul_le_mul_left _ h1
        -- the products fit 32 bits, so both modes agree
        have hzS : z < S := by nlinarith
        have hmz : z * (S / q) < 2 ^ 32 := by
          have h1 : q * (S / q) ≤ S := Nat.mul_div_le _ _
          have h2 : z * (S / q) ≤ 2 * q * (S / q) := Nat.mul_le_mul_right _ (by omega)
          nlinarith
        have hw : (precomputeW false q).w = 2 * Nat.clog 2 q := by
          show min (2 * Nat.clog 2 q) 32 = _
          omega
        have hsw : (precomputeW false q).sw = 0 := by
          show 2 * Nat.clog 2 q - min (2 * Nat.clog 2 q) 32 = 0
          omega
        have hm : (precomputeW false q).m = S / q := by
          show (precompute q).m % 2 ^ 32 = S / q
          rw [hmm]
          exact Nat.mod_eq_of_lt (lt_of_le_of_lt (Nat.div_le_self _ _) (by omega))
        have hmod : (precomputeW false q).modulus = q := rfl
        have hwide : wide false = 32 := rfl
        unfold X64Barrett.modularReduction
        simp only [hw, hsw, hm, hmod, hwide, Nat.shiftRight_zero]
        have hand : z &&& 0xFFFFFFFF = z := by
          rw [show (0xFFFFFFFF : Nat) = 2 ^ 32 - 1 from rfl, Nat.and_two_pow_sub_one_eq_mod]
          exact Nat.mod_eq_of_lt (by omega)
        have hsh : z >>> (2 * Nat.clog 2 q) = 0 := by
          rw [Nat.shiftRight_eq_div_pow, ← hS]
          exact Nat.div_eq_of_lt hzS
        have hmul : mulW 32 z (S / q) = z * (S / q) := Nat.mod_eq_of_lt hmz
        have hmul0 : mulW 32 0 (S / q) = 0 := by unfold mulW; rw [Nat.zero_mul]; norm_num
        rw [hand, hsh, hmul, hmul0, Nat.shiftRight_eq_div_pow, ← hS]
        have hbq := barrett_quotient z q (2 * Nat.clog 2 q) (S / q) 0 hq (by rw [← hS]; exact hzS)
          (by rw [← hS, Nat.add_zero]; exact Nat.div_mul_le_self _ _)
          (by
            rw [← hS, Nat.add_mul, Nat.one_mul]
            exact Nat.lt_div_mul_add hq)
          (by rw [← hS, Nat.mul_zero]; omega)
        simp only [← hS] at hbq
        obtain ⟨t, ht⟩ : ∃ t, t = z * (S / q) / S := ⟨_, rfl⟩
        rw [← ht] at hbq ⊢
        obtain ⟨h1, h2'⟩ := hbq
        have ht32 : t ≤ z := le_trans (Nat.le_mul_of_pos_right t (by omega)) h1
        have hadd : addW 32 t 0 = t := by unfold addW; omega
        have hmt : mulW 32 t q = t * q := by unfold mulW; exact Nat.mod_eq_of_lt (by omega)
        have hsub : subW 32 z (t * q) = z - t * q := by unfold subW; omega
        rw [hadd, hmt, hsub]
        have hdecomp : z % q = (z - t * q) % q := by
          conv_lhs => rw [← Nat.sub_add_cancel h1, Nat.add_mul_mod_self_right]
        rw [hdecomp]
        obtain ⟨y, hy⟩ : ∃ y, y = z - t * q := ⟨_, rfl⟩
        rw [← hy]
        by_cases hge : q ≤ y
        · rw [if_pos hge, Nat.mod_eq_sub_mod hge, Nat.mod_eq_of_lt (a := y - q) (by omega)]
          unfold subW
          omega
        · rw [if_neg hge, Nat.mod_eq_of_lt (a := y) (b := q) (by omega)]
          omega

example := C110_reduced_partial false 12289 12288 12000 (by norm_num) (by norm_num) (by norm_num)

/-- C29: `AddSimple` on any two words is the sum modulo `2^32`. -/
theorem C29_simple_words (a b : Nat) (ha : a < 2 ^ 32) (hb : b < 2 ^ 32) :
    Barrett.addSimple a b < 2 ^ 32 ∧ ∃ c ≤ 1, a + b = Barrett.addSimple a b + c * 2 ^ 32 := by
  unfold Barrett.addSimple
  refine ⟨by omega, (a + b) / 2 ^ 32, by omega, by omega⟩

example := C29_simple_words 4294967295 2 (by norm_num) (by norm_num)

end Verif.Props
