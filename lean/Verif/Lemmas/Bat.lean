import Verif.Model.Bat
import Verif.Lemmas.Crt
import Mathlib.Algebra.Order.BigOperators.Group.Finset
import Mathlib.Algebra.BigOperators.Ring.Finset
import Mathlib.Data.Nat.Digits.Defs

/-!
# The basis-aligned transformation as an exact integer identity
-/

namespace Verif.Bat
open Finset

theorem bytes_sum (x : Nat) (hx : x < 2 ^ 32) : ∑ i ∈ range 4, byte x i * 256 ^ i = x := by
  simp only [sum_range_succ, sum_range_zero, byte]
  norm_num at *
  omega

theorem byte_lt (x i : Nat) : byte x i < 256 := Nat.mod_lt _ (by norm_num)

theorem batEntry_sum (m modulus q : Nat) (hmod : 0 < modulus) (hmod32 : modulus ≤ 2 ^ 32) (hq : q < 4)
    (hm : m < 2 ^ 32) : ∑ p ∈ range 4, batEntry m modulus q p * 256 ^ p = m * 256 ^ q % modulus := by
  have hlt := Nat.mod_lt (m * 256 ^ q) hmod
  have h1 : (m <<< (8 * q)) % 2 ^ 64 = m * 256 ^ q := by
    rw [Nat.shiftLeft_eq, pow_mul]
    norm_num
    have : 256 ^ q ≤ 256 ^ 3 := Nat.pow_le_pow_right (by norm_num) (by omega)
    calc m * 256 ^ q < 2 ^ 32 * 256 ^ 3 := by
          apply Nat.mul_lt_mul_of_lt_of_le hm this (by norm_num)
      _ < _ := by norm_num
  unfold batEntry
  rw [h1, Nat.mod_eq_of_lt (a := m * 256 ^ q % modulus) (by omega)]
  exact bytes_sum _ (by omega)

theorem batEntry_lt (m modulus q p : Nat) : batEntry m modulus q p < 256 := byte_lt _ _

/-- With no overflow the value is the integer combination of the shifted-and-reduced entries. -/
theorem matmulBat_eq (K : Nat) (hK : K * 260100 < 2 ^ 32) (x m : Nat → Nat) (modulus : Nat) (hmod : 0 < modulus)
    (hmod32 : modulus ≤ 2 ^ 32) (hm : ∀ k, k < K → m k < 2 ^ 32) :
    matmulBat K x (fun k q p => batEntry (m k) modulus q p) =
      ∑ k ∈ range K, ∑ q ∈ range 4, byte (x k) q * (m k * 256 ^ q % modulus) := by
  have hK1 : K * 1020 < 2 ^ 32 := lt_of_le_of_lt (Nat.mul_le_mul_left _ (by norm_num)) hK
  have hsum : ∀ p, ∑ k ∈ range K, ∑ q ∈ range 4, byte (x k) q * batEntry (m k) modulus q p ≤ K * 260100 := by
    intro p
    calc _ ≤ ∑ k ∈ range K, 260100 := by
          apply sum_le_sum
          intro k _
          calc ∑ q ∈ range 4, byte (x k) q * batEntry (m k) modulus q p ≤ ∑ q ∈ range 4, 255 * 255 := by
                apply sum_le_sum
                intro q _
                apply Nat.mul_le_mul
                · have := byte_lt (x k) q; omega
                · have := batEntry_lt (m k) modulus q p; omega
            _ = 260100 := by simp
      _ = K * 260100 := by simp
  have hterm : ∀ p ∈ range 4, ((∑ k ∈ range K, ∑ q ∈ range 4, byte (x k) q * batEntry (m k) modulus q p) % 2 ^ 32) <<<
      (8 * p) % 2 ^ 64 = (∑ k ∈ range K, ∑ q ∈ range 4, byte (x k) q * batEntry (m k) modulus q p) * 256 ^ p := by
    intro p hp
    rw [mem_range] at hp
    have h := hsum p
    rw [Nat.mod_eq_of_lt (a := ∑ k ∈ range K, _) (by omega), Nat.shiftLeft_eq, pow_mul]
    norm_num
    have : 256 ^ p ≤ 256 ^ 3 := Nat.pow_le_pow_right (by norm_num) (by omega)
    calc _ ≤ (K * 260100) * 256 ^ 3 := Nat.mul_le_mul h this
      _ < 2 ^ 32 * 256 ^ 3 := Nat.mul_lt_mul_of_pos_right hK (by norm_num)
      _ < _ := by norm_num
  have hkey : ∑ p ∈ range 4, (∑ k ∈ range K, ∑ q ∈ range 4, byte (x k) q * batEntry (m k) modulus q p) * 256 ^ p =
      ∑ k ∈ range K, ∑ q ∈ range 4, byte (x k) q * (m k * 256 ^ q % modulus) := by
    simp only [sum_mul]
    rw [sum_comm]
    apply sum_congr rfl
    intro k hk
    rw [mem_range] at hk
    rw [sum_comm]
    apply sum_congr rfl
    intro q hq
    rw [mem_range] at hq
    rw [← batEntry_sum (m k) modulus q hmod hmod32 hq (hm k hk), mul_sum]
    apply sum_congr rfl
    intro p _
    ring
  unfold matmulBat
  rw [sum_congr rfl hterm, hkey]
  apply Nat.mod_eq_of_lt
  calc _ ≤ ∑ k ∈ range K, ∑ q ∈ range 4, 255 * 2 ^ 32 := by
        apply sum_le_sum
        intro k _
        apply sum_le_sum
        intro q _
        apply Nat.mul_le_mul
        · have := byte_lt (x k) q; omega
        · have := Nat.mod_lt (m k * 256 ^ q) hmod; omega
    _ = K * 1020 * 2 ^ 32 := by
        simp only [sum_const, card_range, smul_eq_mul]; ring
    _ < 2 ^ 32 * 2 ^ 32 := Nat.mul_lt_mul_of_pos_right hK1 (by norm_num)
    _ = 2 ^ 64 := by norm_num

theorem matmulBat_bound (K : Nat) (x m : Nat → Nat) (modulus : Nat) (hmod : 0 < modulus) :
    ∑ k ∈ range K, ∑ q ∈ range 4, byte (x k) q * (m k * 256 ^ q % modulus) ≤ 1020 * K * (modulus - 1) := by
  calc _ ≤ ∑ k ∈ range K, ∑ q ∈ range 4, 255 * (modulus - 1) := by
        apply sum_le_sum
        intro k _
        apply sum_le_sum
        intro q _
        apply Nat.mul_le_mul
        · have := byte_lt (x k) q; omega
        · have := Nat.mod_lt (m k * 256 ^ q) hmod; omega
    _ = _ := by simp; ring

theorem matmulBat_congr (K : Nat) (x m : Nat → Nat) (modulus : Nat) (hx : ∀ k, k < K → x k < 2 ^ 32) :
    (∑ k ∈ range K, ∑ q ∈ range 4, byte (x k) q * (m k * 256 ^ q % modulus)) % modulus =
      (∑ k ∈ range K, x k * m k) % modulus := by
  show Nat.ModEq modulus _ _
  rw [← ZMod.natCast_eq_natCast_iff]
  push_cast
  apply sum_congr rfl
  intro k hk
  rw [mem_range] at hk
  have h : ((∑ i ∈ range 4, byte (x k) i * 256 ^ i : Nat) : ZMod modulus) = (x k : ZMod modulus) := by
    rw [bytes_sum _ (hx k hk)]
  rw [← h]
  push_cast
  rw [sum_mul]
  apply sum_congr rfl
  intro q _
  rw [ZMod.natCast_mod]
  push_cast
  ring

theorem sum_range_four_mul (K : Nat) (f : Nat → Nat → Nat) :
    ∑ t ∈ range (4 * K), f (t / 4) (t % 4) = ∑ k ∈ range K, ∑ q ∈ range 4, f k q := by
  induction K with
  | zero => simp
  | succ K ih =>
    rw [show 4 * (K + 1) = 4 * K + 1 + 1 + 1 + 1 by ring]
    simp only [sum_range_succ _ (4 * K + 1 + 1 + 1), sum_range_succ _ (4 * K + 1 + 1), sum_range_succ _ (4 * K + 1),
      sum_range_succ _ (4 * K), sum_range_succ _ K]
    rw [ih]
    have a0 : (4 * K) / 4 = K := by omega
    have a1 : (4 * K + 1) / 4 = K := by omega
    have a2 : (4 * K + 1 + 1) / 4 = K := by omega
    have a3 : (4 * K + 1 + 1 + 1) / 4 = K := by omega
    have b0 : (4 * K) % 4 = 0 := by omega
    have b1 : (4 * K + 1) % 4 = 1 := by omega
    have b2 : (4 * K + 1 + 1) % 4 = 2 := by omega
    have b3 : (4 * K + 1 + 1 + 1) % 4 = 3 := by omega
    rw [a0, a1, a2, a3, b0, b1, b2, b3]
    simp only [sum_range_succ, sum_range_zero]
    ring

theorem matmulBatMerged_eq (K : Nat) (x : Nat → Nat) (bat : Nat → Nat → Nat → Nat) :
    matmulBatMerged K x (fun t p => bat (t / 4) (t % 4) p) = matmulBat K x bat := by
  unfold matmulBatMerged matmulBat
  have h : ∀ p, ∑ t ∈ range (4 * K), byte (x (t / 4)) (t % 4) * bat (t / 4) (t % 4) p =
      ∑ k ∈ range K, ∑ q ∈ range 4, byte (x k) q * bat k q p :=
    fun p => sum_range_four_mul K (fun k q => byte (x k) q * bat k q p)
  simp only [h]

end Verif.Bat
