import Verif.Model.Encoding
import Mathlib.Data.BitVec
import Mathlib.Tactic.Ring
import Mathlib.Tactic.Linarith
import Mathlib.Tactic.NormNum
import Mathlib.Tactic.Positivity

namespace Verif.Encoding

theorem round_nat (X e : Nat) (he : 1 ≤ e) :
    X / 2 ^ e + X / 2 ^ (e - 1) % 2 = (X + 2 ^ (e - 1)) / 2 ^ e := by
  obtain ⟨e, rfl⟩ : ∃ k, e = k + 1 := ⟨e - 1, by omega⟩
  simp only [Nat.add_sub_cancel]
  rw [pow_succ, ← Nat.div_div_eq_div_mul, ← Nat.div_div_eq_div_mul,
    Nat.add_div_right _ (by positivity)]
  omega

theorem round_toNat (x : BitVec 32) (e : Nat) (he : 1 ≤ e) :
    (roundToPowerOf2 x e).toNat = ((x.toNat + 2 ^ (e - 1)) / 2 ^ e * 2 ^ e) % 2 ^ 32 := by
  unfold roundToPowerOf2
  have hx := x.isLt
  simp only [BitVec.toNat_shiftLeft, BitVec.toNat_add, BitVec.toNat_ushiftRight, BitVec.toNat_and,
    Nat.shiftLeft_eq, Nat.shiftRight_eq_div_pow]
  have h1 : (BitVec.toNat 1#32) = 1 := rfl
  rw [h1, Nat.and_one_is_mod, round_nat _ _ he, Nat.mod_mul_mod]

theorem mul_mod_div (Y e k : Nat) (hk : k + e ≤ 32) :
    (Y * 2 ^ e % 2 ^ 32) / 2 ^ e % 2 ^ k = Y % 2 ^ k := by
  have h32 : (2 : Nat) ^ 32 = 2 ^ (32 - e) * 2 ^ e := by
    rw [← pow_add]; congr 1; omega
  rw [h32, Nat.mul_mod_mul_right, Nat.mul_div_cancel _ (by positivity)]
  exact Nat.mod_mod_of_dvd _ (pow_dvd_pow 2 (by omega))

theorem ofNat_mask_toNat (k : Nat) (hk : k ≤ 32) :
    (BitVec.ofNat 32 ((1 <<< k) - 1)).toNat = 2 ^ k - 1 := by
  rw [BitVec.toNat_ofNat, Nat.shiftLeft_eq, one_mul]
  apply Nat.mod_eq_of_lt
  have : 2 ^ k ≤ 2 ^ 32 := Nat.pow_le_pow_right (by decide) hk
  have : 0 < 2 ^ k := by positivity
  omega

theorem decode_core (x : BitVec 32) (e k : Nat) (he : 1 ≤ e) (hk : k + e ≤ 32) :
    ((roundToPowerOf2 x e >>> e) &&& (BitVec.ofNat 32 ((1 <<< k) - 1))).toNat =
      (x.toNat + 2 ^ (e - 1)) / 2 ^ e % 2 ^ k := by
  rw [BitVec.toNat_and, ofNat_mask_toNat k (by omega), Nat.and_two_pow_sub_one_eq_mod,
    BitVec.toNat_ushiftRight, Nat.shiftRight_eq_div_pow, round_toNat x e he,
    mul_mod_div _ _ _ hk]

/-- `(v * 2^e + n)` with small `n`, reduced mod `2^32`, rounds to `v` modulo `2^k`. -/
theorem round_int (v n : Int) (e k : Nat) (he : 1 ≤ e) (hk : k + e ≤ 32)
    (h1 : -2 ^ (e - 1) ≤ n) (h2 : n < 2 ^ (e - 1)) :
    (((BitVec.ofInt 32 (v * 2 ^ e + n)).toNat + 2 ^ (e - 1)) / 2 ^ e % 2 ^ k : Nat) =
      v % 2 ^ k := by
  have hX : ((BitVec.ofInt 32 (v * 2 ^ e + n)).toNat : Int) = (v * 2 ^ e + n) % 2 ^ 32 := by
    rw [BitVec.toNat_ofInt]; norm_num; exact Int.emod_nonneg _ (by norm_num)
  push_cast
  rw [hX, Int.emod_def (v * 2 ^ e + n)]
  set c := (v * 2 ^ e + n) / 2 ^ 32
  have h32 : (2 : Int) ^ 32 = 2 ^ (32 - e) * 2 ^ e := by
    rw [← pow_add]; congr 1; omega
  have hp : (0 : Int) < 2 ^ e := by positivity
  have hee : (2 : Int) ^ e = 2 ^ (e - 1) + 2 ^ (e - 1) := by
    obtain ⟨e, rfl⟩ : ∃ j, e = j + 1 := ⟨e - 1, by omega⟩
    simp only [Nat.add_sub_cancel]; ring
  have : v * 2 ^ e + n - 2 ^ 32 * c + 2 ^ (e - 1) =
      (n + 2 ^ (e - 1)) + (v - 2 ^ (32 - e) * c) * 2 ^ e := by
    rw [h32]; ring
  rw [this, Int.add_mul_ediv_right _ _ (ne_of_gt hp),
    Int.ediv_eq_zero_of_lt (by linarith) (by linarith), zero_add]
  have hk2 : (2 : Int) ^ (32 - e) = 2 ^ k * 2 ^ (32 - e - k) := by
    rw [← pow_add]; congr 1; omega
  rw [hk2, mul_assoc, Int.sub_mul_emod_self_left]

theorem int_mul_emod_mul_right (a b k : Int) (hk : 0 < k) : a * k % (b * k) = a % b * k := by
  rw [mul_comm a, mul_comm b, Int.mul_emod_mul_of_pos _ _ hk, mul_comm]

end Verif.Encoding
