import Verif.Model.PolymulKernel
import Verif.Lemmas.Decomposition
import Verif.Lemmas.Negacyclic
import Mathlib.Tactic.FinCases

namespace Verif.MatrixUtils
open Verif.Arith Verif.Decomposition Verif.Nega

theorem byte_toNat (x : W) (p : Fin 4) : (byte x p).toNat = x.toNat / 2 ^ (8 * p.val) % 2 ^ 8 := by
  unfold byte
  rw [BitVec.toNat_and, BitVec.toNat_ushiftRight, Nat.shiftRight_eq_div_pow]
  exact Nat.and_two_pow_sub_one_eq_mod _ 8

theorem byte_nat_sum (n : Nat) (h : n < 2 ^ 32) :
    ∑ p : Fin 4, (n / 2 ^ (8 * p.val) % 2 ^ 8) * 2 ^ (8 * p.val) = n := by
  rw [Fin.sum_univ_four]
  norm_num at h ⊢
  omega

theorem byte_cast (x : W) (p : Fin 4) : byte x p = ((x.toNat / 2 ^ (8 * p.val) % 2 ^ 8 : Nat) : W) := by
  rw [← byte_toNat, cast_toNat]

theorem byte_sum (x : W) : ∑ p : Fin 4, byte x p * 2 ^ (8 * p.val) = x := by
  conv_rhs => rw [← cast_toNat x, ← byte_nat_sum x.toNat x.isLt]
  rw [Nat.cast_sum]
  apply Finset.sum_congr rfl
  intro p _
  rw [byte_cast]
  simp only [Nat.cast_mul, Nat.cast_pow, Nat.cast_ofNat]

theorem shiftFactors_eq (p q : Fin 4) : shiftFactors p q = 8 * p.val + 8 * q.val := by
  revert p q; decide

theorem i32AsU8Matmul_eq {n k : Nat} (lhs : Fin n → W) (rhs : Fin n → Fin k → W) (j : Fin k) :
    i32AsU8Matmul lhs rhs j = ∑ i, lhs i * rhs i j := by
  unfold i32AsU8Matmul
  have h : ∀ i, lhs i * rhs i j =
      ∑ p : Fin 4, ∑ q : Fin 4, byte (lhs i) p * byte (rhs i j) q * (2 ^ (8 * p.val) * 2 ^ (8 * q.val)) := by
    intro i
    conv_lhs => rw [← byte_sum (lhs i), ← byte_sum (rhs i j)]
    rw [Finset.sum_mul_sum]
    apply Finset.sum_congr rfl; intro p _
    apply Finset.sum_congr rfl; intro q _
    ring
  simp only [h]
  conv_rhs => rw [Finset.sum_comm]
  apply Finset.sum_congr rfl; intro p _
  conv_rhs => rw [Finset.sum_comm]
  apply Finset.sum_congr rfl; intro q _
  rw [shiftLeft_eq_mul, Finset.sum_mul, shiftFactors_eq, pow_add]

theorem roll_roll {α : Type*} {n : Nat} (x : Fin n → α) (s t : Int) :
    roll (roll x s) t = roll x (s + t) := by
  funext r
  unfold roll
  congr 1
  apply Fin.ext
  simp only
  have h0 := Int.emod_nonneg ((r.val : Int) - t) (b := (n : Int)) (by have := r.isLt; omega)
  rw [Int.toNat_of_nonneg h0, Int.emod_sub_emod]
  congr 2
  omega

theorem roll_congr {α : Type*} {n : Nat} (x : Fin n → α) {s t : Int} (h : s % n = t % n) :
    roll x s = roll x t := by
  funext r
  unfold roll
  congr 1
  apply Fin.ext
  simp only
  rw [← Int.sub_emod_emod, h, Int.sub_emod_emod]

theorem roll_zero {α : Type*} {n : Nat} (x : Fin n → α) : roll x 0 = x := by
  funext r
  unfold roll
  congr 1
  apply Fin.ext
  simp only
  rw [sub_zero]
  have := Int.emod_eq_of_lt (a := (r.val : Int)) (b := n) (by omega) (by have := r.isLt; omega)
  rw [this]; simp

theorem toeplitzAux_eq {α : Type*} {n : Nat} (x0 : Fin n → α) (x : Fin n → Nat → α) (m : Nat)
    (hm : 0 < m) (hx : ∀ r c, c < m → x r c = roll x0 c r) (i j : Fin n) :
    toeplitzAux x m hm i j = roll x0 i.val j := by
  induction x, m, hm using toeplitzAux.induct with
  | case1 x m hm h =>
    unfold toeplitzAux
    rw [dif_pos h]
    exact hx j i.val (by have := i.isLt; omega)
  | case2 x m hm h ih =>
    unfold toeplitzAux
    rw [dif_neg h]
    apply ih
    intro r c hc
    simp only
    split
    · rename_i h1; exact hx r c h1
    · rename_i h1
      have : (fun r' => x r' (c - m)) = roll x0 ((c - m : Nat) : Int) := by
        funext r'; exact hx r' (c - m) (by omega)
      rw [this, roll_roll]
      have e : (((c - m : Nat) : Int) + (m : Int)) = (c : Int) := by omega
      rw [e]

theorem toeplitz_eq {α : Type*} {n : Nat} (x : Fin n → α) (i j : Fin n) :
    toeplitz x i j = roll x i.val j := by
  unfold toeplitz
  apply toeplitzAux_eq
  intro r c hc
  have : c = 0 := by omega
  subst this
  rw [Nat.cast_zero, roll_zero]

theorem roll_of_le {α : Type*} {n : Nat} (a : Fin n → α) (e : Nat) (k : Fin n) (h : e ≤ k.val) :
    roll a e k = a ⟨k.val - e, by have := k.isLt; omega⟩ := by
  unfold roll
  congr 1
  apply Fin.ext
  simp only
  have := k.isLt
  rw [Int.emod_eq_of_lt (by omega) (by omega)]; omega

theorem roll_of_gt {α : Type*} {n : Nat} (a : Fin n → α) (e : Nat) (k : Fin n) (h : k.val < e)
    (he : e ≤ n) : roll a e k = a ⟨n + k.val - e, by omega⟩ := by
  unfold roll
  congr 1
  apply Fin.ext
  simp only
  rw [← Int.add_emod_right, Int.emod_eq_of_lt (by omega) (by omega)]; omega

theorem shift_eq_roll {n : Nat} (a : Fin n → W) (e : Nat) (he : e < n) (k : Fin n) :
    shift e a k = if (k.val : Int) < (e : Int) then -roll a e k else roll a e k := by
  unfold shift
  split
  · rename_i h
    rw [if_neg (by omega), roll_of_le a e k h]
  · rename_i h
    rw [dif_pos (by omega), if_pos (by omega), roll_of_gt a e k (by omega) he.le]

theorem toeplitzPolyMul_eq {n : Nat} (a b : Fin n → W) : toeplitzPolyMul a b = Nega.mul a b := by
  funext k
  unfold toeplitzPolyMul Nega.mul
  rw [i32AsU8Matmul_eq]
  apply Finset.sum_congr rfl
  intro i _
  congr 1
  rw [toeplitz_eq, shift_eq_roll a _ i.isLt]
  unfold generateSignMatrix
  by_cases h : i.val ≤ k.val
  · rw [if_pos h, if_neg (by omega), if_neg (by omega)]
    have : BitVec.ofInt 32 (1 + 0 * -1) = 1 := by decide
    rw [this, one_mul]
  · rw [if_neg h, if_pos (by omega), if_pos (by omega)]
    have : BitVec.ofInt 32 (0 + 1 * -1) = -1 := by decide
    rw [this, neg_one_mul]

theorem kernelChunk_eq {n : Nat} (v : Fin n → W) (blk r0 : Nat) :
    kernelChunk v blk r0 = roll v ((128 * blk + r0 : Nat) : Int) := by
  induction blk with
  | zero => simp [kernelChunk]
  | succ b ih =>
    rw [kernelChunk, ih, roll_roll]
    congr 1
    push_cast; ring

theorem toeplitzKernelized_eq {n : Nat} (v : Fin n → W) (r c : Fin n) :
    toeplitzKernelized v r c = shift r.val v c := by
  unfold toeplitzKernelized
  simp only
  rw [kernelChunk_eq, Nat.div_add_mod, shift_eq_roll v _ r.isLt]
  by_cases h : r.val > c.val
  · rw [if_pos h, if_pos (by omega)]
  · rw [if_neg h, if_neg (by omega)]

theorem polyMul_eq (tpu : Int) {n : Nat} (a b : Fin n → W) : polyMul tpu a b = Nega.mul a b := by
  unfold polyMul
  split
  · funext k
    rw [i32AsU8Matmul_eq]
    unfold Nega.mul
    simp only [toeplitzKernelized_eq]
  · exact toeplitzPolyMul_eq a b

theorem ev_polyMul (tpu : Int) {n : Nat} (a b : Fin n → W) :
    ev (polyMul tpu a b) = ev a * ev b := by rw [polyMul_eq, ev_mul]

theorem ev_polyDotProduct (tpu : Int) {m n : Nat} (v w : Fin m → Fin n → W) :
    ev (polyDotProduct tpu v w) = ∑ i, ev (v i) * ev (w i) := by
  have h : polyDotProduct tpu v w = fun c => ∑ i, (fun i => polyMul tpu (v i) (w i)) i c := rfl
  rw [h, ev_sum]
  simp only [ev_polyMul]

/-! ### monomials -/

theorem roll_flip {n : Nat} (poly : Fin n → W) (d : Int) (hn : 0 < n) (h0 : 0 ≤ d) (h1 : d < 2 * n) :
    ev (fun i : Fin n => if (i.val : Int) < d % n
        then -(if (decide ((d / n) % 2 = 1)) = true then -roll poly d i else roll poly d i)
        else (if (decide ((d / n) % 2 = 1)) = true then -roll poly d i else roll poly d i)) =
      x W n ^ d.toNat * ev poly := by
  have hnz : (0 : Int) < n := by omega
  set e := (d % n).toNat with he
  have hmn : 0 ≤ d % n := Int.emod_nonneg _ (by omega)
  have hml : d % n < n := Int.emod_lt_of_pos _ hnz
  have hdn : (e : Int) = d % n := by omega
  have hen : e < n := by omega
  have hroll : roll poly d = roll poly (e : Int) := roll_congr poly (by rw [hdn, Int.emod_emod])
  have hq : d / n = 0 ∨ d / n = 1 := by
    have := Int.emod_add_mul_ediv d n
    have h2 : 0 ≤ d / n := Int.ediv_nonneg h0 hnz.le
    have h3 : d / n < 2 := Int.ediv_lt_of_lt_mul hnz (by linarith)
    omega
  have hdecomp := Int.emod_add_mul_ediv d n
  rw [hroll, ← hdn]
  rcases hq with hq | hq
  · have hd : d.toNat = e := by rw [hq] at hdecomp; omega
    have : decide ((d / ↑n) % 2 = 1) = false := by rw [hq]; rfl
    simp only [this, Bool.false_eq_true, if_false]
    rw [hd, ← ev_shift e hen]
    congr 1
    funext i
    rw [shift_eq_roll _ _ hen]
  · have hd : d.toNat = n + e := by rw [hq] at hdecomp; omega
    have : decide ((d / ↑n) % 2 = 1) = true := by rw [hq]; rfl
    simp only [this, if_true]
    rw [hd, pow_add, x_pow_N, neg_one_mul, neg_mul, ← ev_shift e hen, ← ev_neg]
    congr 1
    funext i
    rw [shift_eq_roll _ _ hen]
    split <;> simp

theorem modIfSmall_32 (y : W) : modIfSmall y 32 = y := by unfold modIfSmall; simp

theorem ev_monomialMul {n : Nat} (hn : 0 < n) (poly : Fin n → W) (d : Int) :
    ev (monomialMul poly d 32) = x W n ^ (d % (2 * n)).toNat * ev poly := by
  unfold monomialMul
  simp only [modIfSmall_32]
  exact roll_flip poly (d % (2 * n)) hn (Int.emod_nonneg _ (by omega)) (Int.emod_lt_of_pos _ (by omega))

theorem ev_scaleBy {n : Nat} (hn : 0 < n) (poly : Fin n → W) (d : Int) :
    ev (scaleByXPowerNMinus1 d poly 32) = (x W n ^ (d % (2 * n)).toNat - 1) * ev poly := by
  unfold scaleByXPowerNMinus1
  simp only [modIfSmall_32]
  rw [ev_sub]
  have := roll_flip poly (d % (2 * n)) hn (Int.emod_nonneg _ (by omega)) (Int.emod_lt_of_pos _ (by omega))
  have hr : roll poly (d % (2 * ↑n) % ↑n) = roll poly (d % (2 * n)) := roll_congr poly (Int.emod_emod _ _)
  rw [hr, this]
  ring

end Verif.MatrixUtils
