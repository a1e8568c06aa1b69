import Verif.Lemmas.MatrixUtils

namespace Verif.MatrixUtils
open Verif.Arith Verif.Decomposition Verif.Nega Verif.PolymulKernel

theorem byte_lt (x : W) (p : Fin 4) : (byte x p).toNat < 256 := by
  rw [byte_toNat]; exact Nat.mod_lt _ (by norm_num)

theorem byte_toNat_sum (x : W) : ∑ p : Fin 4, (byte x p).toNat * 2 ^ (8 * p.val) = x.toNat := by
  simp only [byte_toNat]; exact byte_nat_sum _ x.isLt

theorem toNat_sum_of_lt {ι : Type*} (s : Finset ι) (f : ι → W) (h : ∑ i ∈ s, (f i).toNat < 2 ^ 32) :
    (∑ i ∈ s, f i).toNat = ∑ i ∈ s, (f i).toNat := by
  have e : ∑ i ∈ s, f i = ((∑ i ∈ s, (f i).toNat : Nat) : W) := by
    rw [Nat.cast_sum]
    exact Finset.sum_congr rfl (fun i _ => (cast_toNat _).symm)
  rw [e, toNat_natCast, Nat.mod_eq_of_lt h]

theorem toNat_mul_of_lt (a b : W) (h : a.toNat * b.toNat < 2 ^ 32) :
    (a * b).toNat = a.toNat * b.toNat := by
  rw [BitVec.toNat_mul, Nat.mod_eq_of_lt h]

theorem byte_mul_toNat (a b : W) (p q : Fin 4) :
    (byte a p * byte b q).toNat = (byte a p).toNat * (byte b q).toNat ∧
    (byte a p).toNat * (byte b q).toNat ≤ 255 * 255 := by
  have h : (byte a p).toNat * (byte b q).toNat ≤ 255 * 255 :=
    Nat.mul_le_mul (by have := byte_lt a p; omega) (by have := byte_lt b q; omega)
  exact ⟨toNat_mul_of_lt _ _ (by omega), h⟩

theorem dot_bytes_toNat {n : Nat} (u v : Fin n → W) (p q : Fin 4) (hn : n * (255 * 255) < 2 ^ 32) :
    (∑ l, byte (u l) p * byte (v l) q).toNat = ∑ l, (byte (u l) p).toNat * (byte (v l) q).toNat := by
  rw [toNat_sum_of_lt]
  · exact Finset.sum_congr rfl (fun l _ => (byte_mul_toNat _ _ _ _).1)
  · refine lt_of_le_of_lt ?_ hn
    calc ∑ l, (byte (u l) p * byte (v l) q).toNat ≤ ∑ _l : Fin n, 255 * 255 :=
          Finset.sum_le_sum (fun l _ => by rw [(byte_mul_toNat _ _ _ _).1]; exact (byte_mul_toNat _ _ _ _).2)
      _ = n * (255 * 255) := by simp

theorem natCast64 (n : Nat) : ((n : Nat) : BitVec 64).toNat = n % 2 ^ 64 := by
  show (BitVec.ofNat 64 n).toNat = _
  rw [BitVec.toNat_ofNat]

theorem cast_toNat64 (x : BitVec 64) : ((x.toNat : Nat) : BitVec 64) = x := by
  apply BitVec.eq_of_toNat_eq; rw [natCast64, Nat.mod_eq_of_lt x.isLt]

theorem setWidth_shift (a : W) (s : Nat) :
    (a.setWidth 64) <<< s = ((a.toNat * 2 ^ s : Nat) : BitVec 64) := by
  apply BitVec.eq_of_toNat_eq
  rw [BitVec.toNat_shiftLeft, natCast64, BitVec.toNat_setWidth, Nat.shiftLeft_eq,
    Nat.mod_eq_of_lt (lt_trans a.isLt (by norm_num))]

theorem dot_split {n : Nat} (u v : Fin n → W) :
    ∑ p : Fin 4, ∑ q : Fin 4, (∑ l, (byte (u l) p).toNat * (byte (v l) q).toNat) * 2 ^ (8 * p.val + 8 * q.val) =
      ∑ l, (u l).toNat * (v l).toNat := by
  have h : ∀ l, (u l).toNat * (v l).toNat = ∑ p : Fin 4, ∑ q : Fin 4,
      (byte (u l) p).toNat * (byte (v l) q).toNat * 2 ^ (8 * p.val + 8 * q.val) := by
    intro l
    conv_lhs => rw [← byte_toNat_sum (u l), ← byte_toNat_sum (v l), Finset.sum_mul_sum]
    apply Finset.sum_congr rfl; intro p _
    apply Finset.sum_congr rfl; intro q _
    rw [pow_add]; ring
  simp only [h]
  conv_rhs => rw [Finset.sum_comm]
  apply Finset.sum_congr rfl; intro p _
  conv_rhs => rw [Finset.sum_comm]
  apply Finset.sum_congr rfl; intro q _
  rw [Finset.sum_mul]

theorem hpmatmulOuterProduct_toNat {m n k : Nat} (x : Fin m → Fin n → W) (y : Fin n → Fin k → W)
    (hn : n * (255 * 255) < 2 ^ 32) (i : Fin m) (j : Fin k) :
    (hpmatmulOuterProduct x y i j).toNat = (∑ l, (x i l).toNat * (y l j).toNat) % 2 ^ 64 := by
  rw [← dot_split (fun l => x i l) (fun l => y l j), ← natCast64]
  apply congrArg BitVec.toNat
  unfold hpmatmulOuterProduct
  rw [Nat.cast_sum]
  apply Finset.sum_congr rfl; intro p _
  rw [Nat.cast_sum]
  apply Finset.sum_congr rfl; intro q _
  rw [setWidth_shift, dot_bytes_toNat _ _ _ _ hn, shiftFactors_eq]

theorem conv_regroup (b c : Fin 4 → Nat) :
    ∑ w : Fin 7, (∑ t : Fin 4, (if h : 3 ≤ w.val + t.val ∧ w.val + t.val < 7 then
        b ⟨w.val + t.val - 3, by omega⟩ else 0) * c (Fin.rev t)) * 2 ^ (8 * w.val) =
      ∑ p : Fin 4, ∑ q : Fin 4, b p * c q * 2 ^ (8 * p.val + 8 * q.val) := by
  have e : ∀ t : Fin 4, Fin.rev t = (3 - t) := by decide
  simp only [Fin.sum_univ_succ, Fin.sum_univ_zero, Fin.val_zero, Fin.val_succ, e]
  simp [Fin.sub_def]
  ring

theorem hpmatmulConv_toNat {m n k : Nat} (x : Fin m → Fin n → W) (y : Fin n → Fin k → W)
    (hn : n * (4 * (255 * 255)) < 2 ^ 32) (i : Fin m) (j : Fin k) :
    (hpmatmulConv x y i j).toNat = (∑ l, (x i l).toNat * (y l j).toNat) % 2 ^ 64 := by
  have hsplit : ∑ l, (x i l).toNat * (y l j).toNat = ∑ w : Fin 7,
      (∑ l, ∑ t : Fin 4, (if h : 3 ≤ w.val + t.val ∧ w.val + t.val < 7 then
        (byte (x i l) ⟨w.val + t.val - 3, by omega⟩).toNat else 0) * (byte (y l j) (Fin.rev t)).toNat) *
        2 ^ (8 * w.val) := by
    rw [← dot_split (fun l => x i l) (fun l => y l j)]
    simp only [Finset.sum_mul]
    conv_lhs =>
      enter [2, p]
      rw [Finset.sum_comm]
    rw [Finset.sum_comm]
    conv_rhs => rw [Finset.sum_comm]
    apply Finset.sum_congr rfl
    intro l _
    rw [← conv_regroup (fun p => (byte (x i l) p).toNat) (fun q => (byte (y l j) q).toNat)]
    simp only [Finset.sum_mul]
  rw [hsplit, ← natCast64]
  apply congrArg BitVec.toNat
  unfold hpmatmulConv
  rw [Nat.cast_sum]
  apply Finset.sum_congr rfl; intro w _
  rw [setWidth_shift]
  congr 2
  have hb : ∀ (l : Fin n) (t : Fin 4),
      ((if h : 3 ≤ w.val + t.val ∧ w.val + t.val < 7 then byte (x i l) ⟨w.val + t.val - 3, by omega⟩
          else 0#32) * byte (y l j) (Fin.rev t)).toNat =
      (if h : 3 ≤ w.val + t.val ∧ w.val + t.val < 7 then
        (byte (x i l) ⟨w.val + t.val - 3, by omega⟩).toNat else 0) * (byte (y l j) (Fin.rev t)).toNat ∧
      (if h : 3 ≤ w.val + t.val ∧ w.val + t.val < 7 then
        (byte (x i l) ⟨w.val + t.val - 3, by omega⟩).toNat else 0) * (byte (y l j) (Fin.rev t)).toNat
        ≤ 255 * 255 := by
    intro l t
    split
    · exact byte_mul_toNat _ _ _ _
    · simp
  have h4 : ∀ l : Fin n, ∑ t : Fin 4,
      (if h : 3 ≤ w.val + t.val ∧ w.val + t.val < 7 then
        (byte (x i l) ⟨w.val + t.val - 3, by omega⟩).toNat else 0) * (byte (y l j) (Fin.rev t)).toNat
        ≤ 4 * (255 * 255) := by
    intro l
    calc _ ≤ ∑ _t : Fin 4, 255 * 255 := Finset.sum_le_sum (fun t _ => (hb l t).2)
      _ = 4 * (255 * 255) := by simp
  have hin : ∀ l : Fin n, (∑ t : Fin 4,
      (if h : 3 ≤ w.val + t.val ∧ w.val + t.val < 7 then byte (x i l) ⟨w.val + t.val - 3, by omega⟩
          else 0#32) * byte (y l j) (Fin.rev t)).toNat = ∑ t : Fin 4,
      (if h : 3 ≤ w.val + t.val ∧ w.val + t.val < 7 then
        (byte (x i l) ⟨w.val + t.val - 3, by omega⟩).toNat else 0) * (byte (y l j) (Fin.rev t)).toNat := by
    intro l
    rw [toNat_sum_of_lt]
    · exact Finset.sum_congr rfl (fun t _ => (hb l t).1)
    · rw [Finset.sum_congr rfl (fun t _ => (hb l t).1)]
      exact lt_of_le_of_lt (h4 l) (by norm_num)
  rw [toNat_sum_of_lt]
  · exact Finset.sum_congr rfl (fun l _ => hin l)
  · rw [Finset.sum_congr rfl (fun l _ => hin l)]
    refine lt_of_le_of_lt ?_ hn
    calc _ ≤ ∑ _l : Fin n, 4 * (255 * 255) := Finset.sum_le_sum (fun l _ => h4 l)
      _ = n * (4 * (255 * 255)) := by simp

/-! ### float kernels -/

theorem toNat_cast_ofInt (n : Nat) : BitVec.ofInt 32 (n : Int) = ((n : Nat) : W) := BitVec.ofInt_natCast _ _

theorem ofInt_cast_toInt (x : W) : ((x.toInt : Int) : W) = x := by
  rw [← ofInt_eq_cast, BitVec.ofInt_toInt]

theorem i32Matmul_eq (fdot : FloatDot) (hf : FloatDotExact fdot) {m k n : Nat} (lhs : Fin m → Fin k → W)
    (rhs : Fin k → Fin n → W) (hk : k * (255 * 255) ≤ 2 ^ 24) (i : Fin m) (j : Fin n) :
    i32Matmul fdot lhs rhs i j = ∑ l, lhs i l * rhs l j := by
  rw [← i32AsU8Matmul_eq (fun l => lhs i l) rhs j]
  unfold i32Matmul i32MatmulUnreduced i32AsU8Matmul
  apply Finset.sum_congr rfl; intro p _
  apply Finset.sum_congr rfl; intro q _
  rw [shiftFactors_eq, Nat.mul_comm p.val 8]
  congr 1
  rw [hf]
  · rw [ofInt_eq_cast, Int.cast_sum]
    apply Finset.sum_congr rfl; intro l _
    rw [Int.cast_mul, Int.cast_natCast, Int.cast_natCast, cast_toNat, cast_toNat]
  · intro l; have := byte_lt (lhs i l) p; rw [abs_of_nonneg (by omega)]; omega
  · intro l; have := byte_lt (rhs l j) q; rw [abs_of_nonneg (by omega)]; omega
  · calc ∑ l, |((byte (lhs i l) p).toNat : Int) * (byte (rhs l j) q).toNat|
        ≤ ∑ _l : Fin k, (255 * 255 : Int) := by
          apply Finset.sum_le_sum
          intro l _
          rw [abs_of_nonneg (by positivity)]
          exact_mod_cast (byte_mul_toNat (lhs i l) (rhs l j) p q).2
      _ = (k * (255 * 255) : Nat) := by simp
      _ ≤ 2 ^ 24 := by exact_mod_cast hk

theorem i32MatmulUnreducedCggi_eq (fdot : FloatDot) (hf : FloatDotExact fdot) {k n : Nat}
    (lhs : Fin 8 → Fin k → W) (rhs : Fin k → Fin n → W) (D : Nat) (hD : D ≤ 256)
    (hr : ∀ l j, |(rhs l j).toInt| ≤ D) (hk : k * (255 * D) ≤ 2 ^ 24)
    (i : Fin 4) (hdup : lhs ⟨4 + i.val, by omega⟩ = lhs ⟨i.val, by omega⟩) (j : Fin n) :
    i32MatmulUnreducedCggi fdot lhs rhs i j = ∑ l, lhs ⟨i.val, by omega⟩ l * rhs l j := by
  unfold i32MatmulUnreducedCggi
  simp only
  have hraw : ∀ t : Fin 4, BitVec.ofInt 32 (fdot k
      (fun l => (byte (lhs (if t.val % 2 = 0 then ⟨i.val, by omega⟩ else ⟨4 + i.val, by omega⟩) l) t).toNat)
      (fun l => (rhs l j).toInt)) = ∑ l, byte (lhs ⟨i.val, by omega⟩ l) t * rhs l j := by
    intro t
    have e : lhs (if t.val % 2 = 0 then ⟨i.val, by omega⟩ else ⟨4 + i.val, by omega⟩) =
        lhs ⟨i.val, by omega⟩ := by split; rfl; exact hdup
    rw [e, hf]
    · rw [ofInt_eq_cast, Int.cast_sum]
      apply Finset.sum_congr rfl; intro l _
      rw [Int.cast_mul, Int.cast_natCast, cast_toNat, ofInt_cast_toInt]
    · intro l; have := byte_lt (lhs ⟨i.val, by omega⟩ l) t; rw [abs_of_nonneg (by omega)]; omega
    · intro l; have := hr l j; omega
    · calc ∑ l, |((byte (lhs ⟨i.val, by omega⟩ l) t).toNat : Int) * (rhs l j).toInt|
          ≤ ∑ _l : Fin k, (255 * D : Int) := by
            apply Finset.sum_le_sum
            intro l _
            rw [abs_mul]
            have := byte_lt (lhs ⟨i.val, by omega⟩ l) t
            apply mul_le_mul _ (hr l j) (abs_nonneg _) (by norm_num)
            rw [abs_of_nonneg (by omega)]; omega
        _ = (k * (255 * D) : Nat) := by simp
        _ ≤ 2 ^ 24 := by exact_mod_cast hk
  simp only [hraw, shiftLeft_eq_mul, Finset.sum_mul]
  rw [Finset.sum_comm]
  apply Finset.sum_congr rfl; intro l _
  conv_rhs => rw [← byte_sum (lhs ⟨i.val, by omega⟩ l), Finset.sum_mul]
  apply Finset.sum_congr rfl; intro t _
  rw [Nat.mul_comm]; ring

theorem toInt_neg_le (a : W) (D : Nat) (hD : D ≤ 256) (h : |a.toInt| ≤ D) : |(-a).toInt| ≤ D := by
  have e : -a = BitVec.ofInt 32 (-a.toInt) := by
    rw [ofInt_eq_cast, Int.cast_neg, ofInt_cast_toInt]
  rw [abs_le] at h
  rw [e, BitVec.toInt_ofInt, Int.bmod_eq_of_le (by norm_num; omega) (by norm_num; omega), abs_le]
  omega

theorem toeplitz_small {n : Nat} (v : Fin n → W) (D : Nat) (hD : D ≤ 256) (h : ∀ i, |(v i).toInt| ≤ D)
    (r c : Fin n) : |(toeplitzKernelized v r c).toInt| ≤ D := by
  unfold toeplitzKernelized
  simp only
  rw [kernelChunk_eq]
  split
  · exact toInt_neg_le _ D hD (h _)
  · exact h _

theorem decomposed_eq (fdot : FloatDot) (hf : FloatDotExact fdot) {b m n : Nat} (hm : m ≤ 4)
    (vec : Fin b → Fin n → W) (mat : Fin b → Fin m → Fin n → W) (D : Nat) (hD : D ≤ 256)
    (hv : ∀ r i, |(vec r i).toInt| ≤ D) (hn : n * (255 * D) ≤ 2 ^ 24) :
    decomposedVectorMatrixPolymul fdot hm vec mat = fun i c => ∑ r, Nega.mul (vec r) (mat r i) c := by
  funext i j
  unfold decomposedVectorMatrixPolymul
  simp only
  apply Finset.sum_congr rfl; intro r _
  have hi := i.isLt
  rw [i32MatmulUnreducedCggi_eq fdot hf _ _ D hD (fun l c => toeplitz_small (vec r) D hD (hv r) l c) hn]
  · unfold Nega.mul
    apply Finset.sum_congr rfl; intro l _
    have h1 : i.val % 4 < m := by omega
    rw [toeplitzKernelized_eq]
    simp only [h1, dif_pos]
    have h2 : (⟨i.val % 4, h1⟩ : Fin m) = i := Fin.ext (by show i.val % 4 = i.val; omega)
    rw [h2]
  · funext c
    simp only [Nat.add_mod_left]

theorem fallback_eq (tpu : Int) {b m n : Nat} (vec : Fin b → Fin n → W) (mat : Fin b → Fin m → Fin n → W) :
    fallbackVectorMatrixPolymul tpu vec mat = fun i c => ∑ r, Nega.mul (vec r) (mat r i) c := by
  funext i c
  unfold fallbackVectorMatrixPolymul polyDotProduct
  simp only [polyMul_eq]

/-! ### BAT -/

theorem bat_ring {R : Type*} [CommRing R] (b c : Fin 4 → R) (B : R) (hB : B ^ 4 = 0) :
    ∑ p : Fin 4, (∑ q : Fin 4, (if q.val ≤ p.val then b (p - q) else 0) * c q) * B ^ p.val =
      (∑ p : Fin 4, b p * B ^ p.val) * ∑ q : Fin 4, c q * B ^ q.val := by
  have e2 : (2 : Fin 4) - 1 = 1 := by decide
  have e3 : (3 : Fin 4) - 1 = 2 := by decide
  have e4 : (3 : Fin 4) - 2 = 1 := by decide
  simp only [Fin.sum_univ_four]
  simp [e2, e3, e4]
  linear_combination (-(b 1 * c 3 + b 2 * c 2 + b 3 * c 1) - (b 2 * c 3 + b 3 * c 2) * B - b 3 * c 3 * B ^ 2) * hB

theorem bat_row (a y : W) :
    ∑ p : Fin 4, (∑ q : Fin 4, batOfflineCompileCggi a p q * byte y q) * 2 ^ (8 * p.val) = a * y := by
  conv_rhs => rw [← byte_sum a, ← byte_sum y]
  have h : ∀ p q : Fin 4, batOfflineCompileCggi a p q = if q.val ≤ p.val then byte a (p - q) else 0 := by
    intro p q
    unfold batOfflineCompileCggi
    split
    · rename_i hle
      rw [roll_of_le _ _ _ hle]
      congr 1
      apply Fin.ext
      rw [Fin.sub_def]
      simp only
      omega
    · rfl
  have h0 : ((2 : W) ^ 8) ^ 4 = 0 := by decide
  simp only [h, pow_mul]
  exact bat_ring (byte a) (byte y) ((2 : W) ^ 8) h0

theorem batMatmul_eq {c m n k : Nat} (mat : Fin c → Fin m → Fin n → W) (y : Fin c → Fin n → Fin k → W)
    (i : Fin m) (j : Fin k) :
    batMatmul (fun r i l => batOfflineCompileCggi (mat r i l)) y i j = ∑ r, ∑ l, mat r i l * y r l j := by
  unfold batMatmul
  apply Finset.sum_congr rfl; intro r _
  rw [Finset.sum_congr rfl (fun l _ => (bat_row (mat r i l) (y r l j)).symm), Finset.sum_comm]
  apply Finset.sum_congr rfl; intro p _
  rw [shiftLeft_eq_mul, Finset.sum_mul]

theorem fromBytes_bat (a : W) : fromBytes (fun p => batOfflineCompileCggi a p 0) = a := by
  unfold fromBytes
  conv_rhs => rw [← byte_sum a]
  apply Finset.sum_congr rfl; intro p _
  rw [shiftLeft_eq_mul]
  congr 1
  unfold batOfflineCompileCggi
  simp only
  rw [if_pos (by simp)]
  have : ((0 : Fin 4).val : Int) = 0 := rfl
  rw [this, roll_zero]

theorem bat_eq (tpu : Int) {b m n : Nat} (vec : Fin b → Fin n → W) (mat : Fin b → Fin m → Fin n → W) :
    negacyclicVectorMatrixPolymulBat tpu vec (fun r i l => batOfflineCompileCggi (mat r i l)) =
      fun i c => ∑ r, Nega.mul (vec r) (mat r i) c := by
  unfold negacyclicVectorMatrixPolymulBat
  split
  · funext i c
    rw [batMatmul_eq]
    unfold Nega.mul
    simp only [toeplitzKernelized_eq]
  · simp only [fromBytes_bat]
    exact fallback_eq tpu vec mat

end Verif.MatrixUtils
