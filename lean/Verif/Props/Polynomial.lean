import Verif.Lemmas.PolymulKernel

/-!
# Properties C14 - C16: polynomial products modulo `X^N + 1`

The specification is `Polynomial.modByMonic` of Mathlib applied to the product of the polynomials with the
given coefficient vectors (`Nega.toPoly`).
-/

namespace Verif.Props
open Verif.MatrixUtils Verif.PolymulKernel Verif.Nega Verif.Arith Polynomial

instance : Nontrivial W := ⟨⟨0#32, 1#32, by decide⟩⟩

/-- C14: row `i` of the Toeplitz matrix is the input rolled right `i` times, whatever the length. -/
theorem C14_toeplitz {α : Type*} {n : Nat} (v : Fin n → α) (i j : Fin n) :
    toeplitz v i j = v ⟨(j.val + (n - i.val)) % n, Nat.mod_lt _ (by have := i.isLt; omega)⟩ := by
  rw [toeplitz_eq]
  unfold roll
  congr 1
  apply Fin.ext
  simp only
  have := i.isLt
  have e : (j.val : Int) - i.val = ((j.val + (n - i.val) : Nat) : Int) - n := by omega
  rw [e, Int.sub_emod_right, ← Int.natCast_emod, Int.toNat_natCast]

example := C14_toeplitz ![1#32, 2#32, 3#32, 4#32] 1 2

/-- C14: `poly_mul` (both the TPU and the generic branch) is multiplication modulo `X^N + 1`. -/
theorem C14_poly_mul (tpu : Int) {n : Nat} (hn : 0 < n) (a b : Fin n → W) :
    toPoly (polyMul tpu a b) = (toPoly a * toPoly b) %ₘ (X ^ n + 1) := by
  have h := ev_polyMul tpu a b
  exact (ev_eq_iff_modByMonic hn (polyMul tpu a b) (toPoly a * toPoly b)).1 (by rw [h, map_mul]; rfl)

/-- The theorem at degree 4. -/
example : toPoly (polyMul 5 ![1#32, 2#32, 3#32, 4#32] ![5#32, 6#32, 7#32, 8#32]) =
    (toPoly ![1#32, 2#32, 3#32, 4#32] * toPoly ![5#32, 6#32, 7#32, 8#32]) %ₘ (X ^ 4 + 1) :=
  C14_poly_mul 5 (by decide) _ _

/-- C14: the coefficients of `poly_mul`, spelled out. -/
theorem C14_coefficients (tpu : Int) {n : Nat} (a b : Fin n → W) (k : Fin n) :
    polyMul tpu a b k = ∑ i : Fin n, ∑ j : Fin n,
      if i.val + j.val = k.val then a i * b j
      else if i.val + j.val = k.val + n then -(a i * b j) else 0 := by
  rw [polyMul_eq, Finset.sum_comm]
  unfold Nega.mul
  apply Finset.sum_congr rfl
  intro j _
  have hk := k.isLt
  have hj := j.isLt
  unfold shift
  split
  · rename_i h
    rw [Finset.sum_eq_single ⟨k.val - j.val, by omega⟩]
    · rw [if_pos (by show k.val - j.val + j.val = k.val; omega)]; ring
    · intro i _ hi
      have hi' : i.val ≠ k.val - j.val := fun h => hi (Fin.ext h)
      rw [if_neg (by omega), if_neg (by have := i.isLt; omega)]
    · simp
  · rename_i h
    rw [dif_pos (by omega)]
    rw [Finset.sum_eq_single ⟨n + k.val - j.val, by omega⟩]
    · rw [if_neg (by show ¬ (n + k.val - j.val + j.val = k.val); omega),
        if_pos (by show n + k.val - j.val + j.val = k.val + n; omega)]; ring
    · intro i _ hi
      have hi' : i.val ≠ n + k.val - j.val := fun h => hi (Fin.ext h)
      rw [if_neg (by omega), if_neg (by omega)]
    · simp

/-- C14: `poly_dot_product` is the sum of the products modulo `X^N + 1`. -/
theorem C14_poly_dot_product (tpu : Int) {m n : Nat} (hn : 0 < n) (v w : Fin m → Fin n → W) :
    toPoly (polyDotProduct tpu v w) = (∑ i, toPoly (v i) * toPoly (w i)) %ₘ (X ^ n + 1) := by
  have h := ev_polyDotProduct tpu v w
  refine (ev_eq_iff_modByMonic hn (polyDotProduct tpu v w) _).1 ?_
  rw [h, map_sum]
  exact Finset.sum_congr rfl (fun i _ => by rw [map_mul]; rfl)

example := C14_poly_dot_product 5 (by decide) ![![1#32, 2#32], ![3#32, 4#32], ![5#32, 6#32]] ![![7#32, 8#32], ![9#32, 1#32], ![2#32, 3#32]]

theorem ev_vecmat {b m n : Nat} (vec : Fin b → Fin n → W) (mat : Fin b → Fin m → Fin n → W) (j : Fin m) :
    ev (fun c => ∑ r, Nega.mul (vec r) (mat r j) c) = ∑ r, ev (vec r) * ev (mat r j) := by
  rw [ev_sum Finset.univ (fun r => Nega.mul (vec r) (mat r j))]
  simp only [ev_mul]

/-- C14: `negacyclic_vector_matrix_polymul` returns, in entry `j`, the sum over the rows `r` of
`vec[r] * mat[r][j]` modulo `X^N + 1`, on every branch. The TPU branch needs the digits of the vector to
be bounded by `D ≤ 256` with `N * 255 * D ≤ 2^24` (then the `float32` accumulation is exact), and rejects
matrices with more than four polynomials per row. -/
theorem C14_vector_matrix (tpu : Int) (fdot : FloatDot) (hf : FloatDotExact fdot) {b m n : Nat} (hn : 0 < n)
    (vec : Fin b → Fin n → W) (mat : Fin b → Fin m → Fin n → W) (logBase : Nat) (D : Nat) (hD : D ≤ 256)
    (hv : ∀ r i, |(vec r i).toInt| ≤ D) (hND : n * (255 * D) ≤ 2 ^ 24) :
    (negacyclicVectorMatrixPolymul tpu fdot vec mat logBase = .error "ValueError" ↔
      n % 128 = 0 ∧ tpu ≥ 5 ∧ logBase < 8 ∧ 4 < m) ∧
    ∀ out, negacyclicVectorMatrixPolymul tpu fdot vec mat logBase = .ok out →
      ∀ j, toPoly (out j) = (∑ r, toPoly (vec r) * toPoly (mat r j)) %ₘ (X ^ n + 1) := by
  have key : ∀ j, toPoly (fun c => ∑ r, Nega.mul (vec r) (mat r j) c) =
      (∑ r, toPoly (vec r) * toPoly (mat r j)) %ₘ (X ^ n + 1) := by
    intro j
    refine (ev_eq_iff_modByMonic hn _ _).1 ?_
    rw [ev_vecmat, map_sum]
    exact Finset.sum_congr rfl (fun i _ => by rw [map_mul]; rfl)
  unfold negacyclicVectorMatrixPolymul
  constructor
  · split
    · rename_i h
      split
      · simp; omega
      · simp; omega
    · rename_i h
      simp only [reduceCtorEq, false_iff]; tauto
  · intro out
    split
    · split
      · rw [decomposed_eq fdot hf _ vec mat D hD hv hND]
        intro h j
        cases h
        exact key j
      · simp
    · rw [fallback_eq]
      intro h j
      cases h
      exact key j

/-- The magnitude condition holds for the library's parameters: degree 512, digits of base 16 (at most
16 in magnitude, see `C13_range_partial`), and base 128. -/
example : 512 * (255 * 16) ≤ 2 ^ 24 ∧ 512 * (255 * 128) ≤ 2 ^ 24 ∧ (16 : Nat) ≤ 256 ∧
    FloatDotExact (fun _ u v => ∑ i, u i * v i) :=
  ⟨by decide, by decide, by decide, fun _ _ _ _ _ _ => rfl⟩

/-- C14: the byte-expanded ("BAT") kernel computes the same product from the expanded matrix, on both
branches, with no condition on magnitudes. -/
theorem C14_vector_matrix_bat (tpu : Int) {b m n : Nat} (hn : 0 < n)
    (vec : Fin b → Fin n → W) (mat : Fin b → Fin m → Fin n → W) (j : Fin m) :
    toPoly (negacyclicVectorMatrixPolymulBat tpu vec (fun r i l => batOfflineCompileCggi (mat r i l)) j) =
      (∑ r, toPoly (vec r) * toPoly (mat r j)) %ₘ (X ^ n + 1) := by
  rw [bat_eq]
  refine (ev_eq_iff_modByMonic hn _ _).1 ?_
  rw [ev_vecmat, map_sum]
  exact Finset.sum_congr rfl (fun i _ => by rw [map_mul]; rfl)

example := C14_vector_matrix_bat 5 (by decide) ![![1#32, 2#32], ![3#32, 4#32]]
  ![![![7#32, 8#32], ![9#32, 1#32], ![2#32, 3#32]], ![![7#32, 8#32], ![9#32, 1#32], ![2#32, 3#32]]] 2

/-- C15: `i32_as_u8_matmul` is the ordinary product modulo `2^32`, all shapes, no condition. -/
theorem C15_i32_as_u8_matmul {n k : Nat} (lhs : Fin n → W) (rhs : Fin n → Fin k → W) (j : Fin k) :
    (i32AsU8Matmul lhs rhs j).toNat = (∑ i, (lhs i).toNat * (rhs i j).toNat) % 2 ^ 32 := by
  rw [i32AsU8Matmul_eq, ← Decomposition.toNat_natCast]
  apply congrArg BitVec.toNat
  rw [Nat.cast_sum]
  exact Finset.sum_congr rfl (fun i _ => by
    rw [Nat.cast_mul, Decomposition.cast_toNat, Decomposition.cast_toNat])

/-- C15: the outer-product `hpmatmul` is the exact product modulo `2^64` while the `uint32` accumulator
cannot overflow (inner dimension below 66052). -/
theorem C15_hpmatmul_outer {m n k : Nat} (x : Fin m → Fin n → W) (y : Fin n → Fin k → W)
    (hn : n * (255 * 255) < 2 ^ 32) (i : Fin m) (j : Fin k) :
    (hpmatmulOuterProduct x y i j).toNat = (∑ l, (x i l).toNat * (y l j).toNat) % 2 ^ 64 :=
  hpmatmulOuterProduct_toNat x y hn i j

/-- C15: the convolution `hpmatmul` likewise (up to four byte products per accumulator and entry). -/
theorem C15_hpmatmul_conv {m n k : Nat} (x : Fin m → Fin n → W) (y : Fin n → Fin k → W)
    (hn : n * (4 * (255 * 255)) < 2 ^ 32) (i : Fin m) (j : Fin k) :
    (hpmatmulConv x y i j).toNat = (∑ l, (x i l).toNat * (y l j).toNat) % 2 ^ 64 :=
  hpmatmulConv_toNat x y hn i j

example : 66051 * (255 * 255) < 2 ^ 32 ∧ 16512 * (4 * (255 * 255)) < 2 ^ 32 := by decide

/-- C15: the float-accumulated byte kernel `i32_matmul` is the product modulo `2^32` when the inner
dimension is at most 258 (no `float32` rounding can occur). -/
theorem C15_i32_matmul (fdot : FloatDot) (hf : FloatDotExact fdot) {m k n : Nat} (lhs : Fin m → Fin k → W)
    (rhs : Fin k → Fin n → W) (hk : k * (255 * 255) ≤ 2 ^ 24) (i : Fin m) (j : Fin n) :
    (i32Matmul fdot lhs rhs i j).toNat = (∑ l, (lhs i l).toNat * (rhs l j).toNat) % 2 ^ 32 := by
  rw [i32Matmul_eq fdot hf lhs rhs hk, ← C15_i32_as_u8_matmul (fun l => lhs i l) rhs j, i32AsU8Matmul_eq]

example : 258 * (255 * 255) ≤ 2 ^ 24 := by decide

/-- C15: the byte-expanded product with the offline-compiled left matrix is the product modulo `2^32`. -/
theorem C15_bat_matmul {c m n k : Nat} (mat : Fin c → Fin m → Fin n → W) (y : Fin c → Fin n → Fin k → W)
    (i : Fin m) (j : Fin k) :
    (batMatmul (fun r i l => batOfflineCompileCggi (mat r i l)) y i j).toNat =
      (∑ r, ∑ l, (mat r i l).toNat * (y r l j).toNat) % 2 ^ 32 := by
  rw [batMatmul_eq, ← Decomposition.toNat_natCast]
  apply congrArg BitVec.toNat
  rw [Nat.cast_sum]
  refine Finset.sum_congr rfl (fun r _ => ?_)
  rw [Nat.cast_sum]
  exact Finset.sum_congr rfl (fun i _ => by
    rw [Nat.cast_mul, Decomposition.cast_toNat, Decomposition.cast_toNat])

/-- C16: `monomial_mul(p, d)` is `p * X^d` modulo `X^N + 1`: for every integer `d` and every natural
number `k` congruent to `d` modulo `2N`. -/
theorem C16_monomial_mul {n : Nat} (hn : 0 < n) (p : Fin n → W) (d : Int) (k : Nat)
    (hk : (k : Int) % (2 * n) = d % (2 * n)) :
    toPoly (monomialMul p d 32) = (X ^ k * toPoly p) %ₘ (X ^ n + 1) := by
  refine (ev_eq_iff_modByMonic hn _ _).1 ?_
  rw [ev_monomialMul hn, map_mul, map_pow, AdjoinRoot.mk_X]
  show _ = Nega.x W n ^ k * ev p
  congr 1
  apply x_pow_congr
  rw [← hk]
  have : ((k : Int) % (2 * n)).toNat = k % (2 * n) := by
    have e : ((k : Int) % (2 * n)) = ((k % (2 * n) : Nat) : Int) := by push_cast; rfl
    rw [e, Int.toNat_natCast]
  rw [this, Nat.mod_mod]

example := C16_monomial_mul (by decide) ![1#32, 2#32, 3#32] (-1) 5 (by decide)

/-- C16: with a smaller coefficient modulus the same coefficients are reduced modulo `2^log`. -/
theorem C16_monomial_mul_log {n : Nat} (p : Fin n → W) (d : Int) (log : Nat) (h0 : 0 < log) (h1 : log ≤ 32)
    (i : Fin n) : (monomialMul p d log i).toNat = (monomialMul p d 32 i).toNat % 2 ^ log := by
  unfold monomialMul
  simp only [modIfSmall_32]
  unfold modIfSmall
  rcases Nat.lt_or_ge log 32 with h | h
  · rw [if_pos ⟨h0, h⟩, BitVec.toNat_umod, BitVec.toNat_ofNat,
      Nat.mod_eq_of_lt (Nat.pow_lt_pow_right (by norm_num : 1 < 2) h)]
  · have : log = 32 := by omega
    subst this
    rw [if_neg (by omega), Nat.mod_eq_of_lt (BitVec.isLt _)]

/-- A modulus of `2^20` and a degree beyond `n`. -/
example : (monomialMul ![1#32, 0x12345678#32] 3 20 0).toNat =
    (monomialMul ![1#32, 0x12345678#32] 3 32 0).toNat % 2 ^ 20 :=
  C16_monomial_mul_log _ 3 20 (by decide) (by decide) 0

/-- C16: negative exponents. Passing `-k` as a wrapped `uint32` divides by `X^k`, if `2N` divides `2^32`:
multiplying the result by `X^k` gives the polynomial back. -/
theorem C16_negative {n : Nat} (hn : 0 < n) (h2 : 2 * n ∣ 2 ^ 32) (p : Fin n → W) (k : W) :
    (X ^ k.toNat * toPoly (monomialMul p ((-k).toNat : Int) 32)) %ₘ (X ^ n + 1) = toPoly p := by
  symm
  refine (ev_eq_iff_modByMonic hn _ _).1 ?_
  rw [map_mul, map_pow, AdjoinRoot.mk_X]
  show _ = Nega.x W n ^ k.toNat * ev (monomialMul p ((-k).toNat : Int) 32)
  rw [ev_monomialMul hn]
  have e : (((-k).toNat : Int) % (2 * n)).toNat = (-k).toNat % (2 * n) := by
    have : (((-k).toNat : Int) % (2 * n)) = (((-k).toNat % (2 * n) : Nat) : Int) := by push_cast; rfl
    rw [this, Int.toNat_natCast]
  rw [e, x_pow_mod, ← mul_assoc, ← pow_add, ← x_pow_mod]
  have : (k.toNat + (-k).toNat) % (2 * n) = 0 := by
    have h1 : (k.toNat + (-k).toNat) % 2 ^ 32 = 0 := by
      rw [← BitVec.toNat_add, add_neg_cancel]; rfl
    exact Nat.mod_eq_zero_of_dvd (h2.trans (Nat.dvd_of_mod_eq_zero h1))
  rw [this, pow_zero, one_mul]

example : 0 < 512 ∧ 2 * 512 ∣ 2 ^ 32 := by decide

/-- C16: period `2N`. -/
theorem C16_period {n : Nat} (p : Fin n → W) (d : Int) (j : Int) (log : Nat) :
    monomialMul p (d + 2 * n * j) log = monomialMul p d log ∧
    scaleByXPowerNMinus1 (d + 2 * n * j) p log = scaleByXPowerNMinus1 d p log := by
  have : (d + 2 * n * j) % (2 * n) = d % (2 * n) := Int.add_mul_emod_self_left ..
  constructor
  · unfold monomialMul; rw [this]
  · unfold scaleByXPowerNMinus1; rw [this]

/-- C16: `scale_by_x_power_n_minus_1(d, p)` is `p * (X^d - 1)` modulo `X^N + 1`. -/
theorem C16_scale {n : Nat} (hn : 0 < n) (p : Fin n → W) (d : Int) (k : Nat)
    (hk : (k : Int) % (2 * n) = d % (2 * n)) :
    toPoly (scaleByXPowerNMinus1 d p 32) = ((X ^ k - 1) * toPoly p) %ₘ (X ^ n + 1) := by
  refine (ev_eq_iff_modByMonic hn _ _).1 ?_
  rw [ev_scaleBy hn, map_mul, map_sub, map_pow, map_one, AdjoinRoot.mk_X]
  show _ = (Nega.x W n ^ k - 1) * ev p
  congr 2
  apply x_pow_congr
  rw [← hk]
  have : ((k : Int) % (2 * n)).toNat = k % (2 * n) := by
    have e : ((k : Int) % (2 * n)) = ((k % (2 * n) : Nat) : Int) := by push_cast; rfl
    rw [e, Int.toNat_natCast]
  rw [this, Nat.mod_mod]

example : ((5 : Nat) : Int) % (2 * (3 : Nat)) = (-1 : Int) % (2 * (3 : Nat)) ∧
    monomialMul ![1#32, 2#32, 3#32] (-1) 32 = ![2#32, 3#32, -1#32] := by decide

/-- C16: `x_power_n_minus_1` is the coefficient vector of `X^e - 1` modulo `X^N + 1`. -/
theorem C16_x_power_n_minus_1 {n : Nat} (hn : 0 < n) (e : Nat) :
    toPoly (xPowerNMinus1 e n) = ((X : ℤ[X]) ^ e - 1) %ₘ (X ^ n + 1) := by
  refine (ev_eq_iff_modByMonic hn _ _).1 ?_
  rw [map_sub, map_pow, map_one, AdjoinRoot.mk_X]
  show _ = Nega.x ℤ n ^ e - 1
  unfold xPowerNMinus1
  simp only
  rw [ev_sub]
  have h1 : ev (fun i : Fin n => if i.val = 0 then (1 : ℤ) else 0) = 1 := by
    rw [ev_eq, Finset.sum_eq_single ⟨0, hn⟩]
    · simp [cst_one]
    · intro i _ hi
      rw [if_neg (fun h => hi (Fin.ext h)), cst_zero, zero_mul]
    · simp
  have h2 : ev (fun i : Fin n => if i.val = e % (2 * n) % n then (-1 : ℤ) ^ (e % (2 * n) / n) else 0) =
      Nega.x ℤ n ^ e := by
    rw [ev_eq, Finset.sum_eq_single ⟨e % (2 * n) % n, Nat.mod_lt _ hn⟩]
    · rw [if_pos rfl]
      conv_rhs => rw [← x_pow_mod e, ← Nat.mod_add_div (e % (2 * n)) n, pow_add, pow_mul, x_pow_N]
      have : cst n ((-1 : ℤ) ^ (e % (2 * n) / n)) = (-1) ^ (e % (2 * n) / n) := by
        unfold cst; rw [map_pow, map_neg, map_one]
      rw [this]; ring
    · intro i _ hi
      rw [if_neg (fun h => hi (Fin.ext h)), cst_zero, zero_mul]
    · simp
  rw [h1, h2]

example := C16_x_power_n_minus_1 (n := 4) (by decide) 7

end Verif.Props
