import Verif.Lemmas.FloatDot
import Verif.Props.Polynomial
import Verif.Props.Session

/-!
# Property C94: the floating-point accumulation of the TPU kernels
-/

namespace Verif.Props
open Verif.PolymulKernel Verif.FloatDot Polynomial Verif.Nega

/-- C94: whatever the order in which a `float32` dot product of `bfloat16` values adds its products, it is exact
as long as the values are at most 256 and the products add up to at most `2^24` in magnitude. -/
theorem C94_exact (order : (n : Nat) → Order n) (ho : ∀ n, (order n).Complete) : FloatDotExact (floatDot order) := by
  intro n u v hu hv hs
  unfold floatDot
  have hsum : ∀ f : Fin n → Int, ((order n).leaves.map f).sum = ∑ i, f i := fun f => by
    rw [((ho n).map f).sum_eq, ← List.ofFn_eq_map, List.sum_ofFn]
  rw [eval_eq u v hu hv _ (by rw [hsum]; exact hs), hsum]

/-- C94: so on a TPU the kernel `negacyclic_vector_matrix_polymul` returns the vector-matrix product modulo `X^N + 1`
for every order of accumulation, when the digits `|d| ≤ D ≤ 256` satisfy `N * 255 * D ≤ 2^24`. -/
theorem C94_vector_matrix (tpu : Int) (order : (n : Nat) → Order n) (ho : ∀ n, (order n).Complete)
    {b m n : Nat} (hn : 0 < n) (vec : Fin b → Fin n → W) (mat : Fin b → Fin m → Fin n → W) (logBase : Nat)
    (hm : m ≤ 4) (D : Nat) (hD : D ≤ 256) (hv : ∀ r i, |(vec r i).toInt| ≤ D) (hND : n * (255 * D) ≤ 2 ^ 24) :
    ∃ out, negacyclicVectorMatrixPolymul tpu (floatDot order) vec mat logBase = .ok out ∧
      ∀ j, toPoly (out j) = (∑ r, toPoly (vec r) * toPoly (mat r j)) %ₘ (X ^ n + 1) := by
  obtain ⟨h1, h2⟩ := C14_vector_matrix tpu (floatDot order) (C94_exact order ho) hn vec mat logBase D hD hv hND
  rcases h : negacyclicVectorMatrixPolymul tpu (floatDot order) vec mat logBase with err | out
  · exfalso
    have : err = "ValueError" := by
      unfold negacyclicVectorMatrixPolymul at h
      split at h
      · simp at h
      · simp at h
    rw [this] at h
    have := (h1.1 h).2.2.2
    omega
  · exact ⟨out, rfl, h2 out h⟩

/-- C94: `i32_matmul` is the product modulo `2^32` for every order of accumulation when the inner dimension is at
most 258. -/
theorem C94_i32_matmul (order : (n : Nat) → Order n) (ho : ∀ n, (order n).Complete) {m k n : Nat}
    (lhs : Fin m → Fin k → W) (rhs : Fin k → Fin n → W) (hk : k ≤ 258) (i : Fin m) (j : Fin n) :
    (i32Matmul (floatDot order) lhs rhs i j).toNat = (∑ l, (lhs i l).toNat * (rhs l j).toNat) % 2 ^ 32 :=
  C15_i32_matmul (floatDot order) (C94_exact order ho) lhs rhs (by omega) i j

/-- C94, the bound is sharp: with inner dimension 259, accumulated from left to right, `i32_matmul` of two
vectors of 255 is wrong. -/
theorem C94_i32_matmul_259 :
    (leftToRight 259).Complete ∧
    (i32Matmul (floatDot leftToRight) (m := 1) (k := 259) (n := 1) (fun _ _ => 255#32) (fun _ _ => 255#32) 0 0).toNat ≠
      (∑ _l : Fin 259, 255 * 255) % 2 ^ 32 :=
  ⟨leftToRight_complete 259, by decide +kernel⟩

/-- C94: sessions with the test parameters on a TPU, for every order of accumulation. -/
theorem C94_session {σ : Type} (tpu : Int) (order : (n : Nat) → Order n) (ho : ∀ n, (order n).Complete)
    (lweRng rlweRng encRng : Session.RandomSource σ)
    (h1 : SourceOk lweRng 10) (h2 : SourceOk rlweRng 10) (h3 : SourceOk encRng 10)
    (bits : List Bool) (c : JaxiteBool.Circuit) (hin : Session.inputsBelow bits.length c = true) (b : Bool)
    (hb : evalPlain (fun i => bits.getD i false) c = some b) (s : σ) :
    ∃ s', Session.session ⟨tpu, floatDot order⟩ Session.getParamsForTest lweRng rlweRng encRng bits c s = .ok (b, s') :=
  C74_test_parameters ⟨tpu, floatDot order⟩ (fun _ => C94_exact order ho) lweRng rlweRng encRng h1 h2 h3 bits c hin b hb s

/-- The vector of one polynomial with digits 63, except the first, which is 62. -/
def digits63 (n : Nat) : Fin 1 → Fin n → W := fun _ i => if i.val = 0 then 62#32 else 63#32

theorem digits63_coeff (n : Nat) (last : Fin n) (hlast : last.val + 1 = n) :
    Nega.mul (digits63 n 0) (fun _ => 255#32) last = (n : W) * (255#32 * 63#32) - 255#32 := by
  unfold Nega.mul
  have h1 : ∀ i : Fin n, 255#32 * Nega.shift i.val (digits63 n 0) last =
      255#32 * 63#32 - (if i = last then 255#32 else 0) := by
    intro i
    have hi := i.isLt
    unfold Nega.shift digits63
    rw [dif_pos (by omega)]
    by_cases h : i = last
    · rw [if_pos h, if_pos (by show last.val - i.val = 0; rw [h]; omega)]; decide
    · rw [if_neg h, if_neg (by
        show ¬ last.val - i.val = 0
        intro hc
        exact h (Fin.ext (by omega)))]
      decide
  rw [Finset.sum_congr rfl (fun i _ => h1 i), Finset.sum_sub_distrib, Finset.sum_const, Finset.card_univ,
    Fintype.card_fin, Finset.sum_ite_eq' Finset.univ last (fun _ => 255#32), if_pos (Finset.mem_univ _),
    nsmul_eq_mul]

theorem wrong_of_coeff {n : Nat} (hn : 0 < n) (a : Fin n → W) (u : Fin 1 → Fin n → W) (v : Fin 1 → Fin 1 → Fin n → W)
    (c : Fin n) (hc : a c ≠ Nega.mul (u 0) (v 0 0) c) :
    toPoly a ≠ (∑ r, toPoly (u r) * toPoly (v r 0)) %ₘ (X ^ n + 1) := by
  intro h
  have h' := (ev_eq_iff_modByMonic hn _ _).2 h
  rw [map_sum, Fin.sum_univ_one, map_mul] at h'
  exact hc (congrFun (ev_injective hn (h'.trans (ev_mul (u 0) (v 0 0)).symm)) c)

/-- With matrix entries 255 only the lowest bytes are added. -/
theorem kernel_low_bytes (fdot : FloatDot) (n : Nat) (h0 : ∀ v : Fin n → Int, fdot n (fun _ => 0) v = 0)
    (vec : Fin 1 → Fin n → W) (j : Fin n) :
    decomposedVectorMatrixPolymul fdot (by norm_num : 1 ≤ 4) vec (fun _ _ _ => 255#32) 0 j =
      BitVec.ofInt 32 (fdot n (fun _ => 255) (fun l => (MatrixUtils.toeplitzKernelized (vec 0) l j).toInt)) := by
  unfold decomposedVectorMatrixPolymul
  simp only [Fin.sum_univ_one]
  unfold i32MatmulUnreducedCggi
  have b0 : ((MatrixUtils.byte 255#32 0).toNat : Int) = 255 := by decide
  have b1 : ((MatrixUtils.byte 255#32 1).toNat : Int) = 0 := by decide
  have b2 : ((MatrixUtils.byte 255#32 2).toNat : Int) = 0 := by decide
  have b3 : ((MatrixUtils.byte 255#32 3).toNat : Int) = 0 := by decide
  simp [Fin.sum_univ_four, b0, b1, b2, b3, h0]

/-- C94: the check `decomposition_log_base < 8` does not keep the accumulation exact for every degree. With degree
2048 and base 128 there are digits, at most 63, and a matrix such that on a TPU the product is wrong in every
order of accumulation. -/
theorem C94_check_insufficient (order : (n : Nat) → Order n) {n : Nat} (hn : n = 2048) :
    ∃ (vec : Fin 1 → Fin n → W) (mat : Fin 1 → Fin 1 → Fin n → W) (out : Fin 1 → Fin n → W),
      (∀ r i, |(vec r i).toInt| ≤ 63) ∧
      negacyclicVectorMatrixPolymul 5 (floatDot order) vec mat 7 = .ok out ∧
      toPoly (out 0) ≠ (∑ r, toPoly (vec r) * toPoly (mat r 0)) %ₘ (X ^ n + 1) := by
  refine ⟨digits63 n, fun _ _ _ => 255#32, decomposedVectorMatrixPolymul (floatDot order) (by norm_num) (digits63 n)
    (fun _ _ _ => 255#32), ?_, ?_, ?_⟩
  · intro r i
    unfold digits63
    split <;> decide
  · unfold negacyclicVectorMatrixPolymul
    rw [if_pos (by rw [hn]; decide), dif_pos (by decide)]
  · refine wrong_of_coeff (by omega) _ (digits63 n) (fun _ _ _ => 255#32) ⟨n - 1, by omega⟩ (fun e2 => ?_)
    rw [digits63_coeff n _ (by show n - 1 + 1 = n; omega),
      kernel_low_bytes (floatDot order) n (fun v => eval_zero v (order n))] at e2
    have e3 := congrArg BitVec.toNat e2
    have hodd := floatDot_odd order n (fun _ => 255)
      (fun l => (MatrixUtils.toeplitzKernelized (digits63 n 0) l ⟨n - 1, by omega⟩).toInt)
    generalize floatDot order n (fun _ => 255)
      (fun l => (MatrixUtils.toeplitzKernelized (digits63 n 0) l ⟨n - 1, by omega⟩).toInt) = r at e3 hodd
    have hN : ((n : W) * (255#32 * 63#32) - 255#32).toNat = 32900865 := by rw [hn]; decide
    rw [BitVec.toNat_ofInt, hN] at e3
    have e4 : r % ((2 ^ 32 : Nat) : Int) = 32900865 := by
      have := Int.emod_nonneg r (show ((2 ^ 32 : Nat) : Int) ≠ 0 by norm_num)
      omega
    have h1 : r % 2 = 1 := by push_cast at e4; omega
    have := abs_lt.1 (hodd h1)
    push_cast at e4
    omega

example := C94_check_insufficient leftToRight (n := 2048) rfl

/-- Two complete orders for three products. -/
example : (leftToRight 3).Complete ∧ (Order.add (.leaf 2) (.add (.leaf 0) (.leaf 1)) : Order 3).Complete :=
  ⟨leftToRight_complete 3, by unfold Order.Complete; decide⟩

example (vec : Fin 18 → Fin 512 → W) (mat : Fin 18 → Fin 3 → Fin 512 → W) (hv : ∀ r i, |(vec r i).toInt| ≤ (16 : Nat)) :=
  C94_vector_matrix 5 leftToRight leftToRight_complete (by norm_num) vec mat 4 (by norm_num) 16 (by norm_num) hv (by norm_num)

example (lhs : Fin 8 → Fin 128 → W) (rhs : Fin 128 → Fin 128 → W) :=
  C94_i32_matmul leftToRight leftToRight_complete lhs rhs (by norm_num)

/-- The order matters beyond the bound: the same products, added in two ways. -/
example : ∃ u : Fin 3 → Int, f32 (f32 (u 0 + u 1) + u 2) ≠ f32 (u 0 + f32 (u 1 + u 2)) :=
  ⟨![2 ^ 24, 1, 1], by decide +kernel⟩

/-- C94: the rounding of the model is to a nearest number of `p` significant bits, and to the even one of two
nearest. -/
theorem C94_rounding (p : Nat) (x : Int) :
    ∃ m : Int, roundBits p x = m * 2 ^ (x.natAbs.size - p) ∧
      2 * |roundBits p x - x| ≤ 2 ^ (x.natAbs.size - p) ∧
      (2 * |roundBits p x - x| = 2 ^ (x.natAbs.size - p) → m % 2 = 0) := by
  unfold roundBits
  simp only
  have hu : (0 : Int) < 2 ^ (x.natAbs.size - p) := by positivity
  generalize (2 : Int) ^ (x.natAbs.size - p) = u at hu ⊢
  have hx := Int.mul_ediv_add_emod x u
  have h0 := Int.emod_nonneg x hu.ne'
  have h1 := Int.emod_lt_of_pos x hu
  generalize x / u = q at hx ⊢
  generalize x % u = r at hx h0 h1 ⊢
  have down : q * u - x = -r := by rw [← hx]; ring
  have up : (q + 1) * u - x = u - r := by rw [← hx]; ring
  split
  · refine ⟨q, rfl, ?_⟩
    rw [down, abs_neg, abs_of_nonneg h0]
    exact ⟨by omega, fun h => by omega⟩
  · split
    · refine ⟨q + 1, rfl, ?_⟩
      rw [up, abs_of_nonneg (by omega)]
      exact ⟨by omega, fun h => by omega⟩
    · split
      · refine ⟨q, rfl, ?_⟩
        rw [down, abs_neg, abs_of_nonneg h0]
        exact ⟨by omega, fun _ => by assumption⟩
      · refine ⟨q + 1, rfl, ?_⟩
        rw [up, abs_of_nonneg (by omega)]
        exact ⟨by omega, fun _ => by omega⟩

/-- Both directions of a tie: 257 and 259 have nine bits. -/
example : bf16 257 = 256 ∧ bf16 259 = 260 ∧ bf16 (-257) = -256 := by decide +kernel

end Verif.Props
