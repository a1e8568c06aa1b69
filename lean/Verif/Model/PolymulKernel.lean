import Verif.Model.MatrixUtils

/-!
# Model of `jaxite/jaxite_cggi/polymul_kernel.py`

The TPU kernels multiply bytes with a `bfloat16 × bfloat16 → float32` dot product. Floating point is not
modelled here: the dot product is a parameter `fdot` (see `FloatDotExact` for the one fact used about it, which
`Model/FloatDot.lean` and C94 supply).
The Pallas grid (see `Model/BatGrid.lean`) and memory placement are not modelled either; a kernel is the function
it computes.
-/

namespace Verif.PolymulKernel
open Verif.MatrixUtils

/-- `lax.dot` of `bfloat16` rows accumulated in `float32` and converted to `int32`. -/
abbrev FloatDot := (n : Nat) → (Fin n → Int) → (Fin n → Int) → Int

/-- What IEEE arithmetic guarantees in any summation order: integers of magnitude at most 256 are exact
in `bfloat16`, their products and all partial sums are exact in `float32` while the sum of the magnitudes
stays within `2^24`. -/
def FloatDotExact (fdot : FloatDot) : Prop :=
  ∀ n (u v : Fin n → Int), (∀ i, |u i| ≤ 256) → (∀ i, |v i| ≤ 256) → ∑ i, |u i * v i| ≤ 2 ^ 24 →
    fdot n u v = ∑ i, u i * v i

/-- `fallback_vector_matrix_polymul`, polymul_kernel.py L17-19: column `j` of the matrix. -/
def fallbackVectorMatrixPolymul (tpu : Int) {b m n : Nat} (vec : Fin b → Fin n → W)
    (mat : Fin b → Fin m → Fin n → W) : Fin m → Fin n → W :=
  fun j => polyDotProduct tpu vec (fun i => mat i j)

/-- `_i32_matmul_unreduced`, polymul_kernel.py L32-59; row `p*m + i` of the `(4m, n)` output. -/
def i32MatmulUnreduced (fdot : FloatDot) {m k n : Nat} (lhs : Fin m → Fin k → W)
    (rhs : Fin k → Fin n → W) (p : Fin 4) (i : Fin m) (j : Fin n) : W :=
  ∑ q : Fin 4, (BitVec.ofInt 32 (fdot k (fun l => (byte (lhs i l) p).toNat)
    (fun l => (byte (rhs l j) q).toNat))) <<< (p.val * 8 + 8 * q.val)

/-- `i32_matmul`, polymul_kernel.py L342-352. -/
def i32Matmul (fdot : FloatDot) {m k n : Nat} (lhs : Fin m → Fin k → W) (rhs : Fin k → Fin n → W) :
    Fin m → Fin n → W :=
  fun i j => ∑ p : Fin 4, i32MatmulUnreduced fdot lhs rhs p i j

/-- `_i32_matmul_unreduced_cggi`, polymul_kernel.py L85-137, for `m = 8` rows (the only caller). Block
`t` of the byte matrix takes byte `t` of rows `0..3` if `t` is even and of rows `4..7` if `t` is odd. -/
def i32MatmulUnreducedCggi (fdot : FloatDot) {k n : Nat} (lhs : Fin 8 → Fin k → W)
    (rhs : Fin k → Fin n → W) : Fin 4 → Fin n → W := fun i j =>
  let lhsRow : Fin 4 → Fin 8 := fun t =>
    if t.val % 2 = 0 then ⟨i.val, by omega⟩ else ⟨4 + i.val, by omega⟩
  let rawOut : Fin 4 → Int := fun t =>
    fdot k (fun l => (byte (lhs (lhsRow t) l) t).toNat) (fun l => (rhs l j).toInt)
  ∑ t : Fin 4, (BitVec.ofInt 32 (rawOut t)) <<< (t.val * 8)

/-- `_decomposed_vector_matrix_polymul`, polymul_kernel.py L140-214. The matrix has at most four
polynomials per row (`jnp.pad` with a negative width is an error otherwise); they are padded with zeros
to four and repeated to make eight rows. -/
def decomposedVectorMatrixPolymul (fdot : FloatDot) {b m n : Nat} (hm : m ≤ 4) (vec : Fin b → Fin n → W)
    (mat : Fin b → Fin m → Fin n → W) : Fin m → Fin n → W := fun i j =>
  let padded : Fin b → Fin 8 → Fin n → W := fun r s c =>
    if h : s.val % 4 < m then mat r ⟨s.val % 4, h⟩ c else 0#32
  ∑ r, i32MatmulUnreducedCggi fdot (padded r) (toeplitzKernelized (vec r)) ⟨i.val, by omega⟩ j

/-- `negacyclic_vector_matrix_polymul`, polymul_kernel.py L217-247. The degree check L231-237 is the
type; a matrix with more than four polynomials per row on the TPU path is an error (see above). -/
def negacyclicVectorMatrixPolymul (tpu : Int) (fdot : FloatDot) {b m n : Nat} (vec : Fin b → Fin n → W)
    (mat : Fin b → Fin m → Fin n → W) (logBase : Nat) : Except String (Fin m → Fin n → W) :=
  if n % 128 = 0 ∧ tpu ≥ 5 ∧ logBase < 8 then
    if hm : m ≤ 4 then .ok (decomposedVectorMatrixPolymul fdot hm vec mat) else .error "ValueError"
  else .ok (fallbackVectorMatrixPolymul tpu vec mat)

/-! ## The BAT variant -/

/-- `bat_offline_compile_cggi`, bootstrap.py L197-217: bytes of the entry as a column, rolled by
0, 1, 2, 3 into four columns, lower triangle. -/
def batOfflineCompileCggi (a : W) (p q : Fin 4) : W :=
  if q.val ≤ p.val then roll (byte a) q.val p else 0#32

/-- `bat_matmul`, polymul_kernel.py L62-82. -/
def batMatmul {c m n k : Nat} (lhs : Fin c → Fin m → Fin n → Fin 4 → Fin 4 → W)
    (y : Fin c → Fin n → Fin k → W) : Fin m → Fin k → W := fun i j =>
  ∑ r, ∑ p : Fin 4, (∑ l, ∑ q : Fin 4, lhs r i l p q * byte (y r l j) q) <<< (8 * p.val)

/-- Reassembles a word from its bytes (`bitcast_convert_type` to `uint32`). -/
def fromBytes (b : Fin 4 → W) : W := ∑ p : Fin 4, b p <<< (8 * p.val)

/-- `negacyclic_vector_matrix_polymul_bat`, polymul_kernel.py L250-334. The TPU path runs a grid of 18
programs, so it is only right for 18 rows; that count is the type parameter here. -/
def negacyclicVectorMatrixPolymulBat (tpu : Int) {b m n : Nat} (vec : Fin b → Fin n → W)
    (mat : Fin b → Fin m → Fin n → Fin 4 → Fin 4 → W) : Fin m → Fin n → W :=
  if n % 128 = 0 ∧ tpu ≥ 5 then batMatmul mat (fun r => toeplitzKernelized (vec r))
  else fallbackVectorMatrixPolymul tpu vec (fun r i c => fromBytes (fun p => mat r i c p 0))

end Verif.PolymulKernel
