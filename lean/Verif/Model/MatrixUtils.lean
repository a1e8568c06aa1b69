import Verif.Model.Arith

/-!
# Model of `jaxite/jaxite_cggi/matrix_utils.py` and `polymul_kernel.py` (integer parts)

A polynomial of degree `< n` is its coefficient vector `Fin n → W`, lowest degree first. 32-bit lanes are
assumed (`jax_enable_x64` off), so the products of a signed sign matrix with `uint32` data are 32-bit
words; two's complement makes signed and unsigned words interchangeable for `+`, `-`, `*`, `<<`.
XLA defines a left shift by 32 or more as zero, which is what `BitVec` does.
-/

namespace Verif.MatrixUtils
open Verif.Arith

/-- `jnp.roll(x, s)` along an axis of length `n`: entry `r` of the result is entry `(r - s) mod n`. -/
def roll {α : Type*} {n : Nat} (x : Fin n → α) (s : Int) : Fin n → α := fun r =>
  x ⟨(((r.val : Int) - s) % n).toNat, by
    have := r.isLt
    have h0 := Int.emod_nonneg ((r.val : Int) - s) (b := (n : Int)) (by omega)
    have h1 := Int.emod_lt_of_pos ((r.val : Int) - s) (b := (n : Int)) (by omega)
    omega⟩

/-! ## Byte-split products -/

/-- `int32_to_int8_arr`, matrix_utils.py L67-70 (`bitcast_convert_type` to `uint8`, little endian);
byte `p` widened back to a word. -/
def byte (x : W) (p : Fin 4) : W := (x >>> (8 * p.val)) &&& 0xFF#32

/-- The constant `shift_factors`, matrix_utils.py L91-99. -/
def shiftFactors : Fin 4 → Fin 4 → Nat :=
  ![![0, 8, 16, 24], ![8, 16, 24, 32], ![16, 24, 32, 40], ![24, 32, 40, 48]]

/-- `i32_as_u8_matmul`, matrix_utils.py L73-100, shapes `(n,)` and `(n, k)`; the shape check at L76-80
is the type. -/
def i32AsU8Matmul {n k : Nat} (lhs : Fin n → W) (rhs : Fin n → Fin k → W) : Fin k → W := fun j =>
  ∑ p : Fin 4, ∑ q : Fin 4, (∑ i, byte (lhs i) p * byte (rhs i j) q) <<< shiftFactors p q

/-- `hpmatmul_conv_adapt_outer_product`, matrix_utils.py L103-134: products are accumulated in `uint32`,
then widened to `uint64` before shifting and adding. -/
def hpmatmulOuterProduct {m n k : Nat} (x : Fin m → Fin n → W) (y : Fin n → Fin k → W) :
    Fin m → Fin k → BitVec 64 := fun i j =>
  ∑ p : Fin 4, ∑ q : Fin 4,
    ((∑ l, byte (x i l) p * byte (y l j) q).setWidth 64) <<< shiftFactors p q

/-- `hpmatmul_conv_adapt_conv`, matrix_utils.py L138-201: cross-correlation of the bytes of `x` (padded
by 3 zeros on both sides) with the reversed bytes of `y`, output positions `w < 7`. -/
def hpmatmulConv {m n k : Nat} (x : Fin m → Fin n → W) (y : Fin n → Fin k → W) :
    Fin m → Fin k → BitVec 64 := fun i j =>
  ∑ w : Fin 7,
    ((∑ l, ∑ t : Fin 4,
        (if h : 3 ≤ w.val + t.val ∧ w.val + t.val < 7 then byte (x i l) ⟨w.val + t.val - 3, by omega⟩
          else 0#32) * byte (y l j) (Fin.rev t)).setWidth 64) <<< (8 * w.val)

/-! ## Toeplitz matrices -/

/-- `_generate_sign_matrix`, matrix_utils.py L648-653: `tril(ones, 0) - triu(ones, 1)`. -/
def generateSignMatrix (n : Nat) (i j : Fin n) : Int :=
  (if j.val ≤ i.val then 1 else 0) + (if i.val + 1 ≤ j.val then 1 else 0) * -1

/-- The recursion of `toeplitz`, matrix_utils.py L674-682, on an `n × m` matrix `x` (columns with number
`≥ m` are not part of the data). Doubles the number of columns until there are at least `n`, then
returns the transpose of the first `n` columns. -/
def toeplitzAux {α : Type*} {n : Nat} (x : Fin n → Nat → α) (m : Nat) (hm : 0 < m) :
    Fin n → Fin n → α :=
  if h : n ≤ m then fun i j => x j i.val
  else
    toeplitzAux (fun r c => if c < m then x r c else roll (fun r' => x r' (c - m)) m r) (2 * m) (by omega)
termination_by n - m

/-- `toeplitz`, matrix_utils.py L656-682, on a vector. -/
def toeplitz {α : Type*} {n : Nat} (x : Fin n → α) : Fin n → Fin n → α :=
  toeplitzAux (fun r _ => x r) 1 (by omega)

/-- Non-TPU branch of `toeplitz_poly_mul`, matrix_utils.py L746-751. -/
def toeplitzPolyMul {n : Nat} (a b : Fin n → W) : Fin n → W :=
  let leftMatrix : Fin n → Fin n → W := fun i j =>
    BitVec.ofInt 32 (generateSignMatrix n j i) * toeplitz a i j
  i32AsU8Matmul b leftMatrix

/-- The rolled chunk of `_toeplitz` in `toeplitz_kernelized`, matrix_utils.py L713-732, before row block
`blk`: a strided roll (row `r0` rolled by `r0`), then `blk` rolls by 128. -/
def kernelChunk {n : Nat} (v : Fin n → W) : Nat → Nat → Fin n → W
  | 0, r0 => roll v r0
  | blk + 1, r0 => roll (kernelChunk v blk r0) 128

/-- `toeplitz_kernelized`, matrix_utils.py L685-735 (and the identical code in polymul_kernel.py
L174-193 and L288-309): row `r = 128*blk + r0`. -/
def toeplitzKernelized {n : Nat} (v : Fin n → W) : Fin n → Fin n → W := fun r c =>
  let chunk := kernelChunk v (r.val / 128) (r.val % 128)
  if r.val > c.val then -chunk c else chunk c

/-- `toeplitz_poly_mul`, matrix_utils.py L739-751, with the TPU version as argument. -/
def polyMul (tpuVersion : Int) {n : Nat} (a b : Fin n → W) : Fin n → W :=
  if n % 128 = 0 ∧ tpuVersion ≥ 5 then i32AsU8Matmul b (toeplitzKernelized a)
  else toeplitzPolyMul a b

/-- `poly_dot_product`, matrix_utils.py L840-844. -/
def polyDotProduct (tpuVersion : Int) {m n : Nat} (v w : Fin m → Fin n → W) : Fin n → W :=
  fun c => ∑ i, polyMul tpuVersion (v i) (w i) c

/-! ## Monomial products -/

/-- The reduction `if 0 < log_modulus < 32: mod`, matrix_utils.py L811-812 and L876-877. -/
def modIfSmall (y : W) (logModulus : Nat) : W :=
  if 0 < logModulus ∧ logModulus < 32 then y % BitVec.ofNat 32 (2 ^ logModulus) else y

/-- `monomial_mul`, matrix_utils.py L761-813. `degree` is the integer value of the `uint32` or `int32`
argument (JAX `%` by a positive modulus is non-negative). -/
def monomialMul {n : Nat} (poly : Fin n → W) (degree : Int) (logModulus : Nat) : Fin n → W :=
  let deg := degree % (2 * n)
  let shift := deg % n
  let flip : Bool := (deg / n) % 2 = 1
  let rolled := roll poly deg
  let rolled : Fin n → W := fun i => if flip then -rolled i else rolled i
  let output : Fin n → W := fun i => if (i.val : Int) < shift then -rolled i else rolled i
  fun i => modIfSmall (output i) logModulus

/-- One polynomial of `scale_by_x_power_n_minus_1`, matrix_utils.py L847-879 (the function acts on the
last axis of a 3-dimensional array). -/
def scaleByXPowerNMinus1 {n : Nat} (power : Int) (row : Fin n → W) (logModulus : Nat) : Fin n → W :=
  let pow := power % (2 * n)
  let shift := pow % n
  let flip : Bool := (pow / n) % 2 = 1
  let rolled := roll row shift
  let rolled : Fin n → W := fun i => if flip then -rolled i else rolled i
  let part : Fin n → W := fun i => if (i.val : Int) < shift then -rolled i else rolled i
  fun i => modIfSmall (part i - row i) logModulus

/-- `x_power_n_minus_1`, matrix_utils.py L44-64, as 32-bit words. -/
def xPowerNMinus1 (n : Nat) (polyModDeg : Nat) : Fin polyModDeg → Int :=
  let degree := n % (2 * polyModDeg)
  let flip := degree / polyModDeg
  let reduced := degree % polyModDeg
  fun i => (if i.val = reduced then (-1) ^ flip else 0) - (if i.val = 0 then 1 else 0)

end Verif.MatrixUtils
