import Verif.Model.Bootstrap

/-!
# The polynomial products of `jaxite_cggi` with and without 64-bit types

The other models of `jaxite_cggi` fix 32-bit lanes (`jax_enable_x64` off, JAX's default). The flag is one
per process, and five modules of the repository switch it on when they are imported. Here the products are
modelled again with the flag as an argument and the width of every array made explicit: Python's `int` as
an array type, and the sum of a signed and an unsigned 32-bit array, are 64 bits wide when the flag is on
and 32 bits wide when it is off.

JAX decides shapes while tracing, before it looks at any data, so each function is a check followed by a
value. The kernels of `pallas` (`_decomposed_vector_matrix_polymul`, `toeplitz_kernelized`) convert their
inputs to `int32` and build their indices as `int32`; their values are taken from the 32-bit models.
-/

namespace Verif.X64
open Verif.Arith Verif.MatrixUtils Verif.PolymulKernel Verif.Decomposition Verif.Rlwe Verif.Rgsw

/-- The modules of the repository that a program may import. The five named ones contain a call
`jax.config.update("jax_enable_x64", True)`; `other` stands for the rest. -/
inductive Module where
  | ckksNtt | ckksBasisConversion | ckksBatUtils | ecFiniteField | ecRnsModReduce | other
  deriving DecidableEq

/-- Whether importing the module alone runs `jax.config.update("jax_enable_x64", True)`: ntt.py L14,
basis_conversion.py L14, bat_utils.py L7 (`jaxite_ckks`), finite_field.py L42, algorithm/rns_mod_reduce.py
L12 (`jaxite_ec`). -/
def Module.setsX64 : Module → Bool
  | .other => false
  | _ => true

/-- The flag after a sequence of imports, from JAX's default `False`. Nothing in the repository switches
it off again. -/
def flagAfter (imports : List Module) : Bool :=
  imports.foldl (fun flag m => if m.setsX64 then true else flag) false

/-- Width of an array of type `int` (matrix_utils.py L651-652), and of the result of an operation on an
`int` and a `uint32` array or on an `int32` and a `uint32` array (JAX promotes both to `int64`, which is
`int32` while the flag is off). -/
def wide (x64 : Bool) : Nat := if x64 then 64 else 32

/-- The shapes of `i32_as_u8_matmul`, matrix_utils.py L82-100: `int32_to_int8_arr` (L66-70) adds an axis
of one byte per eight bits, the products have shape `(k, wl / 8, wr / 8)`, and `<<` combines them with
`shift_factors` of shape `(4, 4)`. JAX raises `TypeError` if an axis differs from 4. (An axis of length one
would be broadcast; the callers have 32 or 64 bits, hence four or eight bytes.) -/
def matmulCheck (wl wr : Nat) : Except String Unit :=
  if wl / 8 = 4 ∧ wr / 8 = 4 then .ok () else .error "TypeError"

/-- The value of `i32_as_u8_matmul`, matrix_utils.py L73-100, on arrays with four bytes per entry: the
products are accumulated in `uint32` (L85-90), the shift by an `int32` array and the sum are `wide`. -/
def matmulValue (x64 : Bool) {n k : Nat} (lhs : Fin n → W) (rhs : Fin n → Fin k → W) :
    Fin k → BitVec (wide x64) := fun j =>
  ∑ p : Fin 4, ∑ q : Fin 4,
    ((∑ i, byte (lhs i) p * byte (rhs i j) q).setWidth (wide x64)) <<< shiftFactors p q

/-- The matrix `multiplier.transpose() * toeplitz(a)` of matrix_utils.py L749-750: an `int` array times a
`uint32` array. -/
def leftMatrix (x64 : Bool) {n : Nat} (a : Fin n → W) : Fin n → Fin n → BitVec (wide x64) := fun i j =>
  BitVec.ofInt (wide x64) (generateSignMatrix n j i) * (toeplitz a i j).setWidth (wide x64)

/-- Width of the right factor of the product in `toeplitz_poly_mul`, matrix_utils.py L739-751: the kernel
of the first branch is given `a.astype(jnp.int32)`. -/
def rightWidth (x64 : Bool) (tpuVersion : Int) (n : Nat) : Nat :=
  if n % 128 = 0 ∧ tpuVersion ≥ 5 then 32 else wide x64

/-- Tracing `toeplitz_poly_mul` / `poly_mul`, matrix_utils.py L739-758, on `uint32` polynomials. -/
def polyMulCheck (x64 : Bool) (tpuVersion : Int) (n : Nat) : Except String Unit :=
  matmulCheck 32 (rightWidth x64 tpuVersion n)

/-- The value of `toeplitz_poly_mul`, matrix_utils.py L739-751, once it can be traced. (When the second
branch can be traced its matrix has 32-bit entries, and the truncation here is the identity.) -/
def polyMulValue (x64 : Bool) (tpuVersion : Int) {n : Nat} (a b : Fin n → W) : Fin n → BitVec (wide x64) :=
  if n % 128 = 0 ∧ tpuVersion ≥ 5 then matmulValue x64 b (toeplitzKernelized a)
  else matmulValue x64 b (fun i j => (leftMatrix x64 a i j).setWidth 32)

/-- `poly_mul`, matrix_utils.py L754-758. -/
def polyMul (x64 : Bool) (tpuVersion : Int) {n : Nat} (a b : Fin n → W) :
    Except String (Fin n → BitVec (wide x64)) := do
  polyMulCheck x64 tpuVersion n
  pure (polyMulValue x64 tpuVersion a b)

/-- `poly_dot_product`, matrix_utils.py L840-844: `vmap` traces the product once, whatever the number of
polynomials; the sum keeps the width and `.astype(jnp.uint32)` takes the low 32 bits. -/
def polyDotProduct (x64 : Bool) (tpuVersion : Int) {m n : Nat} (v w : Fin m → Fin n → W) :
    Except String (Fin n → W) := do
  polyMulCheck x64 tpuVersion n
  pure (fun c => (∑ i, polyMulValue x64 tpuVersion (v i) (w i) c).setWidth 32)

/-- `rlwe.jit_encrypt`, rlwe.py L148-170; everything after the product is `uint32`. -/
def rlweEncrypt (x64 : Bool) (be : Backend) {k n : Nat} (plaintext : Fin n → W)
    (keyData aiSamples : Fin k → Fin n → W) (errorSample : Fin n → W) (logCoefficientModulus : Nat) :
    Except String (Fin (k + 1) → Fin n → W) := do
  let dotProd ← polyDotProduct x64 be.tpu aiSamples keyData
  let cleanProduct : Fin n → W := fun i => dotProd i + plaintext i
  let obfuscatedProduct : Fin n → W := fun i => modLog (cleanProduct i + errorSample i) logCoefficientModulus
  pure (Fin.snoc (α := fun _ => Fin n → W) aiSamples obfuscatedProduct)

/-- `rlwe.decrypt`, rlwe.py L173-188. -/
def rlweDecrypt (x64 : Bool) (be : Backend) {k n : Nat} (ct : Fin (k + 1) → Fin n → W)
    (sk : RlweSecretKey k n) (p : Encoding.EncodingParameters) : Except String (Fin n → W) := do
  let dotProd ← polyDotProduct x64 be.tpu (fun i => ct i.castSucc) sk.data
  pure (fun i => Encoding.removeNoise
    (modLog (ct (Fin.last k) i - dotProd i) sk.logCoefficientModulus) p)

/-- `encrypt_and_modify_one_row`, rgsw.py L216-242, on `uint32` plaintexts. -/
def encryptRow (x64 : Bool) (be : Backend) {k n : Nat} (aiSamples : Fin k → Fin n → W) (errorSample : W)
    (level : Nat) (block : Fin (k + 1)) (plaintext : W) (rlweSk : Fin k → Fin n → W)
    (logBase logCoefficientModulus : Nat) : Except String (Fin (k + 1) → Fin n → W) := do
  let decomposedPt := plaintext <<< (logCoefficientModulus - logBase * level)
  let rlweZero ← rlweEncrypt x64 be (fun _ => 0) rlweSk aiSamples (fun _ => errorSample)
    logCoefficientModulus
  pure (fun p c => if p = block ∧ c.val = 0 then rlweZero p c + decomposedPt else rlweZero p c)

/-- `gen_bootstrapping_key`, bootstrap.py L38-229. The odd dimension is rejected first; then
`rgsw.jit_encrypt` (rgsw.py L153-264) is traced, which traces the product of `encrypt_and_modify_one_row`;
after that the entries are those of the 32-bit model (`X64.encryptRow` is the row it computes). -/
def genBootstrappingKey (x64 : Bool) (be : Backend) {d k n : Nat} (lweSk : Lwe.LweSecretKey d)
    (rlweSk : RlweSecretKey k n) (dp : DecompositionParameters)
    (aiSamples : Nat → Fin (k + 1) → Fin dp.levelCount → Fin k → Fin n → W)
    (errorSamples : Nat → Fin (k + 1) → Fin dp.levelCount → W) (useBmmp useBat : Bool) :
    Except String (Bootstrap.BootstrappingKey ((k + 1) * dp.levelCount) k n) := do
  if d % 2 ≠ 0 then throw "ValueError"
  polyMulCheck x64 be.tpu n
  Bootstrap.genBootstrappingKey be lweSk rlweSk dp aiSamples errorSamples useBmmp useBat

/-- `fallback_vector_matrix_polymul`, polymul_kernel.py L17-19: one `poly_dot_product` per column. -/
def fallbackVectorMatrixPolymul (x64 : Bool) (tpu : Int) {b m n : Nat} (vec : Fin b → Fin n → W)
    (mat : Fin b → Fin m → Fin n → W) : Except String (Fin m → Fin n → W) := do
  polyMulCheck x64 tpu n
  pure (fun j c => (∑ i, polyMulValue x64 tpu (vec i) (mat i j) c).setWidth 32)

/-- `negacyclic_vector_matrix_polymul`, polymul_kernel.py L217-247. The first branch is a kernel on
`int32` arrays, taken from the 32-bit model. -/
def negacyclicVectorMatrixPolymul (x64 : Bool) (tpu : Int) (fdot : FloatDot) {b m n : Nat}
    (vec : Fin b → Fin n → W) (mat : Fin b → Fin m → Fin n → W) (logBase : Nat) :
    Except String (Fin m → Fin n → W) :=
  if n % 128 = 0 ∧ tpu ≥ 5 ∧ logBase < 8 then
    PolymulKernel.negacyclicVectorMatrixPolymul tpu fdot vec mat logBase
  else fallbackVectorMatrixPolymul x64 tpu vec mat

/-- `jit_external_product`, bootstrap.py L395-412, without the byte layout (`use_bat=False`). -/
def jitExternalProduct (x64 : Bool) (be : Backend) {k n : Nat} (dp : DecompositionParameters)
    (rgswCt : Fin ((k + 1) * dp.levelCount) → Fin (k + 1) → Fin n → W) (ct : Fin (k + 1) → Fin n → W) :
    Except String (Fin (k + 1) → Fin n → W) :=
  negacyclicVectorMatrixPolymul x64 be.tpu be.fdot (Bootstrap.decomposeRlweCiphertext ct dp) rgswCt
    dp.logBase

/-- `jit_cmux`, bootstrap.py L469-485: one rotation step of `jit_blind_rotate`. -/
def jitCmux (x64 : Bool) (be : Backend) {k n : Nat} (dp : DecompositionParameters)
    (control : Fin ((k + 1) * dp.levelCount) → Fin (k + 1) → Fin n → W)
    (eqZero neqZero : Fin (k + 1) → Fin n → W) : Except String (Fin (k + 1) → Fin n → W) := do
  let e ← jitExternalProduct x64 be dp control (fun p c => neqZero p c - eqZero p c)
  pure (fun p c => eqZero p c + e p c)

end Verif.X64
