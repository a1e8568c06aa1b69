import Verif.Model.Rlwe

/-!
# Model of the choice of the multiplication by device

`jax_helpers.get_tpu_version` and its use in `matrix_utils.py` and `polymul_kernel.py`. Strings are lists of characters.
-/

namespace Verif.Device
open Verif.Arith Verif.MatrixUtils Verif.PolymulKernel

/-- `needle in s`. -/
def contains (needle : List Char) : List Char → Bool
  | [] => needle.isEmpty
  | c :: s => needle.isPrefixOf (c :: s) || contains needle s

/-- `int(c)` for one character. Decimal digits of other scripts, which `int` also reads, are not modelled. -/
def intOfChar (c : Char) : Except String Int :=
  if '0'.toNat ≤ c.toNat ∧ c.toNat ≤ '9'.toNat then .ok ((c.toNat - '0'.toNat : Nat) : Int) else .error "ValueError"

/-- `get_tpu_version`, jax_helpers.py L98-106, with the device kinds of `jax.devices()` as input. -/
def getTpuVersion (devices : List (List Char)) : Except String Int :=
  match devices with
  | [] => .error "IndexError"
  | kind :: _ =>
    if contains "TPU".toList kind = false then .ok (-1)
    else
      let kind := if " lite".toList.isSuffixOf kind then kind.take (kind.length - " lite".toList.length) else kind
      if kind.dropLast ≠ "TPU v".toList then .error "AssertionError"
      else
        match kind.getLast? with
        | none => .error "IndexError"
        | some c => intOfChar c

/-- `toeplitz_poly_mul`, matrix_utils.py L738-752, on a machine with the given devices. -/
def devicePolyMul (devices : List (List Char)) {n : Nat} (a b : Fin n → W) : Except String (Fin n → W) := do
  let tpuVersion ← getTpuVersion devices
  pure (polyMul tpuVersion a b)

/-- `negacyclic_vector_matrix_polymul`, polymul_kernel.py L214-249, on a machine with the given devices and the float dot
product `fdot` of their matrix unit. -/
def vectorMatrixPolymul (devices : List (List Char)) (fdot : FloatDot) {b m n : Nat} (vec : Fin b → Fin n → W)
    (mat : Fin b → Fin m → Fin n → W) (logBase : Nat) : Except String (Fin m → Fin n → W) := do
  let tpuVersion ← getTpuVersion devices
  negacyclicVectorMatrixPolymul tpuVersion fdot vec mat logBase

end Verif.Device
