import Verif.Model.PolymulKernel

/-!
# The Pallas grid of `negacyclic_vector_matrix_polymul_bat`

polymul_kernel.py L250-334. The kernel `_toeplitz_chunk` is launched with `grid=(18,)`, whatever the number of rows
of the vector, and writes block `i` of an array that Pallas does not initialise. `Model/PolymulKernel.lean` has the
function for a grid that fits; here is the grid.

What a step outside the array reads and writes is not documented (interpret mode clamps the block index, other
backends differ), so it is an argument. The steps may run in any order (`dimension_semantics=("parallel",)`).
-/

namespace Verif.BatGrid
open Verif.MatrixUtils Verif.PolymulKernel

/-- What the backend does for a block index outside an array of `b` blocks: what it reads, and which block, if any,
it overwrites. -/
structure OutOfRange (b n : Nat) where
  read : Nat → Fin n → W
  write : Nat → Option (Fin b)

/-- One step of the grid, polymul_kernel.py L286-312: the Toeplitz matrix of row `i` is written to block `i`. -/
def gridStep {b n : Nat} (oob : OutOfRange b n) (vec : Fin b → Fin n → W) (out : Fin b → Fin n → Fin n → W) (i : Nat) :
    Fin b → Fin n → Fin n → W :=
  if h : i < b then Function.update out ⟨i, h⟩ (toeplitzKernelized (vec ⟨i, h⟩))
  else match oob.write i with
    | none => out
    | some r => Function.update out r (toeplitzKernelized (oob.read i))

/-- `pl.pallas_call(_toeplitz_chunk, grid=(18,), …)`, polymul_kernel.py L315-326: `steps` is the order in which the
steps run and `junk` the array that Pallas allocates. -/
def toeplitzList {b n : Nat} (oob : OutOfRange b n) (steps : List Nat) (junk : Fin b → Fin n → Fin n → W)
    (vec : Fin b → Fin n → W) : Fin b → Fin n → Fin n → W :=
  steps.foldl (gridStep oob vec) junk

/-- `negacyclic_vector_matrix_polymul_bat`, polymul_kernel.py L250-334. -/
def negacyclicVectorMatrixPolymulBat (tpu : Int) {b m n : Nat} (oob : OutOfRange b n) (steps : List Nat)
    (junk : Fin b → Fin n → Fin n → W) (vec : Fin b → Fin n → W)
    (mat : Fin b → Fin m → Fin n → Fin 4 → Fin 4 → W) : Fin m → Fin n → W :=
  if n % 128 = 0 ∧ tpu ≥ 5 then batMatmul mat (toeplitzList oob steps junk vec)
  else fallbackVectorMatrixPolymul tpu vec (fun r i c => fromBytes (fun p => mat r i c p 0))

end Verif.BatGrid
