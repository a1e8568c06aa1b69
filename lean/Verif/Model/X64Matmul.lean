import Verif.Model.MatrixBat
import Verif.Model.X64

/-!
# The `hpmatmul` products with and without 64-bit types

Three functions of `jaxite/jaxite_cggi/matrix_utils.py` convert their accumulators to `uint64` (L134, L201, L627) before
they shift and add them. No module of `jaxite_cggi` enables 64-bit types; while they are off the conversion gives `uint32`
and the shifts and the sum are 32 bits wide. The models here take the flag as an argument.
-/

namespace Verif.X64Matmul
open Verif.Arith Verif.MatrixUtils
open Verif.X64 (wide)

/-- `hpmatmul_conv_adapt_outer_product`, matrix_utils.py L103-134. -/
def hpmatmulOuter (x64 : Bool) {m n k : Nat} (x : Fin m → Fin n → W) (y : Fin n → Fin k → W) :
    Fin m → Fin k → BitVec (wide x64) := fun i j =>
  ∑ p : Fin 4, ∑ q : Fin 4,
    ((∑ l, byte (x i l) p * byte (y l j) q).setWidth (wide x64)) <<< shiftFactors p q

/-- `hpmatmul_conv_adapt_conv`, matrix_utils.py L138-201. -/
def hpmatmulConv (x64 : Bool) {m n k : Nat} (x : Fin m → Fin n → W) (y : Fin n → Fin k → W) :
    Fin m → Fin k → BitVec (wide x64) := fun i j =>
  ∑ w : Fin 7,
    ((∑ l, ∑ t : Fin 4,
        (if h : 3 ≤ w.val + t.val ∧ w.val + t.val < 7 then byte (x i l) ⟨w.val + t.val - 3, by omega⟩
          else 0#32) * byte (y l j) (Fin.rev t)).setWidth (wide x64)) <<< (8 * w.val)

/-- `hpmatmul_bat_adapt`, matrix_utils.py L615-627, for one output entry (see `MatrixBat.batAdapt`). -/
def batAdapt (x64 : Bool) (n : Nat) (lhs : Nat → Nat → Nat → Nat) (y : Nat → Nat) : Nat :=
  (∑ p ∈ Finset.range 4,
    ((Int.bmod (∑ l ∈ Finset.range n, ∑ t ∈ Finset.range 4, (lhs l p t : Int) * ((y l / 256 ^ t % 256 : Nat) : Int)) (2 ^ 32))
      % 2 ^ wide x64).toNat * 2 ^ (8 * p) % 2 ^ wide x64) % 2 ^ wide x64

end Verif.X64Matmul
