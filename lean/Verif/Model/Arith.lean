import Mathlib.Data.BitVec
import Mathlib.Algebra.BigOperators.Fin

/-!
# `uint32` helpers shared by the `jaxite_cggi` model

`integer_div` from `matrix_utils.py`, and the reduction used when a modulus below `2^32` is chosen.
-/

namespace Verif

/-- The JAX type `uint32`. -/
abbrev W := BitVec 32

namespace Arith

/-- `integer_div`, matrix_utils.py L15-41, one entry: every operation is on `uint32`. -/
def integerDiv (values divisor : W) : W :=
  let quotientFloor := values / divisor
  let roundedFractionalPart := ((values % divisor) + divisor / 2#32) / divisor
  quotientFloor + roundedFractionalPart

/-- `x % (jnp.uint32(2) ** log)` applied only if `log < 32`, the pattern of lwe.py L74-75, L86-88 and
rlwe.py L164-166, L180-181. -/
def modLog (x : W) (log : Nat) : W :=
  if log < 32 then x % BitVec.ofNat 32 (2 ^ log) else x

end Arith
end Verif
