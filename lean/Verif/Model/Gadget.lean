import Verif.Model.Rlwe
import Mathlib.Data.Rat.Floor

/-!
# Model of `gadget_matrix` and `inverse_gadget` of `jaxite/jaxite_cggi/decomposition.py` (L270-347)

The `float32` entries are rationals and sums and products of them are exact. For `inverse_gadget` that is what happens:
the only floating-point operations are a product with a power of two and `jnp.rint`. The entries of the gadget matrix are
powers of two, taken as exact. The conversion of a `float32` to `uint32` is a parameter, because XLA leaves it open for
negative numbers.
-/

namespace Verif.Gadget
open Verif.Decomposition Verif.Rgsw

/-- `jnp.rint`, decomposition.py L343: to the nearest integer, ties to the even one. -/
def rint (x : ℚ) : ℤ :=
  if Int.fract x < 1 / 2 then ⌊x⌋
  else if 1 / 2 < Int.fract x then ⌊x⌋ + 1
  else if ⌊x⌋ % 2 = 0 then ⌊x⌋ else ⌊x⌋ + 1

/-- `jnp.kron(jnp.identity(vector_length), powers)` with `powers` of shape `(levels, 1)`, decomposition.py L318-321: entry
`(r, c)` is `identity[r // levels, c] * powers[r % levels, 0]`. -/
def kron (vectorLength levels : Nat) (powers : Nat → ℚ) : List (List ℚ) :=
  (List.range (vectorLength * levels)).map fun r =>
    (List.range vectorLength).map fun c => (if r / levels = c then 1 else 0) * powers (r % levels)

/-- `.T` of a matrix with `rows` rows and `cols` columns. -/
def transpose (rows cols : Nat) (m : List (List ℚ)) : List (List ℚ) :=
  (List.range cols).map fun c => (List.range rows).map fun r => (m.getD r []).getD c 0

/-- `gadget_matrix`, decomposition.py L270-321. -/
def gadgetMatrix (dp : DecompositionParameters) (vectorLength : Nat) (total : Nat := 32) : Except String (List (List ℚ)) :=
  let base := 2 ^ dp.logBase
  let levels := dp.levelCount
  if 2 ^ total % base ^ levels ≠ 0 then .error "ValueError"
  else .ok (transpose (vectorLength * levels) vectorLength
    (kron vectorLength levels fun l => (1 / (base : Nat) : ℚ) ^ (l + 1)))

/-- `inverse_gadget`, decomposition.py L324-347; `conv` is `.astype(jnp.uint32)` on integer-valued floats. -/
def inverseGadget (conv : ℤ → W) (vector : List ℚ) (dp : DecompositionParameters) (total : Nat := 32) : List W :=
  let base := 2 ^ dp.logBase
  let levels := dp.levelCount
  let scaled := vector.map fun v => v * ((base : Nat) : ℚ) ^ levels
  let scaledRounded := scaled.map fun v => conv (rint v)
  scaledRounded.flatMap fun x => List.ofFn (decompose x dp.logBase levels total)

/-- `decomposed.dot(gadget_matrix.T)`, the expression of the documentation, decomposition.py L290: entry `j` is the product
with row `j` of the gadget matrix. -/
def apply (digits : List W) (gadget : List (List ℚ)) : List ℚ :=
  gadget.map fun row => (List.zipWith (fun (d : W) g => (d.toNat : ℚ) * g) digits row).sum

/-- `inverse_gadget(v).dot(gadget_matrix.T)`, with the same parameters for both. -/
def roundTrip (conv : ℤ → W) (vector : List ℚ) (dp : DecompositionParameters) (total : Nat) : Except String (List ℚ) := do
  let g ← gadgetMatrix dp vector.length total
  pure (apply (inverseGadget conv vector dp total) g)

end Verif.Gadget
