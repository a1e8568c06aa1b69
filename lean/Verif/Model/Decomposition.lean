import Verif.Model.Arith

/-!
# Model of `jaxite/jaxite_cggi/decomposition.py` (integer part)

`gadget_matrix` and `inverse_gadget` (L270-347) are in `Model/Gadget.lean`.
-/

namespace Verif.Decomposition

/-- `decompose`, decomposition.py L34-86: digit number `i` (`0 ≤ i < num_levels`). Shift amounts are
computed in `uint32` by the code; here they are natural numbers, which agrees as long as
`num_levels * base_log ≤ total_bit_length` (the hypothesis of all theorems). -/
def decompose (x : W) (baseLog numLevels total : Nat) : Fin numLevels → W :=
  let mask : W := BitVec.ofNat 32 (((1 <<< baseLog) - 1) <<< (total - baseLog))
  fun i => (x &&& (mask >>> (i.val * baseLog))) >>> (total - (1 + i.val) * baseLog)

/-- `recomposition_summands`, decomposition.py L94-126. -/
def recompositionSummands (x : W) (baseLog numLevels total : Nat) : Fin numLevels → W :=
  fun i => x <<< (total - (1 + i.val) * baseLog)

/-- `recompose`, decomposition.py L131-149. -/
def recompose {numLevels : Nat} (digits : Fin numLevels → W) (baseLog total : Nat) : W :=
  ∑ i, digits i <<< (total - (1 + i.val) * baseLog)

/-- One iteration of the loop of `signed_decomposition`, decomposition.py L190-209: returns the signed
digit (as a `uint32` bit pattern) and the next carry. -/
def signedStep (x : W) (baseLog i : Nat) (carry : W) : W × W :=
  let base : W := BitVec.ofNat 32 (1 <<< baseLog)
  let digitMask := base - 1#32
  let threshold : W := BitVec.ofNat 32 (1 <<< (baseLog - 1))
  let unsignedDigit := ((x >>> (i * baseLog)) &&& digitMask) + carry
  let carryMask := unsignedDigit &&& threshold
  let signedDigit := unsignedDigit - (carryMask <<< 1)
  (signedDigit, carryMask >>> (baseLog - 1))

/-- The carry entering iteration `i`. -/
def carryAt (x : W) (baseLog : Nat) : Nat → W
  | 0 => 0#32
  | i + 1 => (signedStep x baseLog i (carryAt x baseLog i)).2

/-- `result[i]` after the loop of `signed_decomposition`, decomposition.py L190-209. -/
def signedResult (x : W) (baseLog i : Nat) : W := (signedStep x baseLog i (carryAt x baseLog i)).1

/-- `signed_decomposition`, decomposition.py L155-213: `jnp.flip(result)[:num_levels]`; entry `l` is
`result[len(result) - 1 - l]`, most significant digit first. -/
def signedDecomposition (x : W) (baseLog numLevels : Nat) (total : Nat := 32) : Fin numLevels → W :=
  fun l => signedResult x baseLog (total / baseLog - 1 - l.val)

end Verif.Decomposition
