import Verif.Model.Lwe

/-!
# Model of the parameter check of `jaxite/jaxite_cggi/test_utils.py`
-/

namespace Verif.TestUtils
open Verif.Arith

/-- `assert_safe_modulus_switch`, test_utils.py L57-90: `sqrt(1 + lwe_dimension)` is compared with
`0.5 * mod_degree / 2**message_bits`. Squares of both sides are compared here; the rounding of `math.sqrt`
is not modelled (the right side is exact, and the square root of a number below `2^52` that is not above a
representable number is not rounded above it). -/
def assertSafeModulusSwitch (modDegree messageBits lweDimension : Nat) : Except String Unit :=
  if (1 + lweDimension) * (2 * 2 ^ messageBits) ^ 2 ≤ modDegree ^ 2 then .ok () else .error "AssertionError"

/-- `MidBootstrapDecrypter.decrypt` for `"approx_ciphertext"`, test_utils.py L147-173: the message of a
modulus-switched ciphertext (`log_output_modulus = log_mod_degree + 1`). -/
def cleartextPostModSwitch {n : Nat} (modulusSwitched : Fin (n + 1) → W) (keyData : Fin n → W)
    (logModDegree messageBits paddingBits : Nat) : Except String W := do
  let logOutputModulus := logModDegree + 1
  let p ← Encoding.mkParams logOutputModulus messageBits paddingBits
  pure (Encoding.decode (Lwe.decryptWithoutDenoising modulusSwitched ⟨logOutputModulus, keyData⟩) p)

end Verif.TestUtils
