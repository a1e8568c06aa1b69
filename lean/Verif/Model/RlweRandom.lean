import Verif.Model.Session

/-!
# Model of the public functions of `rlwe.py`, `rgsw.py`, `bootstrap.py` and `key_switch.py` (`jaxite/jaxite_cggi`)
on objects and random sources

The array functions are in `Rlwe` and `Bootstrap`; here are the functions around them, which draw the samples and
wrap the arrays. The degree of the data of a ciphertext and its attribute `modulus_degree` are the same for the
functions below, except in `RgswCiphertext` (see there).
-/

namespace Verif.RlweRandom
open Verif.Arith Verif.Rlwe Verif.Rgsw Verif.Bootstrap Verif.Session Verif.Helpers

/-- `NormalOnlyRng`, random_source.py L184-211: zeros instead of uniform samples. -/
def normalOnlySource {σ : Type} (randint : Int → Int → σ → Int × σ) (normal : Int → σ → Int × σ) (normalStd : Int) :
    RandomSource σ :=
  { uniform := fun s => (0, s), roundedNormal := normal normalStd, skUniform := randint 0 1 }

/-- `ConstantUniformRng`, random_source.py L214-239: `jnp.ones(shape, dtype) * const_uniform`, for constants that fit
in the type. -/
def constantUniformSource {σ : Type} (randint : Int → Int → σ → Int × σ) (normal : Int → σ → Int × σ)
    (constUniform : Nat) (normalStd : Int) : RandomSource σ :=
  { uniform := fun s => (constUniform, s), roundedNormal := normal normalStd, skUniform := randint 0 1 }

/-- `rlwe.encrypt`, rlwe.py L122-145. -/
def rlweEncrypt {σ : Type} (be : Backend) {k n : Nat} (message : Fin n → W) (sk : RlweSecretKey k n)
    (prg : RandomSource σ) : Draw σ (RlweCiphertext k) := do
  let ai ← sample prg.uniform [k, n]
  let er ← sample prg.roundedNormal [n]
  pure ⟨sk.logCoefficientModulus, n, Rlwe.jitEncrypt be message sk.data (fun i c => word ai [i.val, c.val])
    (fun c => word er [c.val]) sk.logCoefficientModulus⟩

/-- `RgswCiphertext`, rgsw.py L38-58. The data has the degree of the key it was made with, the attribute
`modulus_degree` is that of the plaintext object. -/
structure RgswCiphertext (rows k n : Nat) where
  message : Fin rows → Fin (k + 1) → Fin n → W
  logCoefficientModulus : Nat
  modulusDegree : Nat

/-- `rgsw.encrypt`, rgsw.py L109-150, of the plaintext object with the given `message` and `modulus_degree`. -/
def rgswEncrypt {σ : Type} (be : Backend) {k n : Nat} (message : W) (modulusDegree : Nat) (sk : RlweSecretKey k n)
    (dp : DecompositionParameters) (prg : RandomSource σ) : Draw σ (RgswCiphertext ((k + 1) * dp.levelCount) k n) := do
  let ai ← sample prg.uniform [k + 1, dp.levelCount, k, n]
  let er ← sample prg.roundedNormal [k + 1, dp.levelCount]
  pure ⟨Rgsw.jitEncrypt be message sk.data dp (fun p l i c => word ai [p.val, l.val, i.val, c.val])
    (fun p l => word er [p.val, l.val]) sk.logCoefficientModulus, sk.logCoefficientModulus, modulusDegree⟩

/-- `external_product`, bootstrap.py L378-391: always the kernel on words. Polynomials of different degrees are a
shape error. -/
def externalProduct (be : Backend) {k n : Nat} (dp : DecompositionParameters)
    (rgswCt : RgswCiphertext ((k + 1) * dp.levelCount) k n) (rlweCt : RlweCiphertext k) :
    Except String (RlweCiphertext k) :=
  if hn : n = rlweCt.modulusDegree then do
    let out ← jitExternalProduct be dp (.words rgswCt.message) (fun p c => rlweCt.message p (c.cast hn)) false
    pure ⟨rlweCt.logCoefficientModulus, n, out⟩
  else .error "shape error"

/-- `blind_rotate`, bootstrap.py L488-525. -/
def blindRotate (be : Backend) {d k n : Nat} (dp : DecompositionParameters) (rotPolynomial : RlweCiphertext k)
    (coefficientIndex : Fin (d + 1) → W) (bsk : BootstrappingKey ((k + 1) * dp.levelCount) k n) :
    Except String (RlweCiphertext k) :=
  if hn : n = rotPolynomial.modulusDegree then do
    let out ← jitBlindRotate be dp (fun p c => rotPolynomial.message p (c.cast hn)) coefficientIndex bsk
      rotPolynomial.logCoefficientModulus
    pure ⟨rotPolynomial.logCoefficientModulus, n, out⟩
  else .error "shape error"

/-- `LweKeySwitchingKey`, key_switch.py L15-40: the data and the decomposition it was made for (`decomposition_level_count` is
the length of the second axis of the data). -/
structure LweKeySwitchingKey (n m L : Nat) where
  logBase : Nat
  keyData : Fin n → Fin L → Fin (m + 1) → W

/-- `key_switch.gen_key`, key_switch.py L43-107. -/
def genKeySwitchingKey {σ : Type} {n m : Nat} (dp : DecompositionParameters) (prg : RandomSource σ)
    (inKey : Lwe.LweSecretKey n) (outKey : Lwe.LweSecretKey m) : Draw σ (LweKeySwitchingKey n m dp.levelCount) := do
  let d ← genKeySwitchingKeyRandom dp prg inKey outKey
  pure ⟨dp.logBase, d⟩

/-- `switch_key`, key_switch.py L110-119. -/
def switchKey {n m L : Nat} (ksk : LweKeySwitchingKey n m L) (inp : Fin (n + 1) → W) : Fin (m + 1) → W :=
  KeySwitch.jitSwitchKey ksk.keyData inp ksk.logBase

end Verif.RlweRandom
