import Verif.Model.Helpers
import Verif.Model.JaxiteBool

/-!
# Model of the randomised entry points of the Boolean API

`random_source.py` (the source classes), `parameters.py`, `bool_params.py` (the shipped parameter sets), and
the functions that draw samples: `lwe.gen_key`, `lwe.encrypt`, `rlwe.gen_key`, `bootstrap.gen_bootstrapping_key`,
`key_switch.gen_key`, `ClientKeySet`, `ServerKeySet`, `jaxite_bool.encrypt`. A whole use of the library (key
generation, encryption, evaluation, decryption) is one function, `session`.

Random sources are stateful. All sources of a program act on one common state `σ`, so two arguments may be
the same object (same draws from the same state) or different objects (each changes its own part of `σ`).
-/

namespace Verif.Session
open Verif.Arith Verif.Rlwe Verif.Rgsw Verif.Bootstrap Verif.JaxiteBool Verif.Helpers

/-- Computations that draw samples and may raise. -/
abbrev Draw (σ : Type) := StateT σ (Except String)

/-- `RandomSource`, random_source.py L66-84, by the generator function passed to `_shape_generator`:
`rng.randint(*uniform_bounds)`, `round(rng.normalvariate(0, std))` and `rng.randint(0, 1)` for
`SystemRandomSource` and `PseudorandomSource` (L117-181). -/
structure RandomSource (σ : Type) where
  uniform : σ → Int × σ
  roundedNormal : σ → Int × σ
  skUniform : σ → Int × σ

/-- A source whose state is one component of the common state. -/
def RandomSource.onFst {σ τ : Type} (r : RandomSource σ) : RandomSource (σ × τ) :=
  { uniform := fun s => ((r.uniform s.1).1, ((r.uniform s.1).2, s.2))
    roundedNormal := fun s => ((r.roundedNormal s.1).1, ((r.roundedNormal s.1).2, s.2))
    skUniform := fun s => ((r.skUniform s.1).1, ((r.skUniform s.1).2, s.2)) }

/-- The same for the second component. -/
def RandomSource.onSnd {σ τ : Type} (r : RandomSource τ) : RandomSource (σ × τ) :=
  { uniform := fun s => ((r.uniform s.2).1, (s.1, (r.uniform s.2).2))
    roundedNormal := fun s => ((r.roundedNormal s.2).1, (s.1, (r.roundedNormal s.2).2))
    skUniform := fun s => ((r.skUniform s.2).1, (s.1, (r.skUniform s.2).2)) }

/-- `SystemRandomSource` and `PseudorandomSource`, random_source.py L114-181, over a Python generator:
`randint lo hi` and `round(normalvariate(0, std))`. -/
def pythonSource {σ : Type} (randint : Int → Int → σ → Int × σ) (normal : Int → σ → Int × σ)
    (uniformBounds : Int × Int) (normalStd : Int) : RandomSource σ :=
  { uniform := randint uniformBounds.1 uniformBounds.2
    roundedNormal := normal normalStd
    skUniform := randint 0 1 }

/-- `CycleRng`, random_source.py L89-111, over any list of digits. -/
def cycleSource (data : List Int) (constNormalNoise : Int) : RandomSource Nat :=
  { uniform := cycleNext data
    roundedNormal := fun s => (constNormalNoise, s)
    skUniform := cycleNext data }

/-- `ZeroRng`, random_source.py L242-258: arrays of zeros. -/
def zeroSource (σ : Type) : RandomSource σ :=
  { uniform := fun s => (0, s), roundedNormal := fun s => (0, s), skUniform := fun s => (0, s) }

/-- `prg.uniform(shape, dtype=jnp.uint32)` and its variants: `_shape_generator`, random_source.py L33-63. -/
def sample {σ : Type} (gen : σ → Int × σ) (shape : List Nat) : Draw σ Array' :=
  fun s => shapeGenerator gen (shape.map Int.ofNat) (.unsigned 32) s

/-- Entry of an array of `uint32` at a multi-index. -/
def word (a : Array') (idx : List Nat) : W := BitVec.ofInt 32 (a.data.getD (flatIndex a.shape idx) 0)

/-- `int(round(math.log2(x)))`: the nearest integer to the real logarithm. There is no tie, since
`2^(f + 1/2)` is irrational; the rounding error of `math.log2` near such points is not modelled (on powers of
two `math.log2` is exact). -/
def roundLog2 (x : Nat) : Nat :=
  let f := x.log2
  if 2 ^ (2 * f + 1) < x * x then f + 1 else f

/-- `SchemeParameters`, parameters.py L8-43. -/
structure SchemeParameters where
  lweDimension : Nat
  plaintextModulus : Nat
  rlweDimension : Nat
  polynomialModulusDegree : Nat

/-- `log_mod_degree`, parameters.py L34-38. -/
def SchemeParameters.logModDegree (p : SchemeParameters) : Nat := roundLog2 p.polynomialModulusDegree

/-- `log_plaintext_modulus`, parameters.py L39-43. -/
def SchemeParameters.logPlaintextModulus (p : SchemeParameters) : Nat := roundLog2 p.plaintextModulus

/-- `bool_params.Parameters`, bool_params.py L17-41 (the LUT cache is transparent by C04). -/
structure BoolParameters where
  schemeParams : SchemeParameters
  ksDecompParams : DecompositionParameters
  bsDecompParams : DecompositionParameters

/-- `get_params_for_128_bit_security`, bool_params.py L74-80 and L107-124. -/
def getParamsFor128BitSecurity : BoolParameters :=
  { schemeParams := ⟨800, 4294967296, 2, 512⟩
    ksDecompParams := { logBase := 4, levelCount := 5 }
    bsDecompParams := { logBase := 4, levelCount := 6 } }

/-- `get_params_for_test`, bool_params.py L127-131 and L141-153. -/
def getParamsForTest : BoolParameters :=
  { schemeParams := ⟨4, 2 ^ 32, 1, 512⟩
    ksDecompParams := { logBase := 4, levelCount := 8 }
    bsDecompParams := { logBase := 4, levelCount := 8 } }

/-- The two decompositions, in the form used by the model of the server operations. -/
def BoolParameters.decomp (p : BoolParameters) : JaxiteBool.Parameters := ⟨p.bsDecompParams, p.ksDecompParams⟩

/-- `lwe.gen_key`, lwe.py L37-45. -/
def lweGenKey {σ : Type} (p : SchemeParameters) (prg : RandomSource σ) :
    Draw σ (Lwe.LweSecretKey p.lweDimension) := do
  let a ← sample prg.skUniform [p.lweDimension]
  pure ⟨p.logPlaintextModulus, fun i => word a [i.val]⟩

/-- `rlwe.gen_key`, rlwe.py L107-119. The key is an array of `rlwe_dimension` polynomials with
`polynomial_modulus_degree` coefficients; the model of the server operations needs the degree
`2 ^ log_mod_degree`, see `clientKeySet`. -/
def rlweGenKey {σ : Type} (p : SchemeParameters) (prg : RandomSource σ) :
    Draw σ (RlweSecretKey p.rlweDimension (2 ^ p.logModDegree)) := do
  let a ← sample prg.skUniform [p.rlweDimension, p.polynomialModulusDegree]
  pure ⟨p.logPlaintextModulus, fun i c => word a [i.val, c.val]⟩

/-- `ClientKeySet.__init__`, jaxite_bool.py L37-44. Degrees that are not powers of two (for which the
library computes with an inconsistent `log_mod_degree`) are outside the model and give an error value. -/
def clientKeySet {σ : Type} (p : BoolParameters) (lweRng rlweRng : RandomSource σ) :
    Draw σ (ClientKeySet p.schemeParams.lweDimension p.schemeParams.rlweDimension
      p.schemeParams.logModDegree) := do
  if p.schemeParams.polynomialModulusDegree ≠ 2 ^ p.schemeParams.logModDegree then
    throw "not modelled"
  let lweSk ← lweGenKey p.schemeParams lweRng
  let rlweSk ← rlweGenKey p.schemeParams rlweRng
  pure ⟨lweSk, rlweSk⟩

/-- `bootstrap.gen_bootstrapping_key`, bootstrap.py L38-96: the samples; the rest is `genBootstrappingKey`.
The dimension is checked before the samples are drawn (L66-71), by the same test as in
`genBootstrappingKey`. -/
def genBootstrappingKeyRandom {σ : Type} (be : Backend) {d k n : Nat} (lweSk : Lwe.LweSecretKey d)
    (rlweSk : RlweSecretKey k n) (dp : DecompositionParameters) (prg : RandomSource σ)
    (useBmmp useBat : Bool) : Draw σ (BootstrappingKey ((k + 1) * dp.levelCount) k n) := do
  if d % 2 ≠ 0 then throw "ValueError"
  let num := if useBmmp then d + d / 2 else d
  let batchSize := (num + genBskNumBatches - 1) / genBskNumBatches
  let padded := batchSize * genBskNumBatches
  let ai ← sample prg.uniform [padded, k + 1, dp.levelCount, k, n]
  let er ← sample prg.roundedNormal [padded, k + 1, dp.levelCount]
  MonadExcept.ofExcept (genBootstrappingKey be lweSk rlweSk dp
    (fun i p l j c => word ai [i, p.val, l.val, j.val, c.val]) (fun i p l => word er [i, p.val, l.val])
    useBmmp useBat)

/-- `key_switch.gen_key`, key_switch.py L43-73: the samples; the rest is `KeySwitch.genKey`. -/
def genKeySwitchingKeyRandom {σ : Type} {n m : Nat} (dp : DecompositionParameters) (prg : RandomSource σ)
    (inKey : Lwe.LweSecretKey n) (outKey : Lwe.LweSecretKey m) :
    Draw σ (Fin n → Fin dp.levelCount → Fin (m + 1) → W) := do
  let ai ← sample prg.uniform [n, dp.levelCount, m]
  let er ← sample prg.roundedNormal [n, dp.levelCount]
  pure (KeySwitch.genKey dp inKey outKey (fun i l j => word ai [i.val, l.val, j.val])
    (fun i l => word er [i.val, l.val]))

/-- `ServerKeySet.__init__`, jaxite_bool.py L58-81. -/
def serverKeySet {σ : Type} (be : Backend) {d k logN : Nat} (cks : ClientKeySet d k logN)
    (params : JaxiteBool.Parameters) (lweRng rlweRng : RandomSource σ) :
    Draw σ (ServerKeySet d k logN params) := do
  let bsk ← genBootstrappingKeyRandom be cks.lweSk cks.rlweSk params.bsDecomp rlweRng true false
  let ksk ← genKeySwitchingKeyRandom params.ksDecomp lweRng (flattenKey cks.rlweSk) cks.lweSk
  pure ⟨bsk, ksk⟩

/-- `jaxite_bool.encrypt`, jaxite_bool.py L84-90, with `lwe.encrypt`, lwe.py L48-60. -/
def encrypt {σ : Type} {d k logN : Nat} (value : Bool) (cks : ClientKeySet d k logN) (prg : RandomSource σ) :
    Draw σ (Fin (d + 1) → W) := do
  let ai ← sample prg.uniform [d]
  let er ← sample prg.roundedNormal [1]
  MonadExcept.ofExcept (Lwe.boolEncrypt value cks.lweSk (fun i => word ai [i.val]) (word er [0]))

/-- All inputs used by the program have a number below `n`. -/
def inputsBelow (n : Nat) : Circuit → Bool
  | .input i => i < n
  | .const _ => true
  | .not c => inputsBelow n c
  | .gate _ l r => inputsBelow n l && inputsBelow n r
  | .lut1 _ a => inputsBelow n a
  | .lut2 _ a b => inputsBelow n a && inputsBelow n b
  | .lut3 _ a b c => inputsBelow n a && inputsBelow n b && inputsBelow n c
  | .cmux a b c => inputsBelow n a && inputsBelow n b && inputsBelow n c

/-- A use of the library from start to end: make the keys, encrypt the inputs, run a program on the
ciphertexts, decrypt. A program that refers to an input that was not supplied raises `IndexError`. -/
def session {σ : Type} (be : Backend) (p : BoolParameters) (lweRng rlweRng encRng : RandomSource σ)
    (bits : List Bool) (c : Circuit) : Draw σ Bool := do
  let cks ← clientKeySet p lweRng rlweRng
  let sks ← serverKeySet be cks p.decomp lweRng rlweRng
  let cts ← bits.mapM (fun b => encrypt b cks encRng)
  if inputsBelow cts.length c then
    let out ← MonadExcept.ofExcept (c.run be sks (fun i => cts.getD i (fun _ => 0)))
    MonadExcept.ofExcept (Lwe.boolDecrypt out cks.lweSk)
  else throw "IndexError"

end Verif.Session
