import Verif.Model.X64
import Verif.Model.JaxiteBool

/-!
# The blind rotation and the bootstrapping with `jax_enable_x64` as an argument

`jax.lax.fori_loop` traces its body before the first round, also when there is none, so the shapes of the
external product are checked once, before any data is touched. (If several shapes of a call are wrong, the
models here report the one of the products; JAX reports the first one it meets.)
-/

namespace Verif.X64
open Verif.Arith Verif.MatrixUtils Verif.PolymulKernel Verif.Rlwe Verif.Rgsw
open Verif.Bootstrap (RgswData BootstrappingKey bskAt foriLoop)

/-- `jit_external_product`, bootstrap.py L395-412, in both layouts. The byte layout is unpacked for
`fallback_vector_matrix_polymul` outside a TPU (polymul_kernel.py L330-334), so the same check applies; its
value is that of the 32-bit model. -/
def externalProductAny (x64 : Bool) (be : Backend) {k n : Nat} (dp : DecompositionParameters)
    (rgswCt : RgswData ((k + 1) * dp.levelCount) k n) (ct : Fin (k + 1) → Fin n → W) (useBat : Bool) :
    Except String (Fin (k + 1) → Fin n → W) :=
  match useBat, rgswCt with
  | true, .bytes m => do
    polyMulCheck x64 be.tpu n
    pure (negacyclicVectorMatrixPolymulBat be.tpu (Bootstrap.decomposeRlweCiphertext ct dp) m)
  | false, .words m => jitExternalProduct x64 be dp m ct
  | _, _ => .error "shape error"

/-- `jit_cmux`, bootstrap.py L469-485, in both layouts. -/
def cmuxAny (x64 : Bool) (be : Backend) {k n : Nat} (dp : DecompositionParameters)
    (control : RgswData ((k + 1) * dp.levelCount) k n) (eqZero neqZero : Fin (k + 1) → Fin n → W)
    (useBat : Bool) : Except String (Fin (k + 1) → Fin n → W) := do
  let e ← externalProductAny x64 be dp control (fun p c => neqZero p c - eqZero p c) useBat
  pure (fun p c => eqZero p c + e p c)

/-- `integer_div`, matrix_utils.py L15-41, on words of any width; the divisor is a `uint32`. -/
def integerDiv {w : Nat} (values : BitVec w) (divisor : W) : BitVec w :=
  let divisor := divisor.setWidth w
  let quotientFloor := values / divisor
  let roundedFractionalPart := ((values % divisor) + divisor / 2) / divisor
  quotientFloor + roundedFractionalPart

/-- `switch_modulus`, lwe.py L112-145, on words of any width (a bootstrapped ciphertext has `uint64` words
with 64-bit types). -/
def switchModulus {w n : Nat} (ciphertext : Fin (n + 1) → BitVec w) (logIn logOut : Nat) :
    Fin (n + 1) → BitVec w :=
  fun i => integerDiv (ciphertext i) (BitVec.ofNat 32 (2 ^ (logIn - logOut))) %
    (BitVec.ofNat 32 (2 ^ logOut)).setWidth w

/-- The loop body `one_external_product` of `jit_blind_rotate`, bootstrap.py L556-597. The exponents have the
width of the ciphertext. -/
def oneExternalProduct (x64 : Bool) (be : Backend) {w d k n : Nat} (dp : DecompositionParameters)
    (ci : Fin (d + 1) → BitVec w) (bsk : BootstrappingKey ((k + 1) * dp.levelCount) k n) (logModulus : Nat) (j : Nat)
    (acc : Fin (k + 1) → Fin n → W) : Except String (Fin (k + 1) → Fin n → W) :=
  let at_ : Nat → BitVec w := fun i => if h : i < d + 1 then ci ⟨i, h⟩ else 0
  if bsk.useBmmp then do
    let power1 := at_ (2 * j) + at_ (2 * j + 1)
    let power2 := at_ (2 * j)
    let power3 := at_ (2 * j + 1)
    let b1 ← (← bskAt bsk (3 * j)).asWords
    let b2 ← (← bskAt bsk (3 * j + 1)).asWords
    let b3 ← (← bskAt bsk (3 * j + 2)).asWords
    let factor : Fin ((k + 1) * dp.levelCount) → Fin (k + 1) → Fin n → W := fun r p c =>
      scaleByXPowerNMinus1 power1.toNat (b1 r p) logModulus c +
      scaleByXPowerNMinus1 power2.toNat (b2 r p) logModulus c +
      scaleByXPowerNMinus1 power3.toNat (b3 r p) logModulus c
    let e ← externalProductAny x64 be dp (.words factor) acc false
    pure (fun p c => acc p c + e p c)
  else do
    let mul : Fin (k + 1) → Fin n → W := fun p => monomialMul (acc p) (at_ j).toNat logModulus
    cmuxAny x64 be dp (← bskAt bsk j) acc mul bsk.useBat

/-- `jit_blind_rotate`, bootstrap.py L528-606: the body is traced, then run. -/
def jitBlindRotate (x64 : Bool) (be : Backend) {w d k n : Nat} (dp : DecompositionParameters)
    (rotPolynomial : Fin (k + 1) → Fin n → W) (ci : Fin (d + 1) → BitVec w)
    (bsk : BootstrappingKey ((k + 1) * dp.levelCount) k n) (logModulus : Nat) :
    Except String (Fin (k + 1) → Fin n → W) := do
  let bTilde := ci (Fin.last d)
  let cPrime : Fin (k + 1) → Fin n → W := fun p => monomialMul (rotPolynomial p) (-bTilde).toNat logModulus
  let numLoopTerms := if bsk.useBmmp then d / 2 else d
  polyMulCheck x64 be.tpu n
  foriLoop (oneExternalProduct x64 be dp ci bsk logModulus) numLoopTerms cPrime

/-- `jit_switch_key`, key_switch.py L124-145. `jnp.sum` of `uint32` words is `uint64` with 64-bit types, so
the difference and the result are too. `jit_sample_extract` multiplies `int32` signs with `uint32` words,
which is then `int64`; the digits of an input only depend on its low word (every shift is below 32 bits and
followed by the mask), so they are those of the 32-bit model, and `at[-1].set` casts to `uint32`. -/
def jitSwitchKey (x64 : Bool) {n m L : Nat} (ksk : Fin n → Fin L → Fin (m + 1) → W) (inp : Fin (n + 1) → W)
    (baseLog : Nat) : Fin (m + 1) → BitVec (wide x64) :=
  let outputData : Fin (m + 1) → W := fun j => if j = Fin.last m then inp (Fin.last n) else 0
  let decompDot : Fin n → Fin (m + 1) → W := fun i j =>
    ∑ l, Decomposition.signedDecomposition (inp i.castSucc) baseLog L 32 l * ksk i l j
  fun j => (outputData j).setWidth (wide x64) - ∑ i, (decompDot i j).setWidth (wide x64)

/-- `jit_bootstrap`, bootstrap.py L232-297, and `bootstrap`, L301-375, on a ciphertext of any width. The
accumulator of the rotation is `uint32` (L543, L575 and L590 cast), the result has the width of
`jit_switch_key`. -/
def jitBootstrap (x64 : Bool) (be : Backend) {w d k n : Nat} [NeZero n] (logPlaintextModulus logModDegree : Nat)
    (bsDp : DecompositionParameters) {ksLevels : Nat} (ksLogBase : Nat) (ciphertext : Fin (d + 1) → BitVec w)
    (testPoly : Fin (k + 1) → Fin n → W)
    (bsk : BootstrappingKey ((k + 1) * bsDp.levelCount) k n)
    (ksk : Fin (k * n) → Fin ksLevels → Fin (d + 1) → W) :
    Except String (Fin (d + 1) → BitVec (wide x64)) := do
  let approx := switchModulus ciphertext logPlaintextModulus (logModDegree + 1)
  let rotated ← jitBlindRotate x64 be bsDp testPoly approx bsk logPlaintextModulus
  let extracted := Bootstrap.jitSampleExtract rotated
  pure (jitSwitchKey x64 ksk extracted ksLogBase)

/-- `trivial_encryption`, test_polynomial.py L182-211. -/
def trivialEncryption (x64 : Bool) (be : Backend) (k : Nat) {n : Nat} (testPolynomial : Fin n → W)
    (logPlaintextModulus : Nat) : Except String (Fin (k + 1) → Fin n → W) :=
  rlweEncrypt x64 be testPolynomial (fun _ _ => 0) (fun _ _ => 0) (fun _ => 0) logPlaintextModulus

/-- `ServerKeySet.__init__`, jaxite_bool.py L58-81. -/
def mkServerKeySet (x64 : Bool) (be : Backend) {d k logN : Nat} (params : JaxiteBool.Parameters)
    (cks : JaxiteBool.ClientKeySet d k logN)
    (a : Nat → Fin (k + 1) → Fin params.bsDecomp.levelCount → Fin k → Fin (2 ^ logN) → W)
    (e : Nat → Fin (k + 1) → Fin params.bsDecomp.levelCount → W)
    (ka : Fin (k * 2 ^ logN) → Fin params.ksDecomp.levelCount → Fin d → W)
    (ke : Fin (k * 2 ^ logN) → Fin params.ksDecomp.levelCount → W) :
    Except String (JaxiteBool.ServerKeySet d k logN params) := do
  let bsk ← genBootstrappingKey x64 be cks.lweSk cks.rlweSk params.bsDecomp a e true false
  pure ⟨bsk, KeySwitch.genKey params.ksDecomp (Rlwe.flattenKey cks.rlweSk) cks.lweSk ka ke⟩

/-- `LookUpTable.as_rlwe_test_polynomial`, lut.py L43-64 (uncached). -/
def asRlweTestPolynomial (x64 : Bool) (be : Backend) (k logN : Nat) (l : Lut.LookUpTable) :
    Except String (Fin (k + 1) → Fin (2 ^ logN) → W) := do
  let coefficients ← l.paddedCoefficients
  let tp ← TestPolynomial.genTestPolynomial (coefficients.map (fun c : Nat => (c : Int)))
    Encoding.boolParams (2 ^ logN)
  trivialEncryption x64 be k (fun i => tp.getD i.val 0) 32

/-- A ciphertext with the width of its words: 32 from `encrypt`, `wide x64` from a gate. -/
structure Words (d : Nat) where
  width : Nat
  word : Fin (d + 1) → BitVec width

/-- `x + y` of two ciphertexts: the wider type. -/
def Words.add {d : Nat} (x y : Words d) : Words d :=
  ⟨max x.width y.width, fun i => (x.word i).setWidth _ + (y.word i).setWidth _⟩

/-- `x - y`. -/
def Words.sub {d : Nat} (x y : Words d) : Words d :=
  ⟨max x.width y.width, fun i => (x.word i).setWidth _ - (y.word i).setWidth _⟩

/-- `c * x` for a Python integer, which takes the type of the array. -/
def Words.scale {d : Nat} (c : Nat) (x : Words d) : Words d :=
  ⟨x.width, fun i => BitVec.ofNat x.width c * x.word i⟩

/-- The call of `bootstrap.bootstrap` in every gate. -/
def callBootstrap (x64 : Bool) (be : Backend) {d k logN : Nat} {params : JaxiteBool.Parameters}
    (sks : JaxiteBool.ServerKeySet d k logN params) (ct : Words d)
    (poly : Fin (k + 1) → Fin (2 ^ logN) → W) : Except String (Words d) := do
  let out ← jitBootstrap x64 be 32 logN params.bsDecomp params.ksDecomp.logBase ct.word poly sks.bsk sks.ksk
  pure ⟨wide x64, out⟩

/-- `and_` ... `xnor_`, jaxite_bool.py L114-311. -/
def gate2 (x64 : Bool) (be : Backend) {d k logN : Nat} {params : JaxiteBool.Parameters}
    (sks : JaxiteBool.ServerKeySet d k logN params) (name : String) (lhs rhs : Words d) :
    Except String (Words d) := do
  let l ← JaxiteBool.lutByName name
  let poly ← asRlweTestPolynomial x64 be k logN l
  callBootstrap x64 be sks ((lhs.scale 2).add rhs) poly

/-- `lut2`, jaxite_bool.py L332-371. -/
def lut2 (x64 : Bool) (be : Backend) {d k logN : Nat} {params : JaxiteBool.Parameters}
    (sks : JaxiteBool.ServerKeySet d k logN params) (a b : Words d) (truthTable : Nat) :
    Except String (Words d) := do
  let poly ← asRlweTestPolynomial x64 be k logN ⟨2, truthTable⟩
  callBootstrap x64 be sks ((b.scale 2).add a) poly

/-- `lut3`, jaxite_bool.py L374-415. -/
def lut3 (x64 : Bool) (be : Backend) {d k logN : Nat} {params : JaxiteBool.Parameters}
    (sks : JaxiteBool.ServerKeySet d k logN params) (a b c : Words d) (truthTable : Nat) :
    Except String (Words d) := do
  let poly ← asRlweTestPolynomial x64 be k logN ⟨3, truthTable⟩
  callBootstrap x64 be sks (((c.scale 4).add (b.scale 2)).add a) poly

/-- `cmux_`, jaxite_bool.py L418-426. -/
def cmux (x64 : Bool) (be : Backend) {d k logN : Nat} {params : JaxiteBool.Parameters}
    (sks : JaxiteBool.ServerKeySet d k logN params) (v1 v0 ctrl : Words d) : Except String (Words d) := do
  let l ← JaxiteBool.lutByName "cmux"
  lut3 x64 be sks ctrl v0 v1 l.truthTable

/-- `constant`, jaxite_bool.py L103-104: arrays of `uint32` (`encode` shifts by a `uint32`). -/
def constant (b : Bool) (d : Nat) : Except String (Words d) := do
  pure ⟨32, ← Lwe.constant b d⟩

/-- `not_`, jaxite_bool.py L107-111. -/
def not_ {d : Nat} (x : Words d) : Except String (Words d) := do
  pure ((← constant true d).sub x)

/-- `lut1`, jaxite_bool.py L314-329. -/
def lut1 {d : Nat} (x : Words d) (truthTable : Int) : Except String (Words d) :=
  if truthTable = 0 ∨ truthTable = 3 then constant (truthTable ≠ 0) d
  else if truthTable = 1 then not_ x
  else if truthTable = 2 then .ok x
  else .error "ValueError"

/-- A program over Boolean ciphertexts, run in a process with the flag. -/
def run (x64 : Bool) (be : Backend) {d k logN : Nat} {params : JaxiteBool.Parameters}
    (sks : JaxiteBool.ServerKeySet d k logN params) (inputs : Nat → Words d) :
    JaxiteBool.Circuit → Except String (Words d)
  | .input i => .ok (inputs i)
  | .const b => constant b d
  | .not c => do not_ (← run x64 be sks inputs c)
  | .gate name l r => do
    let x ← run x64 be sks inputs l
    let y ← run x64 be sks inputs r
    gate2 x64 be sks name x y
  | .lut1 t a => do lut1 (← run x64 be sks inputs a) t
  | .lut2 t a b => do
    let x ← run x64 be sks inputs a
    let y ← run x64 be sks inputs b
    lut2 x64 be sks x y t
  | .lut3 t a b c => do
    let x ← run x64 be sks inputs a
    let y ← run x64 be sks inputs b
    let z ← run x64 be sks inputs c
    lut3 x64 be sks x y z t
  | .cmux v1 v0 ctrl => do
    let x ← run x64 be sks inputs v1
    let y ← run x64 be sks inputs v0
    let z ← run x64 be sks inputs ctrl
    cmux x64 be sks x y z

/-- `jaxite_bool.decrypt`, jaxite_bool.py L93-100, with `lwe.decrypt` (L81-101, `log_modulus` 32), on words of
any width: `jnp.dot` with the `uint32` key has the width of the ciphertext, and so have the shifts of
`remove_noise` (encoding.py L156-175) and `decode` (L130-153). -/
def boolDecrypt {d : Nat} (ct : Words d) (key : Fin d → W) : Except String Bool :=
  let p := ct.word (Fin.last d) - ∑ i, ct.word i.castSucc * (key i).setWidth ct.width
  let e := Encoding.boolParams.errorBitLength
  let round : BitVec ct.width → BitVec ct.width := fun x => ((x >>> e) + ((x >>> (e - 1)) &&& 1)) <<< e
  let cleartext := (round (round p) >>> e) &&&
    BitVec.ofNat ct.width ((1 <<< Encoding.boolParams.messageBitLength) - 1)
  if cleartext = 2 then .error "AssertionError" else .ok (cleartext ≠ 0)

end Verif.X64
