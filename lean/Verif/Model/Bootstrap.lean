import Verif.Model.Rlwe

/-!
# Model of `bootstrap.py` and `test_polynomial.py` (`jaxite/jaxite_cggi`)
-/

namespace Verif.Bootstrap
open Verif.Arith Verif.MatrixUtils Verif.PolymulKernel Verif.Decomposition Verif.Rlwe Verif.Rgsw

/-- `decompose_rlwe_ciphertext`, decomposition.py L235-267: row `(polynomial, level)`. -/
def decomposeRlweCiphertext {k n : Nat} (ct : Fin (k + 1) → Fin n → W) (dp : DecompositionParameters) :
    Fin ((k + 1) * dp.levelCount) → Fin n → W :=
  fun r c => signedDecomposition (ct r.divNat c) dp.logBase dp.levelCount dp.totalBitLength r.modNat

/-- One RGSW ciphertext as stored in a bootstrapping key: words, or the byte-expanded form. -/
inductive RgswData (rows k n : Nat) where
  | words (m : Fin rows → Fin (k + 1) → Fin n → W)
  | bytes (m : Fin rows → Fin (k + 1) → Fin n → Fin 4 → Fin 4 → W)

/-- `jit_external_product`, bootstrap.py L394-412. Data of the wrong rank for the chosen kernel is a
shape error. -/
def jitExternalProduct (be : Backend) {k n : Nat} (dp : DecompositionParameters)
    (rgswCt : RgswData ((k + 1) * dp.levelCount) k n) (ct : Fin (k + 1) → Fin n → W) (useBat : Bool) :
    Except String (Fin (k + 1) → Fin n → W) :=
  let decomposed := decomposeRlweCiphertext ct dp
  match useBat, rgswCt with
  | true, .bytes m => .ok (negacyclicVectorMatrixPolymulBat be.tpu decomposed m)
  | false, .words m => negacyclicVectorMatrixPolymul be.tpu be.fdot decomposed m dp.logBase
  | _, _ => .error "shape error"

/-- `jit_cmux`, bootstrap.py L467-485. -/
def jitCmux (be : Backend) {k n : Nat} (dp : DecompositionParameters)
    (control : RgswData ((k + 1) * dp.levelCount) k n) (eqZero neqZero : Fin (k + 1) → Fin n → W)
    (useBat : Bool) : Except String (Fin (k + 1) → Fin n → W) := do
  let e ← jitExternalProduct be dp control (fun p c => neqZero p c - eqZero p c) useBat
  pure (fun p c => eqZero p c + e p c)

/-- `RlweCiphertext`, rlwe.py L43-64. -/
structure RlweCiphertext (k : Nat) where
  logCoefficientModulus : Nat
  modulusDegree : Nat
  message : Fin (k + 1) → Fin modulusDegree → W

/-- `coefficient_modulus`, rlwe.py L62-64: a `uint32` power (zero for 32). -/
def RlweCiphertext.coefficientModulus {k : Nat} (ct : RlweCiphertext k) : W :=
  BitVec.ofNat 32 (2 ^ ct.logCoefficientModulus)

/-- `cmux`, bootstrap.py L415-464. -/
def cmux (be : Backend) {k n : Nat} (dp : DecompositionParameters)
    (control : RgswData ((k + 1) * dp.levelCount) k n) (eqZero neqZero : RlweCiphertext k)
    (useBat : Bool) : Except String (RlweCiphertext k) :=
  if eqZero.coefficientModulus ≠ neqZero.coefficientModulus then .error "ValueError"
  else if h : eqZero.modulusDegree = neqZero.modulusDegree then
    if hn : n = eqZero.modulusDegree then do
      let out ← jitCmux be dp control (fun p c => eqZero.message p (c.cast hn))
        (fun p c => neqZero.message p (c.cast (hn.trans h))) useBat
      pure ⟨eqZero.logCoefficientModulus, n, out⟩
    else .error "shape error"
  else .error "ValueError"

/-- The cleartext bits encrypted by `gen_bootstrapping_key`, bootstrap.py L98-130. -/
def bskInputs {d : Nat} (useBmmp : Bool) (s : Fin d → W) (i : Nat) : W :=
  let at_ : Nat → W := fun j => if h : j < d then s ⟨j, h⟩ else 0
  if useBmmp then
    if i % 3 = 0 then at_ (2 * (i / 3)) * at_ (2 * (i / 3) + 1)
    else if i % 3 = 1 then at_ (2 * (i / 3)) * (1 - at_ (2 * (i / 3) + 1))
    else (1 - at_ (2 * (i / 3))) * at_ (2 * (i / 3) + 1)
  else at_ i

/-- `BootstrappingKey`, bootstrap.py L29-35. -/
structure BootstrappingKey (rows k n : Nat) where
  count : Nat
  encryptedLweSkBits : Fin count → RgswData rows k n
  useBmmp : Bool
  useBat : Bool

/-- `GEN_BSK_NUM_BATCHES`, bootstrap.py L25. -/
def genBskNumBatches : Nat := 20

/-- `gen_bootstrapping_key`, bootstrap.py L38-229. Inputs and samples are padded to a multiple of the
number of batches (zeros for the inputs), reshaped to `(batches, batch_size)`, mapped, reshaped back and
cut: entry `i` of the flat list is entry `i % batch_size` of batch `i / batch_size`. -/
def genBootstrappingKey (be : Backend) {d k n : Nat} (lweSk : Lwe.LweSecretKey d) (rlweSk : RlweSecretKey k n)
    (dp : DecompositionParameters)
    (aiSamples : Nat → Fin (k + 1) → Fin dp.levelCount → Fin k → Fin n → W)
    (errorSamples : Nat → Fin (k + 1) → Fin dp.levelCount → W) (useBmmp useBat : Bool) :
    Except String (BootstrappingKey ((k + 1) * dp.levelCount) k n) :=
  if d % 2 ≠ 0 then .error "ValueError"
  else
    let num := if useBmmp then d + d / 2 else d
    let batchSize := (num + genBskNumBatches - 1) / genBskNumBatches
    let padded : Nat → W := fun i => if i < num then bskInputs useBmmp lweSk.keyData i else 0
    -- element `j` of batch `b`
    let processed : Nat → Nat → Fin ((k + 1) * dp.levelCount) → Fin (k + 1) → Fin n → W := fun b j =>
      Rgsw.jitEncrypt be (padded (b * batchSize + j)) rlweSk.data dp (aiSamples (b * batchSize + j))
        (errorSamples (b * batchSize + j)) rlweSk.logCoefficientModulus
    let flat : Fin num → _ := fun i => processed (i.val / batchSize) (i.val % batchSize)
    let useBat := if useBmmp then false else useBat
    .ok { count := num
          encryptedLweSkBits := fun i =>
            if useBat then .bytes (fun r p c => batOfflineCompileCggi (flat i r p c)) else .words (flat i)
          useBmmp := useBmmp
          useBat := useBat }

/-- Entry `i` of an array of RGSW ciphertexts (an index past the end is an error here; JAX clamps it,
but no caller reaches it). -/
def bskAt {rows k n : Nat} (bsk : BootstrappingKey rows k n) (i : Nat) : Except String (RgswData rows k n) :=
  if h : i < bsk.count then .ok (bsk.encryptedLweSkBits ⟨i, h⟩) else .error "index error"

/-- The words of an RGSW ciphertext; the BMMP branch does arithmetic on three-dimensional arrays. -/
def RgswData.asWords {rows k n : Nat} : RgswData rows k n → Except String (Fin rows → Fin (k + 1) → Fin n → W)
  | .words m => .ok m
  | .bytes _ => .error "shape error"

/-- The loop body `one_external_product` of `jit_blind_rotate`, bootstrap.py L556-597. -/
def oneExternalProduct (be : Backend) {d k n : Nat} (dp : DecompositionParameters) (ci : Fin (d + 1) → W)
    (bsk : BootstrappingKey ((k + 1) * dp.levelCount) k n) (logModulus : Nat) (j : Nat)
    (acc : Fin (k + 1) → Fin n → W) : Except String (Fin (k + 1) → Fin n → W) :=
  let at_ : Nat → W := fun i => if h : i < d + 1 then ci ⟨i, h⟩ else 0
  if bsk.useBmmp then do
    let power1 := at_ (2 * j) + at_ (2 * j + 1)
    let power2 := at_ (2 * j)
    let power3 := at_ (2 * j + 1)
    let b1 ← (← bskAt bsk (3 * j)).asWords
    let b2 ← (← bskAt bsk (3 * j + 1)).asWords
    let b3 ← (← bskAt bsk (3 * j + 2)).asWords
    let factor : Fin ((k + 1) * dp.levelCount) → Fin (k + 1) → Fin n → W := fun r p c =>
      scaleByXPowerNMinus1 power1.toNat (b1 r p) logModulus c +
      scaleByXPowerNMinus1 power2.toNat (b2 r p) logModulus c +
      scaleByXPowerNMinus1 power3.toNat (b3 r p) logModulus c
    let e ← jitExternalProduct be dp (.words factor) acc false
    pure (fun p c => acc p c + e p c)
  else do
    let mul : Fin (k + 1) → Fin n → W := fun p => monomialMul (acc p) (at_ j).toNat logModulus
    jitCmux be dp (← bskAt bsk j) acc mul bsk.useBat

/-- `jax.lax.fori_loop(0, count, body, init)`. -/
def foriLoop {α : Type} (body : Nat → α → Except String α) : Nat → α → Except String α
  | 0, a => .ok a
  | t + 1, a => do body t (← foriLoop body t a)

/-- `jit_blind_rotate`, bootstrap.py L528-606. -/
def jitBlindRotate (be : Backend) {d k n : Nat} (dp : DecompositionParameters)
    (rotPolynomial : Fin (k + 1) → Fin n → W) (ci : Fin (d + 1) → W)
    (bsk : BootstrappingKey ((k + 1) * dp.levelCount) k n) (logModulus : Nat) :
    Except String (Fin (k + 1) → Fin n → W) :=
  let bTilde := ci (Fin.last d)
  let cPrime : Fin (k + 1) → Fin n → W := fun p => monomialMul (rotPolynomial p) (-bTilde).toNat logModulus
  let numLoopTerms := if bsk.useBmmp then d / 2 else d
  foriLoop (oneExternalProduct be dp ci bsk logModulus) numLoopTerms cPrime

/-- `jit_sample_extract`, bootstrap.py L614-650. -/
def jitSampleExtract {k n : Nat} [NeZero n] (ct : Fin (k + 1) → Fin n → W) : Fin (k * n + 1) → W :=
  let signedOnes : Fin n → W := fun i => if i.val > 0 then -1 else 1
  -- `jnp.flip(jnp.roll(ct[:-1, :], -1, axis=-1), axis=-1)`
  let extracted : Fin k → Fin n → W := fun p i => roll (ct p.castSucc) (-1) i.rev
  let sample : Fin (k * n) → W := fun i => signedOnes i.modNat * extracted i.divNat i.modNat
  Fin.snoc (α := fun _ => W) sample (ct (Fin.last k) 0)

/-- `jit_bootstrap`, bootstrap.py L232-297, and `bootstrap`, L301-375 (same steps, callbacks omitted).
The scheme parameters give `log_plaintext_modulus` and `log_mod_degree`. -/
def jitBootstrap (be : Backend) {d k n : Nat} [NeZero n] (logPlaintextModulus logModDegree : Nat)
    (bsDp : DecompositionParameters) {ksLevels : Nat} (ksLogBase : Nat) (ciphertext : Fin (d + 1) → W)
    (testPoly : Fin (k + 1) → Fin n → W)
    (bsk : BootstrappingKey ((k + 1) * bsDp.levelCount) k n)
    (ksk : Fin (k * n) → Fin ksLevels → Fin (d + 1) → W) : Except String (Fin (d + 1) → W) := do
  let approx := Lwe.switchModulus ciphertext logPlaintextModulus (logModDegree + 1)
  let rotated ← jitBlindRotate be bsDp testPoly approx bsk logPlaintextModulus
  let extracted := jitSampleExtract rotated
  pure (KeySwitch.jitSwitchKey ksk extracted ksLogBase)

end Verif.Bootstrap

namespace Verif.TestPolynomial
open Verif.Arith Verif.Rlwe

/-- `_pad_for_error`, test_polynomial.py L48-90: `repeat` each coefficient `block_width` times, move the
first half block to the end, negated modulo `coeff_mod`. -/
def padForError (polynomial : List Int) (modDegree : Nat) (coeffMod : Int) : List Int :=
  let blockWidth := modDegree / polynomial.length
  let blocks := polynomial.flatMap (fun c => List.replicate blockWidth c)
  let splitIndex := blockWidth / 2
  let firstHalfBlock := blocks.take splitIndex
  let negated := firstHalfBlock.map (fun c => (-c) % coeffMod)
  blocks.drop splitIndex ++ negated

/-- `gen_test_polynomial`, test_polynomial.py L93-150. -/
def genTestPolynomial (coefficients : List Int) (p : Encoding.EncodingParameters) (modDegree : Nat) :
    Except String (List W) :=
  let messageSpaceSize := 2 ^ p.messageBitLength
  if modDegree < coefficients.length then .error "ValueError"
  else if coefficients.length ≠ messageSpaceSize then .error "ValueError"
  else
    let padded := padForError coefficients modDegree (2 ^ (p.paddingBitLength + p.messageBitLength))
    padded.mapM (fun c => Encoding.encode c p true)

/-- `identity_test_polynomial`, test_polynomial.py L153-179. -/
def identityTestPolynomial (p : Encoding.EncodingParameters) (modDegree : Nat) : Except String (List W) :=
  genTestPolynomial ((List.range (2 ^ p.messageBitLength)).map (fun i : Nat => (i : Int))) p modDegree

/-- `trivial_encryption`, test_polynomial.py L182-211: encryption with the all-zero generator. -/
def trivialEncryption (be : Backend) (k : Nat) {n : Nat} (testPolynomial : Fin n → W)
    (logPlaintextModulus : Nat) : Fin (k + 1) → Fin n → W :=
  Rlwe.jitEncrypt be testPolynomial (fun _ _ => 0) (fun _ _ => 0) (fun _ => 0) logPlaintextModulus

end Verif.TestPolynomial
