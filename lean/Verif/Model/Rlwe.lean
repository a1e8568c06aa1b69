import Verif.Model.Lwe
import Verif.Model.MatrixUtils
import Verif.Model.PolymulKernel
import Verif.Model.Decomposition

/-!
# Model of `rlwe.py`, `rgsw.py` and `key_switch.py` (`jaxite/jaxite_cggi`)

A polynomial is its vector of `N` coefficients; an RLWE ciphertext of dimension `k` is `k + 1`
polynomials, the last of which is the body. Arrays whose first axis is a reshape of two axes are indexed
by `Fin (a * b)` with `divNat` / `modNat` (row-major order, as in JAX). Random samples are arguments.
-/

namespace Verif.Rlwe
open Verif.Arith Verif.MatrixUtils Verif.PolymulKernel Verif.Decomposition

/-- What the code asks of the device: the TPU version and the float dot product of its matrix unit. -/
structure Backend where
  tpu : Int
  fdot : FloatDot

/-- `RlweSecretKey`, rlwe.py L84-104. -/
structure RlweSecretKey (k n : Nat) where
  logCoefficientModulus : Nat
  data : Fin k → Fin n → W

/-- `rlwe.jit_encrypt`, rlwe.py L148-170. -/
def jitEncrypt (be : Backend) {k n : Nat} (plaintext : Fin n → W) (keyData aiSamples : Fin k → Fin n → W)
    (errorSample : Fin n → W) (logCoefficientModulus : Nat) : Fin (k + 1) → Fin n → W :=
  let dotProd := polyDotProduct be.tpu aiSamples keyData
  let cleanProduct : Fin n → W := fun i => dotProd i + plaintext i
  let obfuscatedProduct : Fin n → W := fun i => modLog (cleanProduct i + errorSample i) logCoefficientModulus
  Fin.snoc (α := fun _ => Fin n → W) aiSamples obfuscatedProduct

/-- `rlwe.decrypt`, rlwe.py L173-188, before `remove_noise`. -/
def decryptWithNoise (be : Backend) {k n : Nat} (ct : Fin (k + 1) → Fin n → W) (sk : RlweSecretKey k n) :
    Fin n → W :=
  let dotProd := polyDotProduct be.tpu (fun i => ct i.castSucc) sk.data
  fun i => modLog (ct (Fin.last k) i - dotProd i) sk.logCoefficientModulus

/-- `rlwe.decrypt`, rlwe.py L173-188. -/
def decrypt (be : Backend) {k n : Nat} (ct : Fin (k + 1) → Fin n → W) (sk : RlweSecretKey k n)
    (p : Encoding.EncodingParameters) : Fin n → W :=
  fun i => Encoding.removeNoise (decryptWithNoise be ct sk i) p

/-- `flatten_key`, rlwe.py L191-208 (row-major reshape). -/
def flattenKey {k n : Nat} (sk : RlweSecretKey k n) : Lwe.LweSecretKey (k * n) where
  logModulus := sk.logCoefficientModulus
  keyData := fun i => sk.data i.divNat i.modNat

end Verif.Rlwe

namespace Verif.Rgsw
open Verif.Arith Verif.MatrixUtils Verif.PolymulKernel Verif.Decomposition Verif.Rlwe

/-- `DecompositionParameters`, decomposition.py L14-26. -/
structure DecompositionParameters where
  logBase : Nat
  levelCount : Nat
  totalBitLength : Nat := 32

/-- `encrypt_and_modify_one_row`, rgsw.py L216-242. `level` counts from 1; the scalar error is broadcast
over all coefficients and the zero plaintext over the polynomial. -/
def encryptAndModifyOneRow (be : Backend) {k n : Nat} (aiSamples : Fin k → Fin n → W) (errorSample : W)
    (level : Nat) (block : Fin (k + 1)) (plaintext : W) (rlweSk : Fin k → Fin n → W)
    (logBase logCoefficientModulus : Nat) : Fin (k + 1) → Fin n → W :=
  let decomposedPt := plaintext <<< (logCoefficientModulus - logBase * level)
  let rlweZero := Rlwe.jitEncrypt be (fun _ => 0) rlweSk aiSamples (fun _ => errorSample)
    logCoefficientModulus
  fun p c => if p = block ∧ c.val = 0 then rlweZero p c + decomposedPt else rlweZero p c

/-- `rgsw.jit_encrypt`, rgsw.py L153-264: row `(block, level)` of the reshaped array. (`batch_vmap` with
batch size 1 is the map over blocks, see C26.) -/
def jitEncrypt (be : Backend) {k n : Nat} (plaintext : W) (rlweSk : Fin k → Fin n → W)
    (dp : DecompositionParameters) (aiSamples : Fin (k + 1) → Fin dp.levelCount → Fin k → Fin n → W)
    (errorSamples : Fin (k + 1) → Fin dp.levelCount → W) (logCoefficientModulus : Nat) :
    Fin ((k + 1) * dp.levelCount) → Fin (k + 1) → Fin n → W :=
  fun r =>
    encryptAndModifyOneRow be (aiSamples r.divNat r.modNat) (errorSamples r.divNat r.modNat)
      (1 + r.modNat.val) r.divNat plaintext rlweSk dp.logBase logCoefficientModulus

/-- `rgsw.decrypt`, rgsw.py L267-344. `List.finRange.find?` is `next(index for ...)`. -/
def decrypt (be : Backend) {k n : Nat} [NeZero n] (dp : DecompositionParameters) [NeZero dp.levelCount]
    (ct : Fin ((k + 1) * dp.levelCount) → Fin (k + 1) → Fin n → W) (sk : RlweSecretKey k n) :
    Except String W :=
  match (List.finRange k).find? (fun i => sk.data i 0 = 1#32) with
  | none => .error "ValueError"
  | some skIndex =>
    let row := ct (finProdFinEquiv (skIndex.castSucc, (0 : Fin dp.levelCount)))
    let b := row (Fin.last k)
    let innerProduct : Fin n → W := fun c => ∑ i : Fin k, polyMul be.tpu (row i.castSucc) (sk.data i) c
    let noisy : Fin n → W := fun c => innerProduct c - b c
    let shiftLength := sk.logCoefficientModulus - dp.logBase
    let ptWithNoise := Encoding.roundToPowerOf2 (noisy 0) shiftLength >>> shiftLength
    .ok (ptWithNoise % BitVec.ofNat 32 (2 ^ dp.logBase))

end Verif.Rgsw

namespace Verif.KeySwitch
open Verif.Arith Verif.Decomposition Verif.Lwe

/-- `key_switch.gen_key`, key_switch.py L43-107. -/
def genKey {n m : Nat} (dp : Rgsw.DecompositionParameters) (inKey : LweSecretKey n)
    (outKey : LweSecretKey m) (aiSamples : Fin n → Fin dp.levelCount → Fin m → W)
    (errorSamples : Fin n → Fin dp.levelCount → W) : Fin n → Fin dp.levelCount → Fin (m + 1) → W :=
  fun i l =>
    Lwe.jitEncrypt (recompositionSummands (inKey.keyData i) dp.logBase dp.levelCount 32 l) outKey.keyData
      (aiSamples i l) (errorSamples i l) outKey.logModulus

/-- `jit_switch_key`, key_switch.py L124-145. -/
def jitSwitchKey {n m L : Nat} (ksk : Fin n → Fin L → Fin (m + 1) → W) (inp : Fin (n + 1) → W)
    (baseLog : Nat) : Fin (m + 1) → W :=
  let outputData : Fin (m + 1) → W := fun j => if j = Fin.last m then inp (Fin.last n) else 0
  let decompDot : Fin n → Fin (m + 1) → W := fun i j =>
    ∑ l, signedDecomposition (inp i.castSucc) baseLog L 32 l * ksk i l j
  fun j => outputData j - ∑ i, decompDot i j

end Verif.KeySwitch
