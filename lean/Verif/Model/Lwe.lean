import Verif.Model.Arith
import Verif.Model.Encoding

/-!
# Model of `jaxite/jaxite_cggi/lwe.py`, and the linear part of `jaxite_bool`

An LWE ciphertext of dimension `n` is a vector of `n + 1` words, the last of which is the body.
Random samples are arguments.
-/

namespace Verif.Lwe
open Verif.Arith

/-- `LweSecretKey`, lwe.py L16-34. -/
structure LweSecretKey (n : Nat) where
  logModulus : Nat
  keyData : Fin n → W

/-- `jnp.dot` of two vectors of `uint32` (wraps modulo `2^32`). -/
def dot {n : Nat} (a b : Fin n → W) : W := ∑ i, a i * b i

/-- `jit_encrypt`, lwe.py L65-78 (`encrypt`, L48-60, only draws the samples). -/
def jitEncrypt {n : Nat} (plaintext : W) (keyData aiSamples : Fin n → W) (errorSample : W)
    (logModulus : Nat) : Fin (n + 1) → W :=
  let cleanProduct := dot aiSamples keyData + plaintext
  let obfuscatedProduct := cleanProduct + errorSample
  Fin.snoc (α := fun _ => W) aiSamples (modLog obfuscatedProduct logModulus)

/-- `decrypt_without_denoising`, lwe.py L81-90. -/
def decryptWithoutDenoising {n : Nat} (ciphertext : Fin (n + 1) → W) (sk : LweSecretKey n) : W :=
  let obfuscatedPlaintext :=
    ciphertext (Fin.last n) - dot (fun i => ciphertext i.castSucc) sk.keyData
  modLog obfuscatedPlaintext sk.logModulus

/-- `decrypt`, lwe.py L93-101. -/
def decrypt {n : Nat} (ciphertext : Fin (n + 1) → W) (sk : LweSecretKey n)
    (p : Encoding.EncodingParameters) : W :=
  Encoding.removeNoise (decryptWithoutDenoising ciphertext sk) p

/-- `noiseless_embedding`, lwe.py L104-109. -/
def noiselessEmbedding (plaintext : W) (n : Nat) : Fin (n + 1) → W :=
  Fin.snoc (α := fun _ => W) (fun _ => 0) plaintext

/-- `switch_modulus`, lwe.py L112-145. -/
def switchModulus {n : Nat} (ciphertext : Fin (n + 1) → W) (logIn logOut : Nat) : Fin (n + 1) → W :=
  let divisor : W := BitVec.ofNat 32 (2 ^ (logIn - logOut))
  fun i => (integerDiv (ciphertext i) divisor) % BitVec.ofNat 32 (2 ^ logOut)

/-! ## The gates of `jaxite_bool.py` that do not bootstrap -/

/-- `jaxite_bool.encrypt`, jaxite_bool.py L84-90. -/
def boolEncrypt {n : Nat} (value : Bool) (sk : LweSecretKey n) (ai : Fin n → W) (e : W) :
    Except String (Fin (n + 1) → W) := do
  let cleartext : Int := if value then 1 else 0
  let plaintext ← Encoding.encode cleartext Encoding.boolParams
  pure (jitEncrypt plaintext sk.keyData ai e sk.logModulus)

/-- `jaxite_bool.decrypt`, jaxite_bool.py L93-100; the failed assertion is an error value. -/
def boolDecrypt {n : Nat} (ciphertext : Fin (n + 1) → W) (sk : LweSecretKey n) : Except String Bool :=
  let plaintext := decrypt ciphertext sk Encoding.boolParams
  let cleartext := Encoding.decode plaintext Encoding.boolParams
  if cleartext = 2#32 then .error "AssertionError" else .ok (cleartext ≠ 0#32)

/-- `Parameters.noiseless_true` / `noiseless_false`, bool_params.py L43-57. -/
def noiselessBool (value : Bool) (n : Nat) : Except String (Fin (n + 1) → W) := do
  let plaintext ← Encoding.encode (if value then 1 else 0) Encoding.boolParams
  pure (noiselessEmbedding plaintext n)

/-- `jaxite_bool.constant`, jaxite_bool.py L103-104. -/
def constant (value : Bool) (n : Nat) : Except String (Fin (n + 1) → W) := noiselessBool value n

/-- `jaxite_bool.not_`, jaxite_bool.py L107-111. -/
def not_ {n : Nat} (ciphertext : Fin (n + 1) → W) : Except String (Fin (n + 1) → W) := do
  let t ← noiselessBool true n
  pure (fun i => t i - ciphertext i)

/-- `jaxite_bool.lut1`, jaxite_bool.py L314-329, for an arbitrary Python integer as table. -/
def lut1 {n : Nat} (a : Fin (n + 1) → W) (truthTable : Int) : Except String (Fin (n + 1) → W) :=
  if truthTable = 0 ∨ truthTable = 3 then constant (truthTable ≠ 0) n
  else if truthTable = 1 then not_ a
  else if truthTable = 2 then .ok a
  else .error "ValueError"

end Verif.Lwe
