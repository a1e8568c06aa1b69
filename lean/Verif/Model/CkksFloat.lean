import Verif.Model.CkksCircuit
import Verif.Model.CkksSession
import Verif.Model.EncodeFloat

/-!
# A CKKS session in floating-point arithmetic

The calls a user makes before and after a homomorphic program: `encode` and `encrypt` for every input
(encode.py L134-159, encrypt.py L46-89), `encode` for every plaintext operand, `decrypt` and `decode` for the result
(encrypt.py L98-122, encode.py L169-195), with the arithmetic of `Arith` in place of exact complex numbers.
-/

namespace Verif.CkksFloat
open Verif.CkksKeys Verif.CkksSession Verif.EncodeFloat Verif.CkksMul Verif.CkksRotate Verif.CkksCircuit

/-- What a user encodes: the slots, the scale, the number of moduli, and a bound on the slots (used in statements only). -/
structure Item where
  level : Nat
  scale : ℝ
  mag : ℝ
  slots : List ℂ

/-- `encode` for every item in turn, encode.py L134-159. -/
noncomputable def encodeAll (A : Arith) (degree : Nat) (ms : List Nat) : List Item → Except String (List Plaintext)
  | [] => .ok []
  | x :: rest => do
    let pt ← encodeF A degree (ms.take x.level) x.scale x.slots
    let pts ← encodeAll A degree ms rest
    .ok (pt :: pts)

/-- `encrypt` for every plaintext in turn, encrypt.py L46-89, with the draws of one generator. -/
def encryptAll {σ : Type} (rng : Rng σ) (degree : Nat) (pk : PublicKey) : List Plaintext → Draw σ (List Ciphertext)
  | [] => pure []
  | pt :: rest => do
    let ct ← encryptRandom rng degree pk pt
    let cts ← encryptAll rng degree pk rest
    pure (ct :: cts)

/-- The session after key generation: encode and encrypt the inputs, encode the plaintext operands, run the program,
decrypt and decode the result. -/
noncomputable def session {σ : Type} (A : Arith) (rng : Rng σ) (T : Tools) (degree : Nat) (ms : List Nat) (pk : PublicKey)
    (sk : SecretKey) (inputs plains : List Item) (e : Expr) (scale : ℝ) (numSlots : Nat) : Draw σ (List ℂ) := do
  let ptsIn ← MonadExcept.ofExcept (encodeAll A degree ms inputs)
  let cts ← encryptAll rng degree pk ptsIn
  let pts ← MonadExcept.ofExcept (encodeAll A degree ms plains)
  let ct ← MonadExcept.ofExcept (run T cts pts e)
  let pt ← MonadExcept.ofExcept (decrypt degree sk ct)
  MonadExcept.ofExcept (decodeF A (some (scale, numSlots)) degree pt false)

end Verif.CkksFloat
