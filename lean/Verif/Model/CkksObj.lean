import Verif.Model.RescaleArr
import Verif.Model.CkksMul

/-!
# Model of products, relinearisation, decryption and addition on whole objects, with array shapes

`Verif.Model.CkksMul` and `Verif.Model.CkksKeys` take elements with one limb for each modulus. Here the data of a ciphertext
is an array of shape `(num_elements, degree, num_limbs)`; operations broadcast and raise when they cannot, and an index beyond
the end of an array is clamped, as in JAX. Data of shape `(degree, num_limbs)` is an array with one element.

Simplifications: the kinds of the exceptions for shapes that do not fit are not distinguished (JAX raises `TypeError`, NumPy
`ValueError`); `relinearize` collects the requirements on shapes, which the code meets one after the other, at its start.
-/

namespace Verif.CkksObj
open Verif.Barrett Verif.CkksKeys Verif.CkksMul Verif.RescaleArr

/-- A `Plaintext` object, types.py L10-21. -/
structure PtObj where
  data : Arr Nat
  moduli : List Nat

/-- A `SecretKey` object, types.py L48-53. -/
structure SkObj where
  data : Arr Nat
  moduli : List Nat

/-- An `EvaluationKeys` object, mul.py L99-106: `a` and `b` have shape `(dnum, degree, num_limbs)`. -/
structure EvkObj where
  a : Arr Nat
  b : Arr Nat
  moduli : List Nat

/-- `data[k]`: JAX clamps an index beyond the end; an axis without entries cannot be indexed. -/
def elem (A : Arr Nat) (k : Nat) : Except String (Arr Nat) :=
  if A.e = 0 then .error "IndexError" else .ok ⟨1, A.n, A.l, fun _ p i => A.get (min k (A.e - 1)) p i⟩

/-- `jnp.stack` of three arrays of one shape, mul.py L377. -/
def stack3 (x y z : Arr Nat) : Arr Nat :=
  ⟨3, x.n, x.l, fun a p i => (if a = 0 then x.get 0 p i else if a = 1 then y.get 0 p i else z.get 0 p i) % 2 ^ 32⟩

/-- `Mul.tensor_multiply`, mul.py L361-378; `none` is the uninitialised kernel. `ct2.moduli` is not read, nor is any attribute
of the kernel. -/
def tensorMultiply (kernel : Option CkksMul.Kernel) (ct1 ct2 : CtObj) : Except String CtObj :=
  match kernel with
  | none => .error "ValueError"
  | some _ => do
    let a0 ← elem ct1.data 0
    let a1 ← elem ct1.data 1
    let b0 ← elem ct2.data 0
    let b1 ← elem ct2.data 1
    let moduli := row 0 ct1.moduli
    let p00 ← map2 mul64 a0 b0
    let mul0 ← map2 (fun x q : Nat => x % q) p00 moduli
    let p11 ← map2 mul64 a1 b1
    let mul2 ← map2 (fun x q : Nat => x % q) p11 moduli
    let p01 ← map2 mul64 a0 b1
    let p10 ← map2 mul64 a1 b0
    let sum ← map2 add64 p01 p10
    let mul1 ← map2 (fun x q : Nat => x % q) sum moduli
    pure { data := stack3 mul0 mul1 mul2, moduli := ct1.moduli }

/-- `MulPlaintextCiphertextSimple.mul`, mul.py L37-42. -/
def mulSimple (ct : CtObj) (pt : PtObj) : Except String CtObj :=
  if ct.moduli ≠ pt.moduli then .error "ValueError"
  else do
    let data ← map2 (fun x y : Nat => x * y % 2 ^ 32) ct.data pt.data
    pure { data := data, moduli := ct.moduli }

/-- `MulPlaintextCiphertextBarrett.mul`, mul.py L72-88; the constants are those of the moduli `ms`. -/
def mulBarrett (constants : Option (List Nat)) (ct : CtObj) (pt : PtObj) : Except String CtObj :=
  match constants with
  | none => .error "ValueError"
  | some ms =>
    if ct.moduli ≠ pt.moduli then .error "ValueError"
    else do
      let prod ← map2 mul64 ct.data pt.data
      let reduced ← map2 (fun z m : Nat => modularReduction z (Barrett.precompute m) % 2 ^ 32) prod (row 0 ms)
      pure { data := reduced, moduli := ct.moduli }

/-- `AddModularSubtract.add` on the data of two ciphertexts, add.py L81-88. -/
def addSubtract (ms : List Nat) (a b : Arr Nat) : Except String (Arr Nat) := do
  let res ← map2 (fun x y : Nat => (x + y) % 2 ^ 32) a b
  map2 (fun x q : Nat => if x ≥ q then x - q else x) res (row 0 ms)

/-- A part of an evaluation key as used in a product with data of `degree` rows and all limbs, mul.py L489-497. -/
def keyPart (A : Arr Nat) (part : Nat) : Mat := fun i p => A.get part (pick A.n p) (pick A.l i)

/-- `Mul.relinearize`, mul.py L380-572, on one ciphertext whose shape fits. The third element must exist (L433-435, an empty array
cannot be reshaped), it must have `degree` rows (L479), and the parts of the key must be broadcastable to all limbs (L489-501).
Further elements and all `moduli` attributes are not looked at. Simplification: a number of limbs other than that of the moduli of
the kernel is refused; the method broadcasts when one of the two is one, see `Verif.Model.RelinBatch`, which has every shape. -/
def relinearize (kernel : Option CkksMul.Kernel) (ct : CtObj) (evk : EvkObj) : Except String CtObj :=
  match kernel with
  | none => .error "ValueError"
  | some K =>
    let degree := K.r * K.c
    let all := K.moduliQ.length + K.moduliP.length
    if ct.data.e < 3 then .error "TypeError"
    else if ct.data.l ≠ K.moduliQ.length then .error "ValueError"
    else if ct.data.n ≠ degree then .error "TypeError"
    else if ¬ (evk.a.n = degree ∨ evk.a.n = 1) ∨ ¬ (evk.b.n = degree ∨ evk.b.n = 1) then .error "TypeError"
    else if ¬ (evk.a.l = all ∨ evk.a.l = 1) ∨ ¬ (evk.b.l = all ∨ evk.b.l = 1) then .error "TypeError"
    else do
      let keys : EvalKeys :=
        { a := (List.range evk.a.e).map (keyPart evk.a), b := (List.range evk.b.e).map (keyPart evk.b), moduli := evk.moduli }
      let r ← CkksMul.relinearize (some K) (fun i p => ct.data.get 0 p i) (fun i p => ct.data.get 1 p i)
        (fun i p => ct.data.get 2 p i) keys
      pure { data := ⟨2, degree, K.moduliQ.length, fun a p i => if a = 0 then r.1 i p else r.2 i p⟩, moduli := ct.moduli }

/-- `Decrypt.decrypt`, encrypt.py L98-122. -/
def decrypt (sk : SkObj) (ct : CtObj) : Except String PtObj :=
  let num := ct.moduli.length
  if ct.moduli ≠ sk.moduli.take num then .error "ValueError"
  else do
    let c0 ← elem ct.data 0
    let c1 ← elem ct.data 1
    let s : Arr Nat := { sk.data with l := min sk.data.l num }
    let q := row 0 ct.moduli
    let prod ← map2 mul64 c1 s
    let red ← map2 (fun x m : Nat => x % m) prod q
    let sum ← map2 add64 c0 red
    let res ← map2 (fun x m : Nat => x % m) sum q
    if res.l < num then throw "IndexError"
    let coeffs ← inttMat res.n ct.moduli (fun i p => res.get 0 p i)
    pure { data := ⟨1, res.n, num, fun _ p i => coeffs i p % 2 ^ 32⟩, moduli := ct.moduli }

end Verif.CkksObj
