import Verif.Model.CkksRotate

/-!
# Programs over the CKKS package

An expression is a sequence of calls of the public operations, each with the kernel precomputed for the moduli of its
operand: `AddModularSubtract.add` on both elements, `Mul.tensor_multiply` and `Mul.relinearize`,
`MulPlaintextCiphertextBarrett.mul`, `BlindRotate.hmuxrot`, `Conjugate.conjugate`, `Rescale.rescale`. The functions are
those of the other models; this file only composes them, as the package's tests do (mul_test.py, blind_rotate_test.py,
conjugate_test.py, rescale_test.py).
-/

namespace Verif.CkksCircuit
open Verif.Barrett Verif.CkksKeys Verif.CkksMul Verif.CkksRotate

inductive Expr where
  | input (i : Nat)
  | add (a b : Expr)
  | mul (a b : Expr)
  | mulPlain (a : Expr) (j : Nat)
  | rotate (r : Nat) (a : Expr)
  | conj (a : Expr)
  | rescale (n : Nat) (a : Expr)

/-- The constants and keys of a program. Keys are indexed by the moduli they were generated for. `original` are the moduli
handed to `Mul.precompute_constants` (it drops the last `deg`). -/
structure Tools where
  kr : Nat
  kc : Nat
  aux : List Nat
  dnum : Nat
  original : List Nat → List Nat
  deg : Nat
  evk : List Nat → EvalKeys
  conjKey : List Nat → EvalKeys
  rotKey : List Nat → Nat → HMuxRotKey

/-- Addition of both elements with `AddModularSubtract.add`, add.py L86-92. Moduli that differ do not broadcast (or would
give a meaningless sum); the model rejects them. -/
def addCt (A B : Ciphertext) : Except String Ciphertext :=
  if A.moduli ≠ B.moduli then .error "TypeError"
  else .ok { c0 := fun i p => addModularSubtract (A.moduli.getD i 0) (A.c0 i p) (B.c0 i p),
             c1 := fun i p => addModularSubtract (A.moduli.getD i 0) (A.c1 i p) (B.c1 i p), moduli := A.moduli }

/-- `tensor_multiply` and `relinearize`, mul.py L380-572. -/
def mulCt (T : Tools) (A B : Ciphertext) : Except String Ciphertext := do
  let K ← precomputeMul (T.original A.moduli) T.aux T.dnum (2 ^ T.kr) (2 ^ T.kc) T.deg
  let t ← tensorMultiply (some K) A B
  let r ← relinearize (some K) t.1 t.2.1 t.2.2 (T.evk A.moduli)
  pure { c0 := r.1, c1 := r.2, moduli := A.moduli }

/-- `MulPlaintextCiphertextBarrett.mul`, mul.py L72-88. -/
def mulPlainCt (A : Ciphertext) (pt : Plaintext) : Except String Ciphertext := do
  let r0 ← mulBarrett (some A.moduli) A.moduli pt.moduli A.c0 pt.data
  let r1 ← mulBarrett (some A.moduli) A.moduli pt.moduli A.c1 pt.data
  pure { c0 := r0, c1 := r1, moduli := A.moduli }

/-- `hmuxrot` with a key for the bit 1, blind_rotate.py L105-172. -/
def rotateCt (T : Tools) (r : Nat) (A : Ciphertext) : Except String Ciphertext := do
  let K ← CkksRotate.precompute A.moduli T.aux 1 (2 ^ T.kr) (2 ^ T.kc) T.aux.length
  hmuxrot K (2 ^ (T.kr + T.kc)) A (T.rotKey A.moduli r) r T.aux 0

/-- `conjugate`, conjugate.py L55-84. -/
def conjCt (T : Tools) (A : Ciphertext) : Except String Ciphertext := do
  let S ← precomputeSwitch A.moduli T.aux T.dnum (2 ^ T.kr) (2 ^ T.kc)
  let R ← Rescale.precompute (A.moduli ++ T.aux) T.aux.length (2 ^ T.kr) (2 ^ T.kc)
  conjugate S R (2 ^ (T.kr + T.kc)) A (T.conjKey A.moduli) T.aux (bcPairs A.moduli T.aux T.dnum)
    (some (A.moduli ++ T.aux)) 0

/-- `rescale` by the last `n` moduli, rescale.py L151-219. -/
def rescaleBy (T : Tools) (n : Nat) (A : Ciphertext) : Except String Ciphertext := do
  let K ← Rescale.precompute A.moduli n (2 ^ T.kr) (2 ^ T.kc)
  rescaleCt K (2 ^ (T.kr + T.kc)) A

/-- The value of an expression; a missing input is an `IndexError`. -/
def run (T : Tools) (cts : List Ciphertext) (pts : List Plaintext) : Expr → Except String Ciphertext
  | .input i => match cts[i]? with
    | some ct => .ok ct
    | none => .error "IndexError"
  | .add a b => do
    let x ← run T cts pts a
    let y ← run T cts pts b
    addCt x y
  | .mul a b => do
    let x ← run T cts pts a
    let y ← run T cts pts b
    if x.moduli ≠ y.moduli then throw "TypeError"
    mulCt T x y
  | .mulPlain a j => do
    let x ← run T cts pts a
    match pts[j]? with
    | some pt => mulPlainCt x pt
    | none => throw "IndexError"
  | .rotate r a => do
    let x ← run T cts pts a
    rotateCt T r x
  | .conj a => do
    let x ← run T cts pts a
    conjCt T x
  | .rescale n a => do
    let x ← run T cts pts a
    rescaleBy T n x

end Verif.CkksCircuit
