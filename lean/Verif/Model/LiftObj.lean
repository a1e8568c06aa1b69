import Verif.Model.RescaleArr
import Verif.Model.CkksMul

/-!
# Model of `lift_ciphertext` on whole objects: `jaxite/jaxite_ckks/blind_rotate_utils.py` L44-97, with array shapes

`Verif.Model.CkksSession` takes two elements and reduces by the moduli of the ciphertext. Here the data is an array of shape
`(num_elements, degree, num_limbs)` and each transform kernel reduces by the moduli it was built for. Along the axis of moduli the
arrays broadcast: an axis of length one, of the data or of the constants, is repeated (`jnp.einsum` repeats it as the elementwise
operations do).

Simplifications: the kinds of the exceptions for shapes that do not fit are not distinguished; the transform kernels were built for
the `r` and `c` of the call; an array without entries, whose reshapes succeed for every `r` and `c`, is refused when its degree is
not `r * c`; the constants of a basis conversion that cannot be computed raise at the call instead of when the kernel is built.
-/

namespace Verif.LiftObj
open Verif.NttBat Verif.Rescale Verif.RescaleArr Verif.CkksMul

/-- The kernel of an `NTTBarrett` after its constants were computed for the moduli, ntt.py L128-242 (the arrays of no tables cannot be
transposed). -/
def nttKernel (r c : Nat) (moduli : List Nat) : Except String NttK := do
  if moduli = [] then throw "ValueError"
  let tables ← moduli.mapM (fun (q : Nat) => precomputeTables r c q)
  pure (moduli.zip tables)

/-- A transform, `ntt` or `intt`, along the axis of moduli, ntt.py L244-290. -/
def transformArr (f : Nat → Nat → Nat → Tables → (Nat → Nat) → Nat → Nat) (r c : Nat) (K : NttK) (A : Arr Nat) :
    Except String (Arr Nat) := do
  let l ← bdim A.l K.length
  pure ⟨A.e, A.n, l, fun a p i =>
    f r c (K.getD (pick K.length i) (0, noTables)).1 (K.getD (pick K.length i) (0, noTables)).2
      (fun t => A.get a t (pick A.l i)) p⟩

/-- `basis_change`, basis_conversion.py L147-174, on an array: the product with `q_hat_inv_mod_q` (L157) repeats a single limb, the
contraction (L163-168) needs one limb for each original modulus. -/
def basisChangeArr (original target : List Nat) (A : Arr Nat) : Except String (Arr Nat) := do
  let l ← bdim A.l original.length
  if l ≠ original.length then throw "ValueError"
  let els ← (List.range A.e).mapM (fun a => basisChangeMat A.n original target (fun i t => A.get a t (pick A.l i)))
  pure ⟨A.e, A.n, target.length, fun a t j => els.getD a (fun _ _ => 0) j t⟩

/-- `lift_ciphertext`, blind_rotate_utils.py L44-97. -/
def liftCiphertext (ct : CtObj) (bc : BcKernel) (controlIndex : Nat) (p : List Nat) (nttQ nttP : NttK) (r c : Nat) :
    Except String CtObj := do
  if ct.data.n ≠ r * c then throw "TypeError"
  let coef ← transformArr inttFlat r c nttQ ct.data
  if coef.l ≠ ct.data.l then throw "TypeError"
  match bc[controlIndex]? with
  | none => throw "IndexError"
  | some (original, target) => do
    let conv ← basisChangeArr original target coef
    if conv.l ≠ p.length then throw "TypeError"
    let dataP ← transformArr nttFlat r c nttP conv
    if dataP.l ≠ p.length then throw "TypeError"
    pure { data := ⟨ct.data.e, ct.data.n, ct.data.l + p.length,
             fun a t i => if i < ct.data.l then ct.data.get a t i else dataP.get a t (i - ct.data.l)⟩
           moduli := ct.moduli ++ p }

end Verif.LiftObj
