import Verif.Model.CkksObj
import Verif.Model.LiftObj

/-!
# Model of `Mul.relinearize` on batches: `jaxite/jaxite_ckks/mul.py` L380-572, with array shapes

`Verif.Model.CkksObj` takes one ciphertext and refuses what does not fit. Here the data has any number of leading axes, and every
operation of the method works on shapes as JAX does: axes of length one are repeated (also by the `einsum` of the transforms),
`reshape` regroups the last two axes, and `jnp.take` fills the places of indices beyond the end with `2^32 - 1`.

An array has the shape `(*lead, e, n, l)`; the leading axes are counted by one flat index, and so are the last two.

Simplifications: the kinds of the exceptions for shapes that do not fit are not distinguished; the leading axes and the axis of
elements of two operands of an elementwise operation are required to be equal (within the method they are); the transforms were
built for the `r` and `c` of the kernel and `self.degree` is `r * c` (mul.py L213); the constants of a basis conversion
that cannot be computed raise at the call instead of when the kernel is built.
-/

namespace Verif.RelinBatch
open Verif.Barrett Verif.NttBat Verif.Rescale Verif.RescaleArr Verif.CkksMul Verif.CkksMath

/-- An array of shape `(*lead, e, n, l)`. -/
structure BArr (α : Type) where
  lead : List Nat
  e : Nat
  n : Nat
  l : Nat
  /-- flat leading index, element, flat index of the last two axes -/
  get : Nat → Nat → Nat → α

/-- The entry in row `t` and column `i` of the last two axes. -/
def BArr.at {α : Type} (A : BArr α) (b k t i : Nat) : α := A.get b k (t * A.l + i)

/-- The array with the given entries. -/
def BArr.of {α : Type} (lead : List Nat) (e n l : Nat) (g : Nat → Nat → Nat → Nat → α) : BArr α :=
  ⟨lead, e, n, l, fun b k x => g b k (x / l) (x % l)⟩

/-- `x[..., start:stop, :, :]` for `start ≤ stop`, mul.py L432-435. -/
def sliceE {α : Type} (A : BArr α) (start stop : Nat) : BArr α :=
  ⟨A.lead, min stop A.e - start, A.n, A.l, fun b k x => A.get b (start + k) x⟩

/-- `x[..., start:stop]` for `start ≤ stop`, mul.py L523-525 and L550. -/
def sliceL {α : Type} (A : BArr α) (start stop : Nat) : BArr α :=
  BArr.of A.lead A.e A.n (min stop A.l - start) (fun b k t i => A.at b k t (start + i))

/-- `x.reshape(*x.shape[:-2], r, c, -1)` with the rows counted by one index, mul.py L439-441, L465-467, L528 and L539-541; the missing
length cannot be found when the other axes have no entries. -/
def reshapeRows {α : Type} (rows : Nat) (A : BArr α) : Except String (BArr α) :=
  if A.lead.prod * A.e * rows = 0 then .error "TypeError"
  else if A.n * A.l % rows ≠ 0 then .error "TypeError"
  else .ok { A with n := rows, l := A.n * A.l / rows }

/-- A transform kernel along the axis of moduli, ntt.py L244-290. -/
def transform (f : Nat → Nat → Nat → Tables → (Nat → Nat) → Nat → Nat) (r c : Nat) (T : NttK) (A : BArr Nat) :
    Except String (BArr Nat) := do
  let l ← bdim A.l T.length
  pure (BArr.of A.lead A.e A.n l (fun b k t i =>
    f r c (T.getD (pick T.length i) (0, noTables)).1 (T.getD (pick T.length i) (0, noTables)).2
      (fun s => A.at b k s (pick A.l i)) t))

/-- `jnp.take(x, indices, axis=-1)` for `uint32` data, mul.py L455, L477 and L484-486. -/
def takeL (A : BArr Nat) (idx : List Nat) : BArr Nat :=
  BArr.of A.lead A.e A.n idx.length (fun b k t j =>
    if idx.getD j 0 < A.l then A.at b k t (idx.getD j 0) else 2 ^ 32 - 1)

/-- `basis_change`, basis_conversion.py L147-174: the product with `q_hat_inv_mod_q` (L157) repeats a single limb, the contraction
(L163-168) needs one limb for each original modulus. -/
def basisChange (original target : List Nat) (A : BArr Nat) : Except String (BArr Nat) := do
  let l ← bdim A.l original.length
  if l ≠ original.length then throw "ValueError"
  let els ← (List.range (A.lead.prod * A.e)).mapM (fun x =>
    basisChangeMat A.n original target (fun i t => A.at (x / A.e) (x % A.e) t (pick A.l i)))
  pure (BArr.of A.lead A.e A.n target.length (fun b k t j => els.getD (b * A.e + k) (fun _ _ => 0) j t))

/-- `jnp.concatenate([x, y], axis=-1)`, mul.py L479-481. -/
def concatL (A B : BArr Nat) : Except String (BArr Nat) :=
  if A.lead ≠ B.lead ∨ A.e ≠ B.e ∨ A.n ≠ B.n then .error "TypeError"
  else .ok (BArr.of A.lead A.e A.n (A.l + B.l) (fun b k t i => if i < A.l then A.at b k t i else B.at b k t (i - A.l)))

/-- `jnp.concatenate([x, y], axis=-3)`, mul.py L514-516. -/
def concatE (A B : BArr Nat) : Except String (BArr Nat) :=
  if A.lead ≠ B.lead ∨ A.n ≠ B.n ∨ A.l ≠ B.l then .error "TypeError"
  else .ok (BArr.of A.lead (A.e + B.e) A.n A.l (fun b k t i => if k < A.e then A.at b k t i else B.at b (k - A.e) t i))

/-- An elementwise operation on two arrays. -/
def map2 {α β γ : Type} (f : α → β → γ) (A : BArr α) (B : BArr β) : Except String (BArr γ) := do
  if A.lead ≠ B.lead ∨ A.e ≠ B.e then throw "ValueError"
  let n ← bdim A.n B.n
  let l ← bdim A.l B.l
  pure (BArr.of A.lead A.e n l (fun b k t i => f (A.at b k (pick A.n t) (pick A.l i)) (B.at b k (pick B.n t) (pick B.l i))))

/-- An elementwise operation with a row of constants. -/
def mapRow {α β : Type} (f : α → Nat → β) (A : BArr α) (row : List Nat) : Except String (BArr β) := do
  let l ← bdim A.l row.length
  pure (BArr.of A.lead A.e A.n l (fun b k t i => f (A.at b k t (pick A.l i)) (row.getD (pick row.length i) 0)))

/-- `evk.a[part]`, mul.py L489-490: an index beyond the end selects the last part; without parts it cannot be indexed. -/
def keyPart (A : Arr Nat) (part : Nat) : Except String (Nat → Nat → Nat) :=
  if A.e = 0 then .error "IndexError" else .ok (A.get (min part (A.e - 1)))

/-- The product with a part of a key and its reduction, mul.py L492-501. -/
def keyProduct (K : CkksMul.Kernel) (A : Arr Nat) (part : Nat) (X : BArr Nat) : Except String (BArr Nat) := do
  let key ← keyPart A part
  let n ← bdim X.n A.n
  let l ← bdim X.l A.l
  let prod := BArr.of X.lead X.e n l (fun b k t i => mul64 (X.at b k (pick X.n t) (pick X.l i)) (key (pick A.n t) (pick A.l i)))
  mapRow (fun x m => modularReduction x (precompute m)) prod (K.moduliQ ++ K.moduliP)

/-- `ntt_current`, mul.py L287-299. -/
def nttCurrent (K : CkksMul.Kernel) : NttK := K.moduliQ.zip K.tables
/-- `ntt_extend`, mul.py L301-316. -/
def nttExtend (K : CkksMul.Kernel) : NttK := K.moduliP.zip (K.tables.drop K.moduliQ.length)
/-- `ks_ntt_kernels[part]`, mul.py L322-335. -/
def nttPart (K : CkksMul.Kernel) (idx : List Nat) : NttK :=
  idx.map (fun i => ((K.moduliQ ++ K.moduliP).getD i 0, K.tables.getD i noTables))

/-- The extended part, mul.py L453-486. -/
def extendPart (K : CkksMul.Kernel) (part : Nat) (last coeffs : BArr Nat) : Except String (BArr Nat) := do
  let all := K.moduliQ ++ K.moduliP
  let st := K.control.getD (part + 1) ([], [])
  let selected := takeL coeffs st.1
  let conv ← basisChange (st.1.map (fun i => all.getD i 0)) (st.2.map (fun i => all.getD i 0)) selected
  let conv ← reshapeRows (K.r * K.c) conv
  let eval ← transform nttFlat K.r K.c (nttPart K st.2) conv
  let whole ← concatL (takeL last st.1) eval
  pure (takeL whole (K.restore.getD part []))

/-- The loop over the parts, mul.py L449-508. -/
def loop (K : CkksMul.Kernel) (evk : CkksObj.EvkObj) (last coeffs : BArr Nat) :
    List Nat → Option (BArr Nat × BArr Nat) → Except String (Option (BArr Nat × BArr Nat))
  | [], acc => .ok acc
  | part :: rest, acc => do
    let ext ← extendPart K part last coeffs
    let b ← keyProduct K evk.b part ext
    let a ← keyProduct K evk.a part ext
    match acc with
    | none => loop K evk last coeffs rest (some (b, a))
    | some (x, y) => do
      let x ← map2 add64 x b
      let y ← map2 add64 y a
      loop K evk last coeffs rest (some (x, y))

/-- `sub_result`, mul.py L557-561, on `uint32` values. -/
def correct (q : Nat × Nat) (m : Nat) : Nat :=
  if q.1 < q.2 then (q.1 + m + (2 ^ 32 - q.2)) % 2 ^ 32 else q.1 - q.2

/-- The approximate division by the extended moduli, mul.py L518-566. -/
def modDown (K : CkksMul.Kernel) (core : BArr Nat) : Except String (BArr Nat) := do
  let numQ := K.moduliQ.length
  let pPart ← reshapeRows (K.r * K.c) (sliceL core numQ (numQ + K.moduliP.length))
  let pCoeffs ← transform inttFlat K.r K.c (nttExtend K) pPart
  let all := K.moduliQ ++ K.moduliP
  let st := K.control.getD 0 ([], [])
  let conv ← basisChange (st.1.map (fun i => all.getD i 0)) (st.2.map (fun i => all.getD i 0)) pCoeffs
  let conv ← reshapeRows (K.r * K.c) conv
  let new ← transform nttFlat K.r K.c (nttCurrent K) conv
  let pair ← map2 Prod.mk (sliceL core 0 numQ) new
  let sub ← mapRow correct pair K.moduliQ
  let prod ← mapRow mul64 sub K.pInv
  mapRow (fun x m => x % m) prod K.moduliQ

/-- `Mul.relinearize`, mul.py L380-572; `none` is the uninitialised kernel. The result keeps the `moduli` attribute of the
ciphertext, which is not modelled. -/
def relinearize (kernel : Option CkksMul.Kernel) (ct : BArr Nat) (evk : CkksObj.EvkObj) : Except String (BArr Nat) :=
  match kernel with
  | none => .error "ValueError"
  | some K => do
    let last := sliceE ct 2 3
    let rows ← reshapeRows (K.r * K.c) last
    let coeffs ← transform inttFlat K.r K.c (nttCurrent K) rows
    let acc ← loop K evk last coeffs (List.range (K.control.length - 1)) none
    match acc with
    | none => throw "AttributeError"
    | some (x, y) => do
      let all := K.moduliQ ++ K.moduliP
      let ks0 ← mapRow (fun x m => modularReduction x (precompute m)) x all
      let ks1 ← mapRow (fun x m => modularReduction x (precompute m)) y all
      let core ← concatE ks0 ks1
      let down ← modDown K core
      let sum ← map2 (fun x y => (x + y) % 2 ^ 32) (sliceE ct 0 2) down
      mapRow (fun x m => if x ≥ m then x - m else x) sum K.moduliQ

end Verif.RelinBatch
