import Verif.Model.CkksKeys
import Verif.Model.Bat
import Verif.Model.NttBat
import Verif.Model.Rescale

/-!
# Model of `jaxite/jaxite_ckks/mul.py` and `jaxite/jaxite_ckks/key_switching.py`

Data is a `Mat` (limb, slot). `slice_moduli` of stacked transform tables selects the tables of the chosen moduli, so a
kernel is represented by the list of its tables, and Barrett constants by the list of their moduli. Stored indices are
`uint16`; the model keeps them exact (limb counts below `2^16`).
-/

namespace Verif.CkksMul
open Verif.Barrett Verif.NttBat Verif.CkksKeys Verif.CkksMath

/-- `MulPlaintextCiphertextSimple.mul` on `uint32` data, mul.py L37-42, for one element of the ciphertext. -/
def mulSimple (ctModuli ptModuli : List Nat) (ct pt : Mat) : Except String Mat :=
  if ctModuli ≠ ptModuli then .error "ValueError"
  else .ok (fun i p => ct i p * pt i p % 2 ^ 32)

/-- `MulPlaintextCiphertextBarrett.mul`, mul.py L72-88, for one element of the ciphertext; `none` is the
missing-constants case. -/
def mulBarrett (barrett : Option (List Nat)) (ctModuli ptModuli : List Nat) (ct pt : Mat) : Except String Mat :=
  match barrett with
  | none => .error "ValueError"
  | some ms =>
    if ctModuli ≠ ptModuli then .error "ValueError"
    else .ok (fun i p => modularReduction (mul64 (ct i p) (pt i p)) (precompute (ms.getD i 0)) % 2 ^ 32)

/-- The loop filling `original_moduli_extract_index`, mul.py L169-173: `n` iterations. Appending to the last list of an
empty list would raise; this cannot happen because iteration 0 opens a list. -/
def extractIndex (alpha : Nat) (n : Nat) : List (List Nat) :=
  (List.range n).foldl (fun acc i =>
    if i % alpha = 0 then acc ++ [[i]]
    else acc.dropLast ++ [acc.getLastD [] ++ [i]]) []

/-- `Mul.compute_control_indices`, mul.py L150-196. A zero `dnum` or no moduli divide by zero. -/
def controlIndices (numQ numP dnum : Nat) : Except String (List (List Nat × List Nat)) :=
  if dnum = 0 then .error "ZeroDivisionError"
  else
    let alpha := (numQ + dnum - 1) / dnum
    if alpha = 0 then .error "ZeroDivisionError"
    else
      let numParts := (numQ + alpha - 1) / alpha
      let extract := extractIndex alpha numQ
      let extendIndices := List.range' numQ numP
      let rotateIndices := List.range numQ
      if extract.length < numParts then .error "IndexError"
      else .ok ((extendIndices, rotateIndices) :: (List.range numParts).map (fun part =>
        let sel := extract.getD part []
        (sel, (List.range (numQ + numP)).filter (fun i => !sel.contains i))))

/-- `restore_index`, mul.py L241-244. -/
def restoreIndex (concatOrder : List Nat) : List Nat :=
  concatOrder.zipIdx.foldl (fun r vp => r.set vp.1 vp.2) (List.replicate concatOrder.length 0)

/-- `original_moduli[:-composite_degree]`, mul.py L216 (`[:-0]` is empty). -/
def dropLastModuli (original : List Nat) (compositeDegree : Nat) : List Nat :=
  if compositeDegree = 0 then [] else original.take (original.length - compositeDegree)

/-- The state of a `Mul` kernel after `precompute_constants`. -/
structure Kernel where
  moduliQ : List Nat
  moduliP : List Nat
  r : Nat
  c : Nat
  control : List (List Nat × List Nat)
  restore : List (List Nat)
  tables : List Tables
  pInv : List Nat

/-- `Mul.precompute_constants` without injected kernels, mul.py L198-359. The basis-conversion constants are those of
the control indices; the inverses needed there are computed here only for their exceptions. -/
def precomputeMul (original extend : List Nat) (dnum r c compositeDegree : Nat) : Except String Kernel :=
  let q := dropLastModuli original compositeDegree
  if !(q.all (fun m => m < 2 ^ 31) && extend.all (fun m => m < 2 ^ 31)) then .error "ValueError"
  else do
    let control ← controlIndices q.length extend.length dnum
    let all := q ++ extend
    let _ ← control.mapM (fun (st : List Nat × List Nat) => Crt.qHatInvModQ (st.1.map (fun i => all.getD i 0)))
    let tables ← all.mapM (fun (m : Nat) => precomputeTables r c m)
    let pInv ← q.mapM (fun (m : Nat) => (invMod (Crt.product extend : Int) m).map Int.toNat)
    pure { moduliQ := q, moduliP := extend, r := r, c := c, control := control,
           restore := control.tail.map (fun st => restoreIndex (st.1 ++ st.2)), tables := tables, pInv := pInv }

/-- `Mul.tensor_multiply`, mul.py L361-378; `none` is the uninitialised kernel. The result has three elements. -/
def tensorMultiply (kernel : Option Kernel) (ct1 ct2 : Ciphertext) : Except String (Mat × Mat × Mat) :=
  match kernel with
  | none => .error "ValueError"
  | some _ =>
    let m : Nat → Nat := fun i => ct1.moduli.getD i 0
    .ok (fun i p => mul64 (ct1.c0 i p) (ct2.c0 i p) % m i % 2 ^ 32,
         fun i p => add64 (mul64 (ct1.c0 i p) (ct2.c1 i p)) (mul64 (ct1.c1 i p) (ct2.c0 i p)) % m i % 2 ^ 32,
         fun i p => mul64 (ct1.c1 i p) (ct2.c1 i p) % m i % 2 ^ 32)

/-- `basis_change` applied to every coefficient of the limbs `coeffs 0, ..., coeffs (n-1)`. -/
def basisChangeMat (degree : Nat) (original target : List Nat) (coeffs : Mat) : Except String Mat := do
  let cols ← (List.range degree).mapM (fun (p : Nat) =>
    Bat.basisChange original target ((List.range original.length).map (fun i => coeffs i p)))
  pure (fun j p => (cols.getD p []).getD j 0)

/-- One part of the loop of `relinearize`, mul.py L447-481: the third element restricted to the part's limbs, converted
to the other limbs, and put back in order. -/
def extendPart (K : Kernel) (part : Nat) (last : Mat) : Except String Mat := do
  let all := K.moduliQ ++ K.moduliP
  let st := K.control.getD (part + 1) ([], [])
  let coeffs : Mat := fun i => inttFlat K.r K.c (K.moduliQ.getD i 0) (K.tables.getD i Rescale.noTables) (last i)
  let selected : Mat := fun j => coeffs (st.1.getD j 0)
  let conv ← basisChangeMat (K.r * K.c) (st.1.map (fun i => all.getD i 0)) (st.2.map (fun i => all.getD i 0)) selected
  let convNtt : Mat := fun j =>
    nttFlat K.r K.c (all.getD (st.2.getD j 0) 0) (K.tables.getD (st.2.getD j 0) Rescale.noTables) (conv j)
  let concat : Mat := fun pos => if pos < st.1.length then last (st.1.getD pos 0) else convNtt (pos - st.1.length)
  pure (fun i => concat ((K.restore.getD part []).getD i 0))

/-- The parts of a key that the indices `0, ..., n-1` select, mul.py L489-490 and key_switching.py L155-156: a JAX array
clamps an index beyond its end, so that the last part is used again. An array without parts cannot be indexed. -/
def clampParts (n : Nat) (parts : List Mat) : List Mat :=
  match parts.getLast? with
  | none => []
  | some last => parts ++ List.replicate (n - parts.length) last

/-- The key as seen by a kernel of `n` parts. -/
def clampKeys (n : Nat) (keys : EvalKeys) : EvalKeys :=
  { keys with a := clampParts n keys.a, b := clampParts n keys.b }

/-- `Mul.relinearize`, mul.py L380-572, with a key that has enough parts; `none` is the uninitialised kernel. With a single
part the sum of products is the product itself. -/
def relinearizeParts (kernel : Option Kernel) (d0 d1 d2 : Mat) (evk : EvalKeys) : Except String (Mat × Mat) :=
  match kernel with
  | none => .error "ValueError"
  | some K => do
    let all := K.moduliQ ++ K.moduliP
    let numQ := K.moduliQ.length
    let numParts := K.control.length - 1
    if evk.a.length < numParts ∨ evk.b.length < numParts then throw "IndexError"
    let parts ← (List.range numParts).mapM (fun (part : Nat) => extendPart K part d2)
    let zero : Mat := fun _ _ => 0
    let accumulate : List Mat → Mat := fun key => fun i p =>
      let m := all.getD i 0
      let sum := (List.range numParts).foldl (fun acc part =>
        add64 acc (modularReduction (mul64 (parts.getD part zero i p) (key.getD part zero i p)) (precompute m))) 0
      modularReduction sum (precompute m)
    let modDown : Mat → Except String Mat := fun ks => do
      let pCoeffs : Mat := fun j =>
        inttFlat K.r K.c (K.moduliP.getD j 0) (K.tables.getD (numQ + j) Rescale.noTables) (ks (numQ + j))
      let conv ← basisChangeMat (K.r * K.c) K.moduliP K.moduliQ pCoeffs
      pure (fun i p =>
        let m := K.moduliQ.getD i 0
        let new := nttFlat K.r K.c m (K.tables.getD i Rescale.noTables) (conv i) p
        let sub := if ks i p < new then (ks i p + m + (2 ^ 32 - new)) % 2 ^ 32 else ks i p - new
        mul64 sub (K.pInv.getD i 0) % m)
    let down0 ← modDown (accumulate evk.b)
    let down1 ← modDown (accumulate evk.a)
    let finish : Mat → Mat → Mat := fun d down => fun i p =>
      let m := K.moduliQ.getD i 0
      let result := (d i p + down i p) % 2 ^ 32
      if result ≥ m then result - m else result
    pure (finish d0 down0, finish d1 down1)

/-- `Mul.relinearize`, mul.py L380-572. -/
def relinearize (kernel : Option Kernel) (d0 d1 d2 : Mat) (evk : EvalKeys) : Except String (Mat × Mat) :=
  relinearizeParts kernel d0 d1 d2 (clampKeys ((kernel.map (fun K => K.control.length - 1)).getD 0) evk)

/-- The state of a `KeySwitcher` after `precompute_constants`, key_switching.py L34-66: the transforms for the own and for the other
moduli of each part, with the moduli they reduce by. -/
structure KeySwitcher where
  r : Nat
  c : Nat
  tablesQ : List (List Tables)
  tablesOut : List (List Tables)
  moduliQ : List (List Nat)
  moduliOut : List (List Nat)

/-- `KeySwitcher.precompute_constants`, key_switching.py L34-66. A part without moduli makes the stacking of the
tables of an empty list fail. -/
def precomputeSwitch (qLimbs pLimbs : List Nat) (dnum r c : Nat) : Except String KeySwitcher :=
  if dnum = 0 then .error "ZeroDivisionError"
  else do
    let n := (qLimbs.length + dnum - 1) / dnum
    let all := qLimbs ++ pLimbs
    let parts ← (List.range dnum).mapM (fun (i : Nat) => do
      let start := i * n
      let stop := min (start + n) qLimbs.length
      let qPart := (List.range' start (stop - start)).map (fun j => qLimbs.getD j 0)
      let outModuli := ((List.range all.length).filter (fun j => !(decide (start ≤ j) && decide (j < stop)))).map
        (fun j => all.getD j 0)
      if qPart = [] ∨ outModuli = [] then throw "ValueError"
      let tq ← qPart.mapM (fun (m : Nat) => precomputeTables r c m)
      let tout ← outModuli.mapM (fun (m : Nat) => precomputeTables r c m)
      pure ((tq, tout), (qPart, outModuli)))
    pure { r := r, c := c, tablesQ := parts.map (fun x => x.1.1), tablesOut := parts.map (fun x => x.1.2),
           moduliQ := parts.map (fun x => x.2.1), moduliOut := parts.map (fun x => x.2.2) }

/-- A `BasisConversionBarrett` kernel: the source and target moduli of each control index. -/
abbrev BcKernel := List (List Nat × List Nat)

/-- One part of the loop of `key_switch`, key_switching.py L107-156: the part of `c1` over all moduli. The transforms reduce by the
moduli of the kernel, whatever the moduli of the ciphertext are. -/
def switchPart (S : KeySwitcher) (qLimbs pLimbs : List Nat) (bc : BcKernel) (startControl i : Nat) (c1 : Mat) :
    Except String Mat := do
  let dnum := S.tablesQ.length
  let n := (qLimbs.length + dnum - 1) / dnum
  let all := qLimbs ++ pLimbs
  let start := i * n
  let stop := min (start + n) qLimbs.length
  let out := (List.range all.length).filter (fun j => !(decide (start ≤ j) && decide (j < stop)))
  let tq := S.tablesQ.getD i []
  let tout := S.tablesOut.getD i []
  if tq.length ≠ stop - start ∨ tout.length ≠ out.length then throw "TypeError"
  let coeffs : Mat := fun j =>
    inttFlat S.r S.c ((S.moduliQ.getD i []).getD j 0) (tq.getD j Rescale.noTables) (c1 (start + j))
  match bc[startControl + i]? with
  | none => throw "IndexError"
  | some (original, target) => do
    if original.length ≠ stop - start ∨ target.length ≠ out.length then throw "TypeError"
    let conv ← basisChangeMat (S.r * S.c) original target coeffs
    let outNtt : Mat := fun j =>
      nttFlat S.r S.c ((S.moduliOut.getD i []).getD j 0) (tout.getD j Rescale.noTables) (conv j)
    pure (fun l => if start ≤ l ∧ l < stop then c1 l else outNtt (out.idxOf l))

/-- `KeySwitcher.key_switch`, key_switching.py L82-194, with a key that has enough parts. `mulModuli` are the moduli of the constants of the
plaintext-ciphertext kernel (`none` when missing). Moduli and data are `uint32`. -/
def keySwitchParts (S : KeySwitcher) (ct : Ciphertext) (ksk : EvalKeys) (pLimbs : List Nat) (bc : BcKernel)
    (mulModuli : Option (List Nat)) (startControl : Nat) : Except String Ciphertext := do
  let qLimbs := ct.moduli
  let all := qLimbs ++ pLimbs
  let dnum := S.tablesQ.length
  if dnum = 0 then throw "ZeroDivisionError"
  if ksk.a.length < dnum ∨ ksk.b.length < dnum then throw "IndexError"
  let zero : Mat := fun _ _ => 0
  let parts ← (List.range dnum).mapM (fun (i : Nat) => do
    let part ← switchPart S qLimbs pLimbs bc startControl i ct.c1
    let b ← mulBarrett mulModuli all all (ksk.b.getD i zero) part
    let a ← mulBarrett mulModuli all all (ksk.a.getD i zero) part
    pure (b, a))
  let accumulate : (Mat × Mat → Mat) → Mat := fun sel => fun i p =>
    (List.range dnum).foldl (fun acc j => add64 acc (sel (parts.getD j (zero, zero)) i p) % all.getD i 0) 0
  let c0Ks := accumulate Prod.fst
  let c1Ks := accumulate Prod.snd
  let pModQ : Nat → Nat := fun i =>
    pLimbs.foldl (fun acc m => mul64 acc (m % qLimbs.getD i 0) % qLimbs.getD i 0) 1
  let scaled : Mat := fun i p =>
    if i < qLimbs.length then mul64 (ct.c0 i p) (pModQ i) % qLimbs.getD i 0 % 2 ^ 32 else 0
  pure { c0 := fun i p => add64 (scaled i p) (c0Ks i p) % all.getD i 0 % 2 ^ 32,
         c1 := fun i p => c1Ks i p % 2 ^ 32, moduli := all }

/-- `KeySwitcher.key_switch`, key_switching.py L82-194. -/
def keySwitch (S : KeySwitcher) (ct : Ciphertext) (ksk : EvalKeys) (pLimbs : List Nat) (bc : BcKernel)
    (mulModuli : Option (List Nat)) (startControl : Nat) : Except String Ciphertext :=
  keySwitchParts S ct (clampKeys S.tablesQ.length ksk) pLimbs bc mulModuli startControl

theorem clampParts_of_le {n : Nat} {l : List Mat} (h : n ≤ l.length) : clampParts n l = l := by
  unfold clampParts
  rw [Nat.sub_eq_zero_of_le h]
  cases e : l.getLast? with
  | none => simp only; exact (List.getLast?_eq_none_iff.1 e).symm
  | some x => simp

theorem clampKeys_of_le {n : Nat} {keys : EvalKeys} (ha : n ≤ keys.a.length) (hb : n ≤ keys.b.length) :
    clampKeys n keys = keys := by
  unfold clampKeys
  rw [clampParts_of_le ha, clampParts_of_le hb]

end Verif.CkksMul
