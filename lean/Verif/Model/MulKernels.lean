import Verif.Model.CkksMul

/-!
# Model of the sub-kernels of `Mul` as shared objects, `jaxite/jaxite_ckks/mul.py` L134-359 and L380-572

`Mul.__init__` takes a basis-conversion kernel, transform kernels and a factory of transform kernels. These are Python
objects: `precompute_constants` stores references to them and writes to their attributes. The model has a heap of
`NTTBarrett` objects (the attribute `constants`, `none` for a new object) and of `BasisConversionBarrett` objects (the list
`precomputed_constants`); a reference is a position in the heap. Writes made before an exception stay.

Simplifications: arrays whose numbers of limbs differ are refused with a `TypeError` (broadcasting of a single limb is not
modelled), and a `Mul` object whose `precompute_constants` raised is not used further.
-/

namespace Verif.MulKernels
open Verif.Barrett Verif.NttBat Verif.CkksKeys Verif.CkksMath Verif.CkksMul

/-- `NTTBarrettConstants`, ntt.py L58-103: the shape of the tables and, for each limb, the modulus and its tables. -/
structure NttConsts where
  r : Nat
  c : Nat
  limbs : List (Nat × Tables)

/-- The limb read when there is none. -/
def noLimb : Nat × Tables := (0, Rescale.noTables)

/-- `NTTBarrettConstants.slice_moduli(slice(start, start + len))`, ntt.py L91-103. -/
def NttConsts.slice (cs : NttConsts) (start len : Nat) : NttConsts :=
  { cs with limbs := (cs.limbs.drop start).take len }

/-- `NTTBarrettConstants.slice_moduli` of an array of indices, ntt.py L91-103. Indexing of JAX arrays clamps. -/
def NttConsts.pick (cs : NttConsts) (idx : List Nat) : NttConsts :=
  { cs with limbs := idx.map (fun i => cs.limbs.getD (min i (cs.limbs.length - 1)) noLimb) }

/-- `NTTBarrett.precompute_constants`, ntt.py L128-242. -/
def precomputeNtt (moduli : List Nat) (r c : Nat) : Except String NttConsts := do
  let tables ← moduli.mapM (fun (m : Nat) => precomputeTables r c m)
  pure { r := r, c := c, limbs := moduli.zip tables }

/-- The objects that `Mul` kernels refer to. -/
structure Heap where
  ntts : List (Option NttConsts)
  bcs : List BcKernel

/-- The assignment `kernel.constants = cs`. -/
def Heap.setNtt (h : Heap) (n : Nat) (cs : NttConsts) : Heap := { h with ntts := h.ntts.set n (some cs) }

/-- The argument `ntt_factory`, mul.py L139: `fresh` is `None` or a function returning a new `NTTBarrett` at each call,
`shared n` one that returns the same object each time. -/
inductive Factory where
  | fresh
  | shared (n : Nat)

/-- The arguments of `Mul.__init__`, mul.py L134-147. -/
structure Injected where
  bconv : Option Nat
  nttCurrent : Option Nat
  nttExtend : Option Nat
  factory : Factory
  fullNtt : Option Nat

/-- `self._injected_ntt_factory() if self._injected_ntt_factory else ntt.NTTBarrett()`, mul.py L279-283. -/
def newNtt (f : Factory) (h : Heap) : Nat × Heap :=
  match f with
  | .fresh => (h.ntts.length, { h with ntts := h.ntts ++ [none] })
  | .shared n => (n, h)

/-- The choice of `ntt_current` and `ntt_extend`, mul.py L287-294 and L301-308. -/
def pickNtt (injected : Option Nat) (f : Factory) (h : Heap) : Nat × Heap :=
  match injected with
  | some n => (n, h)
  | none => newNtt f h

/-- `self._injected_bconv or basis_conversion.BasisConversionBarrett()`, mul.py L261-263. -/
def pickBconv (injected : Option Nat) (h : Heap) : Nat × Heap :=
  match injected with
  | some b => (b, h)
  | none => (h.bcs.length, { h with bcs := h.bcs ++ [[]] })

/-- The source and target moduli of one control index, basis_conversion.py L120-121. -/
def bcPair (all : List Nat) (st : List Nat × List Nat) : List Nat × List Nat :=
  (st.1.map (fun i => all.getD i 0), st.2.map (fun i => all.getD i 0))

/-- The loop of `BasisConversionBarrett.precompute_constants`, basis_conversion.py L118-144: the entries appended before the
first exception. -/
def fillBconv (all : List Nat) : List (List Nat × List Nat) → BcKernel × Except String Unit
  | [] => ([], .ok ())
  | st :: rest =>
    match Crt.qHatInvModQ (bcPair all st).1 with
    | .error e => ([], .error e)
    | .ok _ => (bcPair all st :: (fillBconv all rest).1, (fillBconv all rest).2)

/-- `if not self.bconv.precomputed_constants: self.bconv.precompute_constants(...)`, mul.py L265-269. -/
def ensureBconv (b : Nat) (all : List Nat) (control : List (List Nat × List Nat)) (h : Heap) : Heap × Except String Unit :=
  if h.bcs.getD b [] = [] then
    ({ h with bcs := h.bcs.set b (fillBconv all control).1 }, (fillBconv all control).2)
  else (h, .ok ())

/-- `self.full_ntt_constants`, mul.py L273-285. -/
def fullConstants (inj : Injected) (all : List Nat) (r c : Nat) (h : Heap) : Heap × Except String NttConsts :=
  match inj.fullNtt.bind (fun n => h.ntts.getD n none) with
  | some cs => (h, .ok cs)
  | none =>
    match precomputeNtt all r c with
    | .error e => ((newNtt inj.factory h).2, .error e)
    | .ok cs => ((newNtt inj.factory h).2.setNtt (newNtt inj.factory h).1 cs, .ok cs)

/-- The loop filling `ks_ntt_kernels`, mul.py L322-335. -/
def partKernels (f : Factory) (full : NttConsts) : List (List Nat) → Heap → List Nat × Heap
  | [], h => ([], h)
  | idx :: rest, h =>
    let new := newNtt f h
    let tail := partKernels f full rest (new.2.setNtt new.1 (full.pick idx))
    (new.1 :: tail.1, tail.2)

/-- A `Mul` object after `precompute_constants`: its own constants and its references. -/
structure MulObj where
  moduliQ : List Nat
  moduliP : List Nat
  r : Nat
  c : Nat
  control : List (List Nat × List Nat)
  restore : List (List Nat)
  pInv : List Nat
  bconv : Nat
  nttCurrent : Nat
  nttExtend : Nat
  parts : List Nat

/-- The references to transform kernels that `precompute_constants` stores and writes, mul.py L287-335, after the full
constants are known. -/
def wireNtts (inj : Injected) (full : NttConsts) (numQ numP : Nat) (targets : List (List Nat)) (h : Heap) :
    Heap × (Nat × Nat × List Nat) :=
  let cur := pickNtt inj.nttCurrent inj.factory h
  let h1 := cur.2.setNtt cur.1 (full.slice 0 numQ)
  let ext := pickNtt inj.nttExtend inj.factory h1
  let h2 := ext.2.setNtt ext.1 (full.slice numQ numP)
  let parts := partKernels inj.factory full targets h2
  (parts.2, (cur.1, ext.1, parts.1))

/-- `Mul.precompute_constants`, mul.py L198-359, with injected kernels. -/
def precompute (inj : Injected) (original extend : List Nat) (dnum r c compositeDegree : Nat) (h : Heap) :
    Heap × Except String MulObj :=
  let q := dropLastModuli original compositeDegree
  if !(q.all (fun m => m < 2 ^ 31) && extend.all (fun m => m < 2 ^ 31)) then (h, .error "ValueError")
  else
    match controlIndices q.length extend.length dnum with
    | .error e => (h, .error e)
    | .ok control =>
      let all := q ++ extend
      let bc := pickBconv inj.bconv h
      match ensureBconv bc.1 all control bc.2 with
      | (h1, .error e) => (h1, .error e)
      | (h1, .ok _) =>
        match fullConstants inj all r c h1 with
        | (h2, .error e) => (h2, .error e)
        | (h2, .ok full) =>
          let wired := wireNtts inj full q.length extend.length (control.tail.map Prod.snd) h2
          match q.mapM (fun (m : Nat) => (invMod (Crt.product extend : Int) m).map Int.toNat) with
          | .error e => (wired.1, .error e)
          | .ok pInv =>
            (wired.1, .ok
              { moduliQ := q, moduliP := extend, r := r, c := c, control := control,
                restore := control.tail.map (fun st => restoreIndex (st.1 ++ st.2)), pInv := pInv, bconv := bc.1,
                nttCurrent := wired.2.1, nttExtend := wired.2.2.1, parts := wired.2.2.2 })

/-- What `relinearize` reads from the sub-kernels. -/
structure View where
  current : NttConsts
  extend : NttConsts
  parts : List NttConsts
  bconv : BcKernel

/-- Constants without limbs stand for the missing constants of an object that was never initialised; the transforms refuse
both. -/
def emptyConsts : NttConsts := ⟨0, 0, []⟩

/-- The attribute `constants` of a transform kernel. -/
def Heap.ntt (h : Heap) (n : Nat) : NttConsts := (h.ntts.getD n none).getD emptyConsts

/-- The sub-kernels of a `Mul` object in the present heap. -/
def Heap.view (h : Heap) (M : MulObj) : View :=
  { current := h.ntt M.nttCurrent, extend := h.ntt M.nttExtend, parts := M.parts.map h.ntt, bconv := h.bcs.getD M.bconv [] }

/-- `NTTBarrett.intt` of `n` limbs of shape `(r, c)`, ntt.py L269-290. -/
def applyIntt (cs : NttConsts) (r c n : Nat) (data : Mat) : Except String Mat :=
  if cs.r ≠ r ∨ cs.c ≠ c ∨ cs.limbs.length ≠ n then .error "TypeError"
  else .ok (fun i => inttFlat r c (cs.limbs.getD i noLimb).1 (cs.limbs.getD i noLimb).2 (data i))

/-- `NTTBarrett.ntt` of `n` limbs of shape `(r, c)`, ntt.py L244-267. -/
def applyNtt (cs : NttConsts) (r c n : Nat) (data : Mat) : Except String Mat :=
  if cs.r ≠ r ∨ cs.c ≠ c ∨ cs.limbs.length ≠ n then .error "TypeError"
  else .ok (fun i => nttFlat r c (cs.limbs.getD i noLimb).1 (cs.limbs.getD i noLimb).2 (data i))

/-- `BasisConversionBarrett.basis_change` of `n` limbs, basis_conversion.py L146-174: the number of limbs of the result and
the result. -/
def applyBconv (bc : BcKernel) (control n degree : Nat) (coeffs : Mat) : Except String (Nat × Mat) :=
  match bc[control]? with
  | none => .error "IndexError"
  | some st =>
    if st.1.length ≠ n then .error "TypeError"
    else (basisChangeMat degree st.1 st.2 coeffs).map (fun conv => (st.2.length, conv))

/-- One part of the loop of `relinearize`, mul.py L447-481. -/
def extendPart (M : MulObj) (V : View) (part : Nat) (coeffs last : Mat) : Except String Mat := do
  let st := M.control.getD (part + 1) ([], [])
  let selected : Mat := fun j => coeffs (st.1.getD j 0)
  let conv ← applyBconv V.bconv (part + 1) st.1.length (M.r * M.c) selected
  if conv.1 ≠ st.2.length then throw "TypeError"
  let convNtt ← applyNtt (V.parts.getD part emptyConsts) M.r M.c conv.1 conv.2
  let concat : Mat := fun pos => if pos < st.1.length then last (st.1.getD pos 0) else convNtt (pos - st.1.length)
  pure (fun i => concat ((M.restore.getD part []).getD i 0))

/-- `Mul.relinearize`, mul.py L380-572, with a key that has enough parts. -/
def relinearizeParts (M : MulObj) (V : View) (d0 d1 d2 : Mat) (evk : EvalKeys) : Except String (Mat × Mat) := do
  let all := M.moduliQ ++ M.moduliP
  let numQ := M.moduliQ.length
  let numP := M.moduliP.length
  let numParts := M.control.length - 1
  if evk.a.length < numParts ∨ evk.b.length < numParts then throw "IndexError"
  let coeffs ← applyIntt V.current M.r M.c numQ d2
  let parts ← (List.range numParts).mapM (fun (part : Nat) => extendPart M V part coeffs d2)
  let zero : Mat := fun _ _ => 0
  let accumulate : List Mat → Mat := fun key => fun i p =>
    let m := all.getD i 0
    let sum := (List.range numParts).foldl (fun acc part =>
      add64 acc (modularReduction (mul64 (parts.getD part zero i p) (key.getD part zero i p)) (Barrett.precompute m))) 0
    modularReduction sum (Barrett.precompute m)
  let modDown : Mat → Except String Mat := fun ks => do
    let pCoeffs ← applyIntt V.extend M.r M.c numP (fun j => ks (numQ + j))
    let conv ← applyBconv V.bconv 0 numP (M.r * M.c) pCoeffs
    let new ← applyNtt V.current M.r M.c conv.1 conv.2
    pure (fun i p =>
      let m := M.moduliQ.getD i 0
      let sub := if ks i p < new i p then (ks i p + m + (2 ^ 32 - new i p)) % 2 ^ 32 else ks i p - new i p
      mul64 sub (M.pInv.getD i 0) % m)
  let down0 ← modDown (accumulate evk.b)
  let down1 ← modDown (accumulate evk.a)
  let finish : Mat → Mat → Mat := fun d down => fun i p =>
    let m := M.moduliQ.getD i 0
    let result := (d i p + down i p) % 2 ^ 32
    if result ≥ m then result - m else result
  pure (finish d0 down0, finish d1 down1)

/-- `Mul.relinearize`, mul.py L380-572, in the present heap. -/
def relinearize (h : Heap) (M : MulObj) (d0 d1 d2 : Mat) (evk : EvalKeys) : Except String (Mat × Mat) :=
  relinearizeParts M (h.view M) d0 d1 d2 (clampKeys (M.control.length - 1) evk)

/-- The arguments of a call of `Mul(...)` followed by `precompute_constants(...)`. -/
structure Call where
  inj : Injected
  original : List Nat
  extend : List Nat
  dnum : Nat
  r : Nat
  c : Nat
  compositeDegree : Nat

/-- The heap after a sequence of constructions, whether or not they raise. -/
def runCalls : List Call → Heap → Heap
  | [], h => h
  | k :: rest, h => runCalls rest (precompute k.inj k.original k.extend k.dnum k.r k.c k.compositeDegree h).1

end Verif.MulKernels
