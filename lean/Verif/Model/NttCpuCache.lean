import Verif.Model.NttCpu

/-!
# Model of `jaxite/jaxite_ckks/ntt_cpu.py` with its cache

`_PERM_CACHE` is a module-level dictionary that all transforms read and extend. A call is a function from the cache to
its outcome and the new cache; the cache survives exceptions. Arrays of `uint32` are lists of natural numbers. A
polynomial in RNS form is the list of its residue columns; a column is a function of which the entries below `degree`
matter, as in `Model/NttCpu.lean`.
-/

namespace Verif.NttCpuCache
open Verif.CkksMath Verif.NttCpu

/-- `_PERM_CACHE`, ntt_cpu.py L13, the latest entry first. -/
abbrev Cache := List (Nat × List Nat)

/-- A computation with access to the cache. -/
abbrev M (α : Type) := Cache → Except String α × Cache

/-- The result of a computation without access to the cache, or its exception. -/
def lift {α : Type} (x : Except String α) : M α := fun c => (x, c)

/-- Sequencing: an exception ends the computation; the cache stays as it is. -/
def andThen {α β : Type} (x : M α) (f : α → M β) : M β := fun c =>
  match x c with
  | (.ok a, c') => f a c'
  | (.error e, c') => (.error e, c')

instance : Monad M where
  pure a := fun c => (.ok a, c)
  bind := andThen

/-- The loop of `_get_bit_reversal_perm`, ntt_cpu.py L22-24: `bits` iterations on `(perm, indices)`. -/
def permArrays : Nat → List Nat → List Nat → List Nat
  | 0, perm, _ => perm
  | bits + 1, perm, indices =>
    permArrays bits (List.zipWith (fun p i => ((p <<< 1) % 2 ^ 32) ||| (i &&& 1)) perm indices) (indices.map (· >>> 1))

/-- `_get_bit_reversal_perm`, ntt_cpu.py L16-26. -/
def getBitReversalPerm (n : Nat) : M (List Nat) := fun c =>
  match c.lookup n with
  | some perm => (.ok perm, c)
  | none =>
    let perm := permArrays (n.size - 1) (List.replicate n 0) (List.range n)
    (.ok perm, (n, perm) :: c)

/-- `a[perm]`: entry `i` of the result is entry `perm[i]`. -/
def gather (a : Nat → Int) (perm : List Nat) : Nat → Int := fun i => a (perm.getD i 0)

/-- `ntt_cyclic_bit_reverse`, ntt_cpu.py L58-83. -/
def nttCyclic (n : Nat) (q omega : Int) (a : Nat → Int) : M (Nat → Int) := do
  let perm ← getBitReversalPerm n
  let a := gather a perm
  lift (checkLength n)
  pure (ditLoop n q omega (n.size - 1) a)

/-- `intt_cyclic_bit_reverse`, ntt_cpu.py L86-115. -/
def inttCyclic (n : Nat) (q omega : Int) (a : Nat → Int) : M (Nat → Int) := do
  let invRoot ← lift (invMod omega q)
  lift (checkLength n)
  let a := difLoop n q invRoot (n.size - 1) a
  let perm ← getBitReversalPerm n
  let a := gather a perm
  let invN ← lift (invMod n q)
  pure (fun i => a i * invN % q)

/-- `ntt_negacyclic_bit_reverse`, ntt_cpu.py L39-45. -/
def nttNegacyclic (n : Nat) (q psi : Int) (a : Nat → Int) : M (Nat → Int) :=
  let aTwisted := fun i => a i * powersAt psi q i % q
  nttCyclic n q (powMod psi 2 q) aTwisted

/-- `intt_negacyclic_bit_reverse`, ntt_cpu.py L48-55. -/
def inttNegacyclic (n : Nat) (q psi : Int) (a : Nat → Int) : M (Nat → Int) := do
  let omega := powMod psi 2 q
  let aInv ← inttCyclic n q omega a
  let psiInv ← lift (invMod psi q)
  pure (fun i => aInv i * powersAt psiInv q i % q)

/-- `for i, q in enumerate(moduli): res[:, i] = body(i, q)`. -/
def forColumns (body : Nat → Nat → M (Nat → Int)) : Nat → List Nat → M (List (Nat → Int))
  | _, [] => pure []
  | i, q :: moduli => do
    let col ← body i q
    let rest ← forColumns body (i + 1) moduli
    pure (col :: rest)

/-- `poly[:, i]`. -/
def column (poly : List (Nat → Int)) (i : Nat) : Except String (Nat → Int) :=
  match poly[i]? with
  | some c => .ok c
  | none => .error "IndexError"

/-- `ntt_negacyclic_poly`, ntt_cpu.py L118-129. -/
def nttNegacyclicPoly (degree : Nat) (poly : List (Nat → Int)) (moduli : List Nat) : M (List (Nat → Int)) := do
  let perm ← getBitReversalPerm degree
  forColumns (fun i q => do
    let psi ← lift (rootOfUnity (2 * degree) q)
    let coeffs ← lift (column poly i)
    let r ← nttNegacyclic degree q psi coeffs
    pure (fun j => gather r perm j % q)) 0 moduli

/-- `intt_negacyclic_poly`, ntt_cpu.py L132-144. -/
def inttNegacyclicPoly (degree : Nat) (poly : List (Nat → Int)) (moduli : List Nat) : M (List (Nat → Int)) := do
  let perm ← getBitReversalPerm degree
  forColumns (fun i q => do
    let psi ← lift (rootOfUnity (2 * degree) q)
    let coeffs ← lift (column poly i)
    inttNegacyclic degree q psi (gather coeffs perm)) 0 moduli

/-- A call of one of the two transforms. -/
structure Call where
  inverse : Bool
  degree : Nat
  poly : List (Nat → Int)
  moduli : List Nat

/-- The call. -/
def Call.run (x : Call) : M (List (Nat → Int)) :=
  if x.inverse then inttNegacyclicPoly x.degree x.poly x.moduli else nttNegacyclicPoly x.degree x.poly x.moduli

/-- A program: calls one after the other, exceptions caught; their outcomes and the cache at the end. -/
def runCalls : List Call → Cache → List (Except String (List (Nat → Int))) × Cache
  | [], c => ([], c)
  | x :: calls, c =>
    let r := x.run c
    let rest := runCalls calls r.2
    (r.1 :: rest.1, rest.2)

end Verif.NttCpuCache
