import Verif.Model.RnsNtt

/-!
# Programs over RNS polynomials: `jaxite/jaxite_ckks/rns.py` L162-285

A program is a list of statements. The heap is the list of the polynomials created so far. `gen_rns_polynomial` and
the four operators create a new object with fresh rows; `to_ntt_form` and `to_coeffs_form` change the object they are
called on. A reference to an object that does not exist is a `NameError`.
-/

namespace Verif.RnsProgram
open Verif.RnsNtt

/-- One statement. The numbers name objects in the order of their creation. -/
inductive Instr
  /-- `gen_rns_polynomial`, rns.py L278-285. -/
  | gen (coeffs : List Int)
  /-- `-a`, rns.py L201-207. -/
  | neg (a : Nat)
  /-- `a + b`, rns.py L238-248. -/
  | add (a b : Nat)
  /-- `a - b`, rns.py L250-260. -/
  | sub (a b : Nat)
  /-- `a * b`, rns.py L262-275. -/
  | mul (a b : Nat)
  /-- `a.to_ntt_form(ntt_params)`, rns.py L177-183, in place. -/
  | toNtt (a : Nat)
  /-- `a.to_coeffs_form(ntt_params)`, rns.py L185-191, in place. -/
  | toCoeffs (a : Nat)
deriving DecidableEq

/-- Looking up an object. -/
def look (heap : List Poly) (a : Nat) : Except String Poly :=
  match heap[a]? with
  | some p => .ok p
  | none => .error "NameError"

/-- One statement, with the degree, moduli and transforms of one `RnsParams`. -/
def step (n : Nat) (moduli : List Nat) (params : List Ntt) (heap : List Poly) : Instr → Except String (List Poly)
  | .gen coeffs => .ok (heap ++ [genRnsPolynomial n coeffs moduli])
  | .neg a => do
    let p ← look heap a
    pure (heap ++ [neg p])
  | .add a b => do
    let p ← look heap a
    let o ← look heap b
    let r ← add p o
    pure (heap ++ [r])
  | .sub a b => do
    let p ← look heap a
    let o ← look heap b
    let r ← sub p o
    pure (heap ++ [r])
  | .mul a b => do
    let p ← look heap a
    let o ← look heap b
    let r ← mul p o
    pure (heap ++ [r])
  | .toNtt a => do
    let p ← look heap a
    pure (heap.set a (toNttForm params p))
  | .toCoeffs a => do
    let p ← look heap a
    pure (heap.set a (toCoeffsForm params p))

/-- A program. -/
def run (n : Nat) (moduli : List Nat) (params : List Ntt) (heap : List Poly) : List Instr → Except String (List Poly)
  | [] => .ok heap
  | s :: rest => do
    let heap ← step n moduli params heap s
    run n moduli params heap rest

end Verif.RnsProgram
