import Verif.Model.BitReversal
import Verif.Model.CkksMath

/-!
# Model of the RNS transform and polynomial classes: `jaxite/jaxite_ckks/rns.py` L48-290

Python integers are `Int`; lists are `List Int`. Assignments `coeffs[i] = v` are `List.set`. An out-of-range read is
modelled by the value `0` (Python raises `IndexError`); the theorems only concern lists of length `n`, for which all
indices are in range.
-/

namespace Verif.RnsNtt
open Verif.BitReversal Verif.CkksMath

/-- The fields of the `Ntt` dataclass, rns.py L48-65. -/
structure Ntt where
  n : Nat
  q : Nat
  nInvModQ : Int
  psisBitrev : List Int
  psisInvBitrev : List Int

/-- `Ntt.__post_init__`, rns.py L67-92. For `n = 1` the read of `psis_inv_bitrev[1]` raises `IndexError`. -/
def mkNtt (n q : Nat) : Except String Ntt := do
  if !isPowerOfTwo n then throw "ValueError"
  if q % (2 * n) ≠ 1 then throw "ValueError"
  let nInv ← invMod n q
  let psi ← primitiveRoot (2 * n) q
  let psis : List Int := (List.range n).map (fun (i : Nat) => modExp psi i q)
  let inv := psis.take 1 ++ (psis.drop 1).reverse
  match inv[1]? with
  | none => throw "IndexError"
  | some negPsiInv =>
    let psiInv : Int := (-negPsiInv) % (q : Int)
    let invRev := bitReversalArray inv
    let inv0 := invRev.set 0 (invRev.getD 0 0 * psiInv % (q : Int))
    let invAll := (List.range' 1 (n - 1)).foldl (fun l i => l.set i (l.getD i 0 * negPsiInv % (q : Int))) inv0
    pure { n := n, q := q, nInvModQ := nInv, psisBitrev := bitReversalArray psis, psisInvBitrev := invAll }

/-- The body of the innermost Cooley–Tukey loop, rns.py L116-120. -/
def ctButterfly (q : Int) (half k j : Nat) (w : Int) (c : List Int) : List Int :=
  let t := c.getD (k + j + half) 0 * w
  let u := c.getD (k + j) 0
  let c := c.set (k + j) ((c.getD (k + j) 0 + t) % q)
  c.set (k + j + half) ((u - t) % q)

/-- The innermost loop, rns.py L115: `j = 0, ..., m-1` for `m ≤ half`. -/
def ctInner (q : Int) (half k : Nat) (w : Int) (m : Nat) (c : List Int) : List Int :=
  (List.range m).foldl (fun c j => ctButterfly q half k j w c) c

/-- The loop over blocks with the running index `index_psi`, rns.py L114-121: the first `m` iterations. -/
def ctBlocks (q : Int) (psis : List Int) (half : Nat) (m : Nat) (s : List Int × Nat) : List Int × Nat :=
  (List.range m).foldl (fun s b =>
    (ctInner q half (b * (2 * half)) (psis.getD s.2 0) half s.1, s.2 + 1)) s

/-- The number of iterations of `range(0, len, m)`. -/
def rangeCount (len m : Nat) : Nat := (len + m - 1) / m

/-- `_iterative_cooley_tukey`, rns.py L104-121: the first `t` of the `log_len` outer iterations
(`i = log_len - 1, log_len - 2, ...`). -/
def ctStages (q : Int) (psis : List Int) (logLen : Nat) (c : List Int) : Nat → List Int × Nat
  | 0 => (c, 1)
  | t + 1 =>
    let s := ctStages q psis logLen c t
    let half := 1 <<< (logLen - 1 - t)
    ctBlocks q psis half (rangeCount s.1.length (2 * half)) s

/-- `Ntt.forward`, rns.py L94-96. -/
def forward (p : Ntt) (c : List Int) : List Int :=
  (ctStages p.q p.psisBitrev (numBits c.length) c (numBits c.length)).1

/-- The body of the innermost Gentleman–Sande loop, rns.py L135-140. -/
def gsButterfly (q : Int) (half k j : Nat) (w : Int) (c : List Int) : List Int :=
  let t := c.getD (k + j + half) 0
  let u := c.getD (k + j) 0
  let c := c.set (k + j) ((c.getD (k + j) 0 + t) % q)
  c.set (k + j + half) ((u - t) * w % q)

/-- The innermost loop, rns.py L134. -/
def gsInner (q : Int) (half k : Nat) (w : Int) (m : Nat) (c : List Int) : List Int :=
  (List.range m).foldl (fun c j => gsButterfly q half k j w c) c

/-- The loop over blocks, rns.py L133-141. -/
def gsBlocks (q : Int) (psis : List Int) (half : Nat) (m : Nat) (s : List Int × Nat) : List Int × Nat :=
  (List.range m).foldl (fun s b =>
    (gsInner q half (b * (2 * half)) (psis.getD s.2 0) half s.1, s.2 + 1)) s

/-- `_iterative_gentleman_sande`, rns.py L123-141: the first `t` outer iterations. -/
def gsStages (q : Int) (psis : List Int) (c : List Int) : Nat → List Int × Nat
  | 0 => (c, 0)
  | t + 1 =>
    let s := gsStages q psis c t
    let half := 1 <<< t
    gsBlocks q psis half (rangeCount s.1.length (2 * half)) s

/-- `Ntt.backward`, rns.py L98-102. -/
def backward (p : Ntt) (c : List Int) : List Int :=
  ((gsStages p.q p.psisInvBitrev c (numBits c.length)).1).map (fun x => x * p.nInvModQ % p.q)

/-! ## `RnsPolynomial` -/

/-- `RnsPolynomial`, rns.py L162-175. -/
structure Poly where
  degree : Nat
  moduli : List Nat
  coeffs : List (List Int)
  isNtt : Bool
deriving DecidableEq

/-- `RnsParams.ntt_params`, rns.py L145-158. -/
def mkParams (degree : Nat) (moduli : List Nat) : Except String (List Ntt) :=
  moduli.mapM (fun q => mkNtt degree q)

/-- Applying `f` to the rows named by the loop `for i in range(len(self.moduli))`. -/
def mapRows (f : Ntt → List Int → List Int) (params : List Ntt) (count : Nat) (rows : List (List Int)) :
    List (List Int) :=
  rows.mapIdx (fun i row => if i < count then match params[i]? with
    | some p => f p row
    | none => row else row)

/-- `to_ntt_form`, rns.py L177-183. -/
def toNttForm (params : List Ntt) (p : Poly) : Poly :=
  if p.isNtt then p else { p with coeffs := mapRows forward params p.moduli.length p.coeffs, isNtt := true }

/-- `to_coeffs_form`, rns.py L185-191. -/
def toCoeffsForm (params : List Ntt) (p : Poly) : Poly :=
  if p.isNtt then { p with coeffs := mapRows backward params p.moduli.length p.coeffs, isNtt := false } else p

/-- `coeffs[i][j]`. -/
def entry (p : Poly) (i j : Nat) : Int := (p.coeffs.getD i []).getD j 0

/-- The double loop `for i, qi in enumerate(moduli): for j in range(degree)` filling a fresh table. -/
def tabulate (degree : Nat) (moduli : List Nat) (f : Nat → Nat → Nat → Int) : List (List Int) :=
  moduli.mapIdx (fun i qi => (List.range degree).map (fun j => f i j qi))

/-- `__neg__`, rns.py L201-207. -/
def neg (p : Poly) : Poly :=
  { p with coeffs := tabulate p.degree p.moduli (fun i j qi => (-entry p i j) % qi) }

/-- `_check_compatible`, rns.py L209-236. -/
def compatible (p o : Poly) : Bool :=
  p.degree == o.degree && p.moduli.length == o.moduli.length &&
  (List.range p.moduli.length).all (fun i => p.moduli[i]? == o.moduli[i]?) &&
  p.coeffs.length == o.coeffs.length && p.isNtt == o.isNtt

/-- `__add__`, rns.py L238-248. -/
def add (p o : Poly) : Except String Poly :=
  if !compatible p o then .error "ValueError" else
  .ok { p with coeffs := tabulate p.degree p.moduli (fun i j qi => (entry p i j + entry o i j) % qi) }

/-- `__sub__`, rns.py L250-260. -/
def sub (p o : Poly) : Except String Poly :=
  if !compatible p o then .error "ValueError" else
  .ok { p with coeffs := tabulate p.degree p.moduli (fun i j qi => (entry p i j - entry o i j) % qi) }

/-- `__mul__`, rns.py L262-275. -/
def mul (p o : Poly) : Except String Poly :=
  if !compatible p o then .error "ValueError"
  else if !p.isNtt || !o.isNtt then .error "ValueError" else
  .ok { p with coeffs := tabulate p.degree p.moduli (fun i j qi => (entry p i j * entry o i j) % qi), isNtt := true }

/-- `gen_rns_polynomial`, rns.py L278-285. -/
def genRnsPolynomial (degree : Nat) (coeffs : List Int) (moduli : List Nat) : Poly :=
  { degree := degree, moduli := moduli, coeffs := moduli.map (fun (q : Nat) => coeffs.map (fun (c : Int) => c % (q : Int))),
    isNtt := false }

end Verif.RnsNtt
