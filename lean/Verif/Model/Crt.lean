import Verif.Model.CkksMath
import Verif.Model.Barrett
import Mathlib.Algebra.BigOperators.Group.List.Basic

/-!
# Model of the residue-number-system helpers

`jaxite/jaxite_ckks/rns_utils.py` L40-120, the lift in `jaxite/jaxite_ckks/encode.py` L183-190, and
`jaxite_ec/util.py` L208-313 / `jaxite_ec/algorithm/rns_mod_reduce.py` L80-100. Python integers are unbounded.
-/

namespace Verif.Crt
open Verif.CkksMath

/-- `q = 1; for m in moduli: q *= m`; also `total_modulus`, util.py L284-288. -/
def product (moduli : List Nat) : Nat := moduli.foldl (fun q m => q * m) 1

/-- `compute_q_hat_inv_mod_q`, rns_utils.py L40-59. -/
def qHatInvModQ (moduli : List Nat) : Except String (List Int) :=
  let q := product moduli
  moduli.mapM (fun (m : Nat) => invMod ((q / m : Nat) : Int) m)

/-- `compute_q_hat_mod_p`, rns_utils.py L62-86. -/
def qHatModP (original target : List Nat) : List (List Nat) :=
  let q := product original
  original.map (fun mi => target.map (fun mj => q / mi % mj))

/-- `reconstruct_crt`, rns_utils.py L88-120. The two accumulation loops (moduli outside, integers inside) act on
each entry of `results` independently; the model runs the outer loop for each entry, after checking that the rows it reads are
long enough (`residues[i][j]` raises otherwise; without integers no row but the first is read). -/
def reconstructCrt (residues : List (List Int)) (moduli : List Nat) : Except String (List Int) :=
  let numModuli := moduli.length
  match residues with
  | [] => .error "IndexError"
  | first :: _ =>
    if numModuli = 1 then .ok (first.map (fun r => r % (moduli.getD 0 0 : Int)))
    else
      let q := product moduli
      match qHatInvModQ moduli with
      | .error e => .error e
      | .ok inv =>
        if (List.range numModuli).any (fun i => decide ((residues.getD i []).length < first.length)) then .error "IndexError"
        else .ok ((List.range first.length).map (fun j =>
          ((List.range numModuli).foldl (fun (acc : Int) i =>
            acc + (residues.getD i []).getD j 0 * (inv.getD i 0 * ((q / moduli.getD i 0 : Nat) : Int))) 0) % (q : Int)))

/-- The centred lift of `Decode.decode`, encode.py L183-190 (before the division by the scale). -/
def centredLift (modulus : Nat) (c : Int) : Int :=
  if c > (modulus / 2 : Nat) then c - modulus else c

/-- `rns_precompute`, util.py L291-299 (`rns_icrt_factors_compute`, L483-490 and rns_mod_reduce.py L94-101, have the
same body with the total modulus passed in). -/
def rnsPrecompute (moduli : List Nat) : Except String (List Int) :=
  let modulus := product moduli
  moduli.mapM (fun (m : Nat) => do
    let rest := modulus / m
    let inverse ← invMod ((rest % m : Nat) : Int) m
    pure ((rest * inverse) % (modulus : Int)))

/-- `rns_reconstruct`, util.py L302-308. -/
def rnsReconstruct (residues : List Int) (moduli : List Nat) (precomputed : List Int) : Except String Int :=
  if residues.length ≠ moduli.length then .error "AssertionError"
  else if moduli.length ≠ precomputed.length then .error "AssertionError"
  else .ok ((residues.zipIdx.foldl (fun (out : Int) (p : Int × Nat) => out + precomputed.getD p.2 0 * p.1) 0) %
    (product moduli : Int))

/-- `to_rns`, util.py L311-313. -/
def toRns (x : Int) (moduli : List Nat) : Except String (List Int) :=
  if x < (product moduli : Int) then .ok (moduli.map (fun (m : Nat) => x % (m : Int))) else .error "AssertionError"

end Verif.Crt
