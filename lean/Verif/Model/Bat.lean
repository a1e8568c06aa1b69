import Verif.Model.Barrett
import Verif.Model.Crt
import Mathlib.Algebra.BigOperators.Group.Finset.Basic

/-!
# Model of `jaxite/jaxite_ckks/bat_utils.py` and `jaxite/jaxite_ckks/basis_conversion.py` L112-174

`bitcast_convert_type(x, uint8)` on a `uint32` gives its four bytes, least significant first. An `einsum` contracts one
index `k` (of size `K`) together with the byte index of the left operand; batch indices are handled entry by entry.
-/

namespace Verif.Bat
open Verif.Barrett Finset

/-- Byte `i` of a bitcast `uint32`. -/
def byte (x i : Nat) : Nat := x / 256 ^ i % 256

/-- `basis_aligned_transformation`, bat_utils.py L38-56, for one matrix entry `m` and its modulus: byte `p` of the
entry shifted by `q` bytes. -/
def batEntry (m modulus q p : Nat) : Nat := byte ((m <<< (8 * q)) % 2 ^ 64 % modulus % 2 ^ 32) p

/-- `matmul_bat_einsum`, bat_utils.py L10-35, for one output entry: `uint8` products accumulated in `uint32`, then
shifted and summed in `uint64`. `x k` is the `uint32` entry of the left operand, `bat k q p` the byte of the right
operand. -/
def matmulBat (K : Nat) (x : Nat → Nat) (bat : Nat → Nat → Nat → Nat) : Nat :=
  (∑ p ∈ range 4, ((∑ k ∈ range K, ∑ q ∈ range 4, byte (x k) q * bat k q p) % 2 ^ 32) <<< (8 * p) % 2 ^ 64) % 2 ^ 64

/-- The same with `merge_byte_dimension`: left bytes and right rows are flattened to one index of size `4 K`
(`reshape(..., -1)`, bat_utils.py L29-30; the right operand is flattened by `transpose(1, 0, 2, 3).reshape(-1, ...)`,
basis_conversion.py L131-133, so that flat row `t` is entry `t / 4`, byte `t % 4`). -/
def matmulBatMerged (K : Nat) (x : Nat → Nat) (rhs : Nat → Nat → Nat) : Nat :=
  (∑ p ∈ range 4, ((∑ t ∈ range (4 * K), byte (x (t / 4)) (t % 4) * rhs t p) % 2 ^ 32) <<< (8 * p) % 2 ^ 64) % 2 ^ 64

/-- `BasisConversionBarrett.basis_change`, basis_conversion.py L146-174, on one coefficient: `inTower[i]` modulo the
original moduli, output modulo the target moduli. The constants are those of `precompute_constants`, L112-144; the
stored `q_hat_inv_mod_q` is non-negative and below `2^64`. -/
def basisChange (original target : List Nat) (inTower : List Nat) : Except String (List Nat) :=
  match Crt.qHatInvModQ original with
  | .error e => .error e
  | .ok inv =>
    let c : Nat → Nat := fun i =>
      modularReduction (mul64 (inTower.getD i 0) (inv.getD i 0).toNat) (precompute (original.getD i 0))
    let hat := Crt.qHatModP original target
    .ok ((List.range target.length).map (fun j =>
      modularReduction
        (matmulBatMerged original.length c (fun t p => batEntry ((hat.getD (t / 4) []).getD j 0) (target.getD j 0) (t % 4) p))
        (precompute (target.getD j 0))))

end Verif.Bat
