import Verif.Model.BitReversal
import Mathlib.Logic.Function.Iterate
import Mathlib.Data.Nat.Log

/-!
# Model of the slot permutations: `jaxite/jaxite_ckks/blind_rotate_utils.py` L11-41 and the flips of
`jaxite/jaxite_ckks/conjugate.py` L66-69 and `jaxite/jaxite_ckks/key_gen.py` L233

A column of slots is a function `Nat → Nat`, used at arguments below `degree`. The same permutation is applied to
every column.
-/

namespace Verif.Automorphism
open Verif.BitReversal

/-- One iteration of the local `bit_reverse`, blind_rotate_utils.py L31-32, on `uint32` lanes. -/
def revStep (s : Nat × Nat) : Nat × Nat := (((s.1 <<< 1) % 2 ^ 32) ||| (s.2 &&& 1), s.2 >>> 1)

/-- The local `bit_reverse`, blind_rotate_utils.py L28-34. -/
def bitReverse32 (bits x : Nat) : Nat := (revStep^[bits] (0, x)).1

/-- `(((2 * br_indices + 1) * g_u32 - 1) // 2) % degree` on `uint32` lanes, blind_rotate_utils.py L37. -/
def targetRoot (degree g br : Nat) : Nat :=
  let t := ((2 * br % 2 ^ 32 + 1) % 2 ^ 32) * g % 2 ^ 32
  ((t + 2 ^ 32 - 1) % 2 ^ 32 / 2) % degree

/-- `apply_automorphism_ntt`, blind_rotate_utils.py L11-39, on one column. `jnp.array(g, dtype=uint32)` raises for a
Python integer outside the range of `uint32`. `int(math.log2(degree))` is `Nat.log 2` (exact for the powers of two
below `2^32`). -/
def applyAutomorphism (degree : Nat) (g : Int) (data : Nat → Nat) : Except String (Nat → Nat) :=
  if g < 0 ∨ 2 ^ 32 ≤ g then .error "OverflowError"
  else
    let bits := Nat.log 2 degree
    .ok (fun p => data (bitReverse32 bits (targetRoot degree g.toNat (bitReverse32 bits p))))

/-- `jnp.flip` along the slot axis, conjugate.py L67; `np.flip(sk.data, axis=0)`, key_gen.py L233. -/
def flip (degree : Nat) (data : Nat → Nat) : Nat → Nat := fun p => data (degree - 1 - p)

end Verif.Automorphism
