import Verif.Model.Barrett
import Verif.Model.X64

/-!
# Barrett reduction with and without 64-bit types

`barrett.py` and `add.py` ask for `uint64` constants but, unlike `ntt.py`, `basis_conversion.py` and
`bat_utils.py`, do not call `jax.config.update("jax_enable_x64", True)`; neither do the modules they import.
(Their tests make the call themselves: barrett_test.py L13, add_test.py L16.) While the flag is off JAX makes
every `uint64` array a `uint32` array. Here the reduction is modelled with the flag as an argument; the width
of the words is `X64.wide`.
-/

namespace Verif.X64Barrett
open Verif.X64 (wide)
open Verif.Barrett (Constants precompute)

/-- Unsigned multiplication, addition and subtraction at width `w`. -/
def mulW (w a b : Nat) : Nat := a * b % 2 ^ w
@[inherit_doc mulW] def addW (w a b : Nat) : Nat := (a + b) % 2 ^ w
@[inherit_doc mulW] def subW (w a b : Nat) : Nat := (a + (2 ^ w - b % 2 ^ w)) % 2 ^ w

/-- `precompute_barrett_constants` for one modulus, barrett.py L42-67: the constants of the 64-bit model,
`m` stored in an array of the widest unsigned type (L63). -/
def precomputeW (x64 : Bool) (modulus : Nat) : Constants :=
  { precompute modulus with m := (precompute modulus).m % 2 ^ wide x64 }

/-- `modular_reduction` on one entry, barrett.py L70-95. `z` is a word of at most `wide x64` bits; `>>` by
the width or more gives zero. -/
def modularReduction (x64 : Bool) (z : Nat) (c : Constants) : Nat :=
  let z1 := z &&& 0xFFFFFFFF
  let z2 := z >>> c.w
  let t := addW (wide x64) ((mulW (wide x64) z1 c.m) >>> c.w) (mulW (wide x64) z2 c.m)
  let t := t >>> c.sw
  let z := subW (wide x64) z (mulW (wide x64) t c.modulus)
  let z := if z ≥ c.modulus then subW (wide x64) z c.modulus else z
  z % 2 ^ 32

/-- `AddModularBarrett.add`, add.py L60-64, on `uint32` entries and present constants. -/
def addModularBarrett (x64 : Bool) (c : Constants) (a b : Nat) : Nat :=
  modularReduction x64 ((a + b) % 2 ^ 32) c

end Verif.X64Barrett
