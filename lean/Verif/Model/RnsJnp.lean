import Verif.Model.RnsNtt
import Verif.Model.X64

/-!
# RNS polynomials as JAX arrays: `jaxite/jaxite_ckks/rns.py` L193-195 and L288-297

`to_jnp_array` asks for `uint64` entries, but neither `rns.py` nor the `rns_utils.py` it imports enables 64-bit
types; while the flag is off JAX stores `uint32`. What `jnp.array` does with a Python integer that does not fit
the stored type depends on the versions of JAX and NumPy (it wraps or raises `OverflowError`), so that part is a
parameter.
-/

namespace Verif.RnsJnp
open Verif.RnsNtt
open Verif.X64 (wide)

/-- Storing one Python integer in an unsigned array of `w` bits: `none` is an exception. The two laws are all
that is assumed of the library: a value in range is stored as it is, and whatever is stored is in range. -/
structure Store (w : Nat) where
  put : Int → Option Int
  exact : ∀ v : Int, 0 ≤ v → v < 2 ^ w → put v = some v
  inRange : ∀ v r : Int, put v = some r → 0 ≤ r ∧ r < 2 ^ w

/-- `RnsPolynomial.to_jnp_array`, rns.py L193-195. Rows of different lengths do not form an array. The array is
represented by the list of its rows. -/
def toJnpArray (x64 : Bool) (S : Store (wide x64)) (p : Poly) : Except String (List (List Int)) :=
  if p.coeffs.all (fun row => row.length == (p.coeffs.headD []).length) then
    match p.coeffs.mapM (fun row => row.mapM S.put) with
    | some a => .ok a
    | none => .error "OverflowError"
  else .error "ValueError"

/-- `gen_rns_polynomial_from_jnp_array`, rns.py L288-297; `tolist` gives back Python integers. -/
def fromJnpArray (degree : Nat) (rnsCoeffs : List (List Int)) (moduli : List Nat) (isNtt : Bool := false) : Poly :=
  { degree := degree, moduli := moduli, coeffs := rnsCoeffs, isNtt := isNtt }

end Verif.RnsJnp
