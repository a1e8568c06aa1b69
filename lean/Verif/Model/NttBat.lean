import Verif.Model.Bat
import Verif.Model.BitReversal
import Verif.Model.CkksMath

/-!
# Model of the four-step transform: `jaxite/jaxite_ckks/ntt.py` L106-290

One residue modulus at a time (the moduli axis is a batch axis of every `einsum`). Matrices are functions of two indices.
The `uint64` tables hold reduced values, so `Int.toNat` loses nothing.
-/

namespace Verif.NttBat
open Verif.CkksMath Verif.Bat Verif.Barrett Verif.BitReversal

/-- The tables of `NTTBarrettConstants` for one modulus. -/
structure Tables where
  tf1 : Nat → Nat → Nat
  tf2 : Nat → Nat → Nat
  tf3 : Nat → Nat → Nat
  itf1 : Nat → Nat → Nat
  itf2 : Nat → Nat → Nat
  itf3 : Nat → Nat → Nat

/-- `precompute_constants` for one modulus, ntt.py L128-242. -/
def precomputeTables (r c q : Nat) : Except String Tables := do
  let psi ← rootOfUnity (2 * (r * c)) q
  let omega := powMod psi 2 q
  let permR := fun i => (getBitReversePerm r).getD i 0
  let permC := fun i => (getBitReversePerm c).getD i 0
  let omegaCol := powMod omega c q
  let omegaRow := powMod omega r q
  let tf1 : Nat → Nat → Int := fun z i => genTwiddleMatrix q omegaCol z i * powMod psi (c * i) q % (q : Int)
  let tf2 : Nat → Nat → Int := fun z j => genTwiddleMatrix q omega z j * powMod psi j q % (q : Int)
  let tf3 : Nat → Nat → Int := fun j n => genTwiddleMatrix q omegaRow j n
  let invOmegaCol ← invMod omegaCol q
  let invOmegaRow ← invMod omegaRow q
  let itf2raw ← genTwiddleMatrixInv q omega
  let invPsi ← invMod psi q
  let colInv ← invMod c q
  let rowInv ← invMod r q
  let itf1 : Nat → Nat → Int := fun j l => genTwiddleMatrix q invOmegaRow j l
  let itf2 : Nat → Nat → Int := fun z l => itf2raw z l * powMod invPsi l q % (q : Int)
  let itf3 : Nat → Nat → Int := fun t z => genTwiddleMatrix q invOmegaCol t z * powMod invPsi (c * t) q % (q : Int)
  pure {
    tf1 := fun z i => (tf1 (permR z) i).toNat
    tf2 := fun z j => (tf2 (permR z) j).toNat
    tf3 := fun j n => (tf3 j (permC n)).toNat
    itf1 := fun j l => (itf1 (permC j) l).toNat
    itf2 := fun z l => (itf2 (permR z) l * colInv % (q : Int)).toNat
    itf3 := fun t z => (itf3 t (permR z) * rowInv % (q : Int)).toNat }

/-- `NTTBarrett.ntt`, ntt.py L244-267. -/
def ntt (r c q : Nat) (T : Tables) (v : Nat → Nat → Nat) : Nat → Nat → Nat :=
  let b := precompute q
  let res1 : Nat → Nat → Nat := fun z j =>
    modularReduction (matmulBat r (fun i => v i j) (fun i s p => batEntry (T.tf1 z i) q s p)) b
  let res2 : Nat → Nat → Nat := fun z j => modularReduction (mul64 (res1 z j) (T.tf2 z j)) b
  fun z n => modularReduction (matmulBat c (fun j => res2 z j) (fun j s p => batEntry (T.tf3 j n) q s p)) b

/-- `NTTBarrett.intt`, ntt.py L269-290. -/
def intt (r c q : Nat) (T : Tables) (v : Nat → Nat → Nat) : Nat → Nat → Nat :=
  let b := precompute q
  let res1 : Nat → Nat → Nat := fun z l =>
    modularReduction (matmulBat c (fun j => v z j) (fun j s p => batEntry (T.itf1 j l) q s p)) b
  let res2 : Nat → Nat → Nat := fun z l => modularReduction (mul64 (res1 z l) (T.itf2 z l)) b
  fun t l => modularReduction (matmulBat r (fun z => res2 z l) (fun z s p => batEntry (T.itf3 t z) q s p)) b

/-- `ntt` between the `reshape`s to and from the `(r, c)` layout used by every caller, for example rescale.py L201-205. -/
def nttFlat (r c q : Nat) (T : Tables) (f : Nat → Nat) : Nat → Nat :=
  fun p => ntt r c q T (fun i j => f (i * c + j)) (p / c) (p % c)

/-- `intt` between the `reshape`s, for example rescale.py L175-181. -/
def inttFlat (r c q : Nat) (T : Tables) (f : Nat → Nat) : Nat → Nat :=
  fun p => intt r c q T (fun i j => f (i * c + j)) (p / c) (p % c)

end Verif.NttBat
