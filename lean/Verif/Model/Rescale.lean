import Verif.Model.NttBat
import Verif.Model.Crt

/-!
# Model of `jaxite/jaxite_ckks/rescale.py`

One ciphertext element (the `num_elements` axis is a batch axis). Residue data is `limb → position → word`.
-/

namespace Verif.Rescale
open Verif.CkksMath Verif.Barrett Verif.NttBat

/-- `_gamma_beta_calculation`, rescale.py L13-55. -/
def gammaBeta (moduli : List Nat) : Except String (List Nat × List Nat) :=
  if moduli.length ≤ 1 then .error "AssertionError" else do
    let qL := moduli.getD (moduli.length - 1) 0
    let rest := moduli.dropLast
    let qProd := Crt.product rest
    let qInv ← invMod (qProd : Int) qL
    let gammaCommon : Int := ((qProd : Int) * qInv - 1) / (qL : Int)
    let betas ← rest.mapM (fun (m : Nat) => (invMod (qL : Int) m).map Int.toNat)
    pure (rest.map (fun (m : Nat) => (gammaCommon % (m : Int)).toNat), betas)

/-- The constants of a `Rescale` kernel. The zero padding of the stacked tables (L121-130) is sliced away again at
L166-167 and is not represented; thresholds are recomputed where used. -/
structure Kernel where
  moduli : List Nat
  r : Nat
  c : Nat
  tables : List Tables
  consts : List (List Nat × List Nat)

/-- The loop of `precompute_constants`, rescale.py L117-145. -/
def constsLoop : Nat → List Nat → Except String (List (List Nat × List Nat))
  | 0, _ => .ok []
  | n + 1, ms => do
    let gb ← gammaBeta ms
    let rest ← constsLoop n ms.dropLast
    pure (gb :: rest)

/-- `precompute_constants`, rescale.py L96-149. For no rescales there is nothing to stack and `jnp.stack` raises
(L147). -/
def precompute (moduli : List Nat) (numRescales r c : Nat) : Except String Kernel := do
  let tables ← moduli.mapM (fun (q : Nat) => precomputeTables r c q)
  let consts ← constsLoop numRescales moduli
  if numRescales = 0 then throw "ValueError"
  pure { moduli := moduli, r := r, c := c, tables := tables, consts := consts }

/-- `astype(uint64)` of an `int64`. -/
def toU64 (z : Int) : Nat := (z % (2 ^ 64 : Int)).toNat

/-- No tables. -/
def noTables : Tables := ⟨fun _ _ => 0, fun _ _ => 0, fun _ _ => 0, fun _ _ => 0, fun _ _ => 0, fun _ _ => 0⟩

/-- One iteration of `rescale`, rescale.py L162-219. The final `astype(uint32)` keeps a value below the modulus. -/
def step (r c : Nat) (tables : List Tables) (moduli : List Nat) (gb : List Nat × List Nat)
    (data : Nat → Nat → Nat) : Nat → Nat → Nat :=
  let last := moduli.length - 1
  let qL := moduli.getD last 0
  let threshold := (qL + 1) / 2
  let coeffs := inttFlat r c qL (tables.getD last noTables) (data last)
  fun i =>
    let q := moduli.getD i 0
    let switched : Nat → Nat := fun p =>
      if coeffs p < threshold then coeffs p else toU64 ((q : Int) - (qL : Int) + (coeffs p : Int))
    let twisted : Nat → Nat := fun p => mul64 (switched p) (gb.1.getD i 0) % q
    let nttRes := nttFlat r c q (tables.getD i noTables) twisted
    fun p => add64 (mul64 (data i p) (gb.2.getD i 0)) (nttRes p) % q

/-- The loop of `rescale`. -/
def loop (r c : Nat) (tables : List Tables) :
    List (List Nat × List Nat) → List Nat → (Nat → Nat → Nat) → List Nat × (Nat → Nat → Nat)
  | [], moduli, data => (moduli, data)
  | gb :: rest, moduli, data => loop r c tables rest moduli.dropLast (step r c tables moduli gb data)

/-- `rescale`, rescale.py L151-219, on data of shape `(degree, num_moduli)` with as many limbs as the kernel has
moduli. What the code does on other limb counts (it raises, unless a broadcast happens to succeed) is the subject of
`Verif.Model.RescaleArr`, the function on whole ciphertext objects; here they are refused. -/
def rescale (kernel : Option Kernel) (degree numModuli : Nat) (data : Nat → Nat → Nat) :
    Except String (List Nat × (Nat → Nat → Nat)) :=
  match kernel with
  | none => .error "ValueError"
  | some K =>
    if degree ≠ K.r * K.c then .error "AssertionError"
    else if numModuli ≠ K.moduli.length then .error "TypeError"
    else .ok (loop K.r K.c K.tables K.consts K.moduli data)

end Verif.Rescale
