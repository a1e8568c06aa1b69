import Verif.Model.Bootstrap
import Verif.Model.Lut
import Verif.Model.Lwe

/-!
# Model of `jaxite/jaxite_bool/jaxite_bool.py` (keys and bootstrapped gates)

The dimensions of the scheme parameters are indices (`d` = `lwe_dimension`, `k` = `rlwe_dimension`,
`2^logN` = `polynomial_modulus_degree`; `plaintext_modulus = 2^32`). `SchemeParameters.__post_init__`
(parameters.py L33-43) computes `log_mod_degree` as the rounded binary logarithm, which is `logN` here.
-/

namespace Verif.JaxiteBool
open Verif.Arith Verif.Rlwe Verif.Rgsw Verif.Bootstrap Verif.Lut

/-- `bool_params.Parameters`, bool_params.py L17-33: the two decompositions (dimensions are indices). -/
structure Parameters where
  bsDecomp : DecompositionParameters
  ksDecomp : DecompositionParameters

/-- `ClientKeySet`, jaxite_bool.py L26-44. -/
structure ClientKeySet (d k logN : Nat) where
  lweSk : Lwe.LweSecretKey d
  rlweSk : RlweSecretKey k (2 ^ logN)

/-- `ServerKeySet`, jaxite_bool.py L48-58. -/
structure ServerKeySet (d k logN : Nat) (params : Parameters) where
  bsk : BootstrappingKey ((k + 1) * params.bsDecomp.levelCount) k (2 ^ logN)
  ksk : Fin (k * 2 ^ logN) → Fin params.ksDecomp.levelCount → Fin (d + 1) → W

/-- `ServerKeySet.__init__`, jaxite_bool.py L58-81, with the samples drawn from the two generators as
arguments. `rgsw.key_from_rlwe` keeps the RLWE key. The bootstrapping key is made with the default flags
(`use_bmmp=True`, `use_bat=False`). -/
def mkServerKeySet (be : Backend) {d k logN : Nat} (params : Parameters) (cks : ClientKeySet d k logN)
    (a : Nat → Fin (k + 1) → Fin params.bsDecomp.levelCount → Fin k → Fin (2 ^ logN) → W)
    (e : Nat → Fin (k + 1) → Fin params.bsDecomp.levelCount → W)
    (ka : Fin (k * 2 ^ logN) → Fin params.ksDecomp.levelCount → Fin d → W)
    (ke : Fin (k * 2 ^ logN) → Fin params.ksDecomp.levelCount → W) :
    Except String (ServerKeySet d k logN params) := do
  let bsk ← genBootstrappingKey be cks.lweSk cks.rlweSk params.bsDecomp a e true false
  let inKey := flattenKey cks.rlweSk
  pure ⟨bsk, KeySwitch.genKey params.ksDecomp inKey cks.lweSk ka ke⟩

/-- `LookUpTable.as_rlwe_test_polynomial`, lut.py L43-64 (uncached), with `gen_and_encrypt`,
test_polynomial.py L214-233. The polynomial is an array of `N` coefficients. -/
def asRlweTestPolynomial (be : Backend) (k logN : Nat) (l : LookUpTable) :
    Except String (Fin (k + 1) → Fin (2 ^ logN) → W) := do
  let coefficients ← l.paddedCoefficients
  let tp ← TestPolynomial.genTestPolynomial (coefficients.map (fun c : Nat => (c : Int)))
    Encoding.boolParams (2 ^ logN)
  pure (TestPolynomial.trivialEncryption be k (fun i => tp.getD i.val 0) 32)

/-- `Parameters.lut_poly`, bool_params.py L59-62, without the cache (transparent by C04). -/
def lutPoly (be : Backend) (k logN numInputs truthTable : Nat) :=
  asRlweTestPolynomial be k logN ⟨numInputs, truthTable⟩

/-- `LutCache.lut_by_name`, lut.py L133-140, without the cache. -/
def lutByName (name : String) : Except String LookUpTable :=
  match funcNameToLut2 name with
  | none => .error "ValueError"
  | some l => .ok ⟨2, l.truthTable⟩

/-- The call `bootstrap.bootstrap(ct, poly, bsk, ksk, ...)` made by every gate (callbacks omitted). -/
def callBootstrap (be : Backend) {d k logN : Nat} {params : Parameters} (sks : ServerKeySet d k logN params)
    (ct : Fin (d + 1) → W) (poly : Fin (k + 1) → Fin (2 ^ logN) → W) : Except String (Fin (d + 1) → W) :=
  jitBootstrap be 32 logN params.bsDecomp params.ksDecomp.logBase ct poly sks.bsk sks.ksk

/-- `and_`, `andny_`, `andyn_`, `or_`, `orny_`, `oryn_`, `nand_`, `nor_`, `xor_`, `xnor_`,
jaxite_bool.py L114-311: the same body with the gate's name. -/
def gate2 (be : Backend) {d k logN : Nat} {params : Parameters} (sks : ServerKeySet d k logN params)
    (name : String) (lhs rhs : Fin (d + 1) → W) : Except String (Fin (d + 1) → W) := do
  let l ← lutByName name
  let poly ← asRlweTestPolynomial be k logN l
  callBootstrap be sks (fun i => 2 * lhs i + rhs i) poly

/-- `lut2`, jaxite_bool.py L332-371. -/
def lut2 (be : Backend) {d k logN : Nat} {params : Parameters} (sks : ServerKeySet d k logN params)
    (a b : Fin (d + 1) → W) (truthTable : Nat) : Except String (Fin (d + 1) → W) := do
  let poly ← lutPoly be k logN 2 truthTable
  callBootstrap be sks (fun i => 2 * b i + a i) poly

/-- `lut3`, jaxite_bool.py L374-415. -/
def lut3 (be : Backend) {d k logN : Nat} {params : Parameters} (sks : ServerKeySet d k logN params)
    (a b c : Fin (d + 1) → W) (truthTable : Nat) : Except String (Fin (d + 1) → W) := do
  let poly ← lutPoly be k logN 3 truthTable
  callBootstrap be sks (fun i => 4 * c i + 2 * b i + a i) poly

/-- `cmux_`, jaxite_bool.py L418-426. -/
def cmux (be : Backend) {d k logN : Nat} {params : Parameters} (sks : ServerKeySet d k logN params)
    (v1 v0 ctrl : Fin (d + 1) → W) : Except String (Fin (d + 1) → W) := do
  let l ← lutByName "cmux"
  lut3 be sks ctrl v0 v1 l.truthTable

/-- `pmap_lut3`, jaxite_bool.py L429-488: `pmap` applies the implementation to every tuple. The
implementation calls `jit_bootstrap` on the key's array with the default flags instead of the key's
own (L446-452). -/
def pmapLut3 (be : Backend) {d k logN : Nat} {params : Parameters} (sks : ServerKeySet d k logN params)
    (inputs : List ((Fin (d + 1) → W) × (Fin (d + 1) → W) × (Fin (d + 1) → W) × Nat)) :
    Except String (List (Fin (d + 1) → W)) := do
  let polys ← inputs.mapM (fun v => lutPoly be k logN 3 v.2.2.2)
  let sks' := { sks with bsk := { sks.bsk with useBmmp := true, useBat := false } }
  (inputs.zip polys).mapM (fun v =>
    callBootstrap be sks' (fun i => 4 * v.1.2.2.1 i + 2 * v.1.2.1 i + v.1.1 i) v.2)

/-- `pmap_lut2`, jaxite_bool.py L493-553. -/
def pmapLut2 (be : Backend) {d k logN : Nat} {params : Parameters} (sks : ServerKeySet d k logN params)
    (inputs : List ((Fin (d + 1) → W) × (Fin (d + 1) → W) × Nat)) :
    Except String (List (Fin (d + 1) → W)) := do
  let polys ← inputs.mapM (fun v => lutPoly be k logN 2 v.2.2)
  let sks' := { sks with bsk := { sks.bsk with useBmmp := true, useBat := false } }
  (inputs.zip polys).mapM (fun v => callBootstrap be sks' (fun i => 2 * v.1.2.1 i + v.1.1 i) v.2)

/-- A program over Boolean ciphertexts: what a user writes with the API. -/
inductive Circuit
  | input (i : Nat)
  | const (b : Bool)
  | not (c : Circuit)
  | gate (name : String) (lhs rhs : Circuit)
  | lut1 (table : Int) (a : Circuit)
  | lut2 (table : Nat) (a b : Circuit)
  | lut3 (table : Nat) (a b c : Circuit)
  | cmux (v1 v0 ctrl : Circuit)

/-- Runs a program with the API functions. -/
def Circuit.run (be : Backend) {d k logN : Nat} {params : Parameters} (sks : ServerKeySet d k logN params)
    (inputs : Nat → Fin (d + 1) → W) : Circuit → Except String (Fin (d + 1) → W)
  | .input i => .ok (inputs i)
  | .const b => Lwe.constant b d
  | .not c => do Lwe.not_ (← c.run be sks inputs)
  | .gate name l r => do
    let x ← l.run be sks inputs
    let y ← r.run be sks inputs
    gate2 be sks name x y
  | .lut1 t a => do Lwe.lut1 (← a.run be sks inputs) t
  | .lut2 t a b => do
    let x ← a.run be sks inputs
    let y ← b.run be sks inputs
    JaxiteBool.lut2 be sks x y t
  | .lut3 t a b c => do
    let x ← a.run be sks inputs
    let y ← b.run be sks inputs
    let z ← c.run be sks inputs
    JaxiteBool.lut3 be sks x y z t
  | .cmux v1 v0 ctrl => do
    let x ← v1.run be sks inputs
    let y ← v0.run be sks inputs
    let z ← ctrl.run be sks inputs
    JaxiteBool.cmux be sks x y z

end Verif.JaxiteBool
