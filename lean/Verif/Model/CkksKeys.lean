import Verif.Model.NttCpu
import Verif.Model.Barrett
import Verif.Model.Automorphism
import Verif.Model.Crt

/-!
# Model of `jaxite/jaxite_ckks/encrypt.py`, `key_gen.py` and the generators of `random.py`

Data of shape `(degree, num_moduli)` is a `Mat`: limb index, then slot (or coefficient) index. Values are `uint64`
lanes (`mul64`, `add64`, `sub64`). Random draws are arguments: integer coefficients for the short polynomials (reduced
by `residues`), residues for the uniform ones.
-/

namespace Verif.CkksKeys
open Verif.Barrett Verif.CkksMath Verif.NttCpu Verif.Automorphism

/-- Limb, then slot. -/
abbrev Mat := Nat → Nat → Nat

/-- `types.SecretKey`, types.py L48-53. -/
structure SecretKey where
  data : Mat
  moduli : List Nat

/-- `types.PublicKey`, types.py L40-45. -/
structure PublicKey where
  b : Mat
  a : Mat
  moduli : List Nat

/-- `types.Plaintext`, types.py L8-21. -/
structure Plaintext where
  data : Mat
  moduli : List Nat

/-- `types.Ciphertext` with two elements, types.py L26-40. -/
structure Ciphertext where
  c0 : Mat
  c1 : Mat
  moduli : List Nat

/-- `types.EvaluationKeys`, types.py L56-62. -/
structure EvalKeys where
  a : List Mat
  b : List Mat
  moduli : List Nat

/-- `ntt_negacyclic_poly`, ntt_cpu.py L118-129: all columns. -/
def nttMat (degree : Nat) (moduli : List Nat) (poly : Mat) : Except String Mat := do
  let cols ← (List.range moduli.length).mapM
    (fun (i : Nat) => nttPoly degree (moduli.getD i 0) (fun p => (poly i p : Int)))
  pure (fun i p => (cols.getD i (fun _ => 0) p).toNat)

/-- `intt_negacyclic_poly`, ntt_cpu.py L132-144: all columns. -/
def inttMat (degree : Nat) (moduli : List Nat) (poly : Mat) : Except String Mat := do
  let cols ← (List.range moduli.length).mapM
    (fun (i : Nat) => inttPoly degree (moduli.getD i 0) (fun p => (poly i p : Int)))
  pure (fun i p => (cols.getD i (fun _ => 0) p).toNat)

/-- `[c % q for c in coeffs]` for every modulus, random.py L42-45 and L49-52. -/
def residues (moduli : List Nat) (c : Nat → Int) : Mat := fun i p => (c p % (moduli.getD i 0 : Int)).toNat

/-- `keygen`, key_gen.py L17-45. `s` and `e` are the drawn coefficients, `a` the uniform residues. -/
def keygen (degree : Nat) (moduli : List Nat) (s e : Nat → Int) (a : Mat) : Except String (PublicKey × SecretKey) := do
  let sNtt ← nttMat degree moduli (residues moduli s)
  let aNtt ← nttMat degree moduli a
  let eNtt ← nttMat degree moduli (residues moduli e)
  let b : Mat := fun i p =>
    let q := moduli.getD i 0
    let prod := mul64 (aNtt i p) (sNtt i p) % q
    sub64 (add64 (eNtt i p) q) prod % q
  pure ({ b := b, a := aNtt, moduli := moduli }, { data := sNtt, moduli := moduli })

/-- `Encrypt.encrypt`, encrypt.py L46-89. `v`, `e0`, `e1` are the drawn coefficients. -/
def encrypt (degree : Nat) (pk : PublicKey) (pt : Plaintext) (v e0 e1 : Nat → Int) : Except String Ciphertext :=
  if pt.moduli ≠ pk.moduli.take pt.moduli.length then .error "ValueError"
  else do
    let vNtt ← nttMat degree pt.moduli (residues pt.moduli v)
    let e0Ntt ← nttMat degree pt.moduli (residues pt.moduli e0)
    let e1Ntt ← nttMat degree pt.moduli (residues pt.moduli e1)
    let c0 : Mat := fun i p =>
      let q := pt.moduli.getD i 0
      let prod0 := mul64 (vNtt i p) (pk.b i p) % q
      (add64 (add64 prod0 (e0Ntt i p)) (pt.data i p) % q) % 2 ^ 32
    let c1 : Mat := fun i p =>
      let q := pt.moduli.getD i 0
      let prod1 := mul64 (vNtt i p) (pk.a i p) % q
      (add64 prod1 (e1Ntt i p) % q) % 2 ^ 32
    pure { c0 := c0, c1 := c1, moduli := pt.moduli }

/-- `Decrypt.decrypt`, encrypt.py L98-122. -/
def decrypt (degree : Nat) (sk : SecretKey) (ct : Ciphertext) : Except String Plaintext :=
  if ct.moduli ≠ sk.moduli.take ct.moduli.length then .error "ValueError"
  else do
    let res : Mat := fun i p =>
      let q := ct.moduli.getD i 0
      add64 (ct.c0 i p) (mul64 (ct.c1 i p) (sk.data i p) % q) % q
    let coeffs ← inttMat degree ct.moduli res
    pure { data := fun i p => coeffs i p % 2 ^ 32, moduli := ct.moduli }

/-- `extend_secret_key`, key_gen.py L48-74. Column 0 of the coefficients of an empty key raises. -/
def extendSecretKey (degree : Nat) (sk : SecretKey) (target : List Nat) : Except String SecretKey :=
  if target.take sk.moduli.length ≠ sk.moduli then .error "ValueError"
  else do
    let coeffs ← inttMat degree sk.moduli sk.data
    if sk.moduli.length = 0 then throw "IndexError"
    let slots ← nttMat degree target (fun _ p => coeffs 0 p)
    pure { data := slots, moduli := target }

/-- `compute_scaled_source_key_partition`, key_gen.py L77-108. -/
def scaledSource (src : SecretKey) (qLimbs : List Nat) (pVal start stop : Nat) : Mat := fun i p =>
  if start < stop ∧ start ≤ i ∧ i < stop then
    let q := qLimbs.getD i 0
    mul64 (src.data i p) (pVal % q) % q
  else 0

/-- `gen_key_switching_key`, key_gen.py L111-166. `rand part` are the uniform residues and the error coefficients drawn
for a part. A source key with fewer limbs than `q_limbs`, or a pre-extended key of another width, makes a NumPy
broadcast fail (a width of one, which would broadcast, is treated as an error as well). -/
def genKsk (degree : Nat) (src dst : SecretKey) (qLimbs pLimbs : List Nat) (dnum : Nat)
    (rand : Nat → Mat × (Nat → Int)) (dstExt : Option SecretKey) : Except String EvalKeys := do
  let numQ := qLimbs.length
  let allModuli := qLimbs ++ pLimbs
  let ext ← match dstExt with
    | none => extendSecretKey degree dst allModuli
    | some e => pure e
  let pVal := Crt.product pLimbs
  if dnum = 0 then throw "ZeroDivisionError"
  if src.moduli.length < numQ ∨ ext.moduli.length ≠ allModuli.length then throw "ValueError"
  let alpha := (numQ + dnum - 1) / dnum
  let parts ← (List.range dnum).mapM (fun (part : Nat) => do
    let aSlots ← nttMat degree allModuli (rand part).1
    let eSlots ← nttMat degree allModuli (residues allModuli (rand part).2)
    let start := part * alpha
    let stop := min ((part + 1) * alpha) numQ
    let scaled := scaledSource src qLimbs pVal start stop
    let b : Mat := fun i p =>
      let q := allModuli.getD i 0
      let prod := mul64 (aSlots i p) (ext.data i p) % q
      sub64 (add64 (add64 (eSlots i p) (scaled i p)) q) prod % q
    pure (aSlots, b))
  pure { a := parts.map Prod.fst, b := parts.map Prod.snd, moduli := allModuli }

/-- `gen_evaluation_key`, key_gen.py L169-192. -/
def genEvaluationKey (degree : Nat) (sk : SecretKey) (qTowers pTowers : List Nat) (dnum : Nat)
    (rand : Nat → Mat × (Nat → Int)) : Except String EvalKeys :=
  if sk.moduli.length ≠ qTowers.length then .error "ValueError"
  else
    let s2 : Mat := fun i p => mul64 (sk.data i p) (sk.data i p) % qTowers.getD i 0
    genKsk degree { data := s2, moduli := sk.moduli } sk qTowers pTowers dnum rand none

/-- `gen_conjugate_key`, key_gen.py L223-242. -/
def genConjugateKey (degree : Nat) (sk : SecretKey) (qLimbs pLimbs : List Nat) (dnum : Nat)
    (rand : Nat → Mat × (Nat → Int)) : Except String EvalKeys :=
  genKsk degree { data := fun i => flip degree (sk.data i), moduli := sk.moduli } sk qLimbs pLimbs dnum rand none

/-- `types.HMuxRotKey`, types.py L65-84. -/
structure HMuxRotKey where
  key0 : Ciphertext
  key1 : Ciphertext

/-- `pow(5, -j, 2 * degree)`, key_gen.py L290. -/
def rotationGenerator (degree j : Nat) : Except String Int := do
  let inv ← invMod 5 (2 * degree)
  pure (powMod inv j (2 * degree))

/-- `gen_hmuxrot_key`, key_gen.py L245-326. A Python integer that does not fit `uint64` raises at L287. `rand0` and
`rand1` are the draws for the two components. -/
def genHmuxrotKey (degree : Nat) (sk : SecretKey) (beta j : Nat) (qLimbs pLimbs : List Nat)
    (rand0 rand1 : Mat × (Nat → Int)) (skExt : Option SecretKey) : Except String HMuxRotKey := do
  let allModuli := qLimbs ++ pLimbs
  let ext ← match skExt with
    | none => extendSecretKey degree sk allModuli
    | some e => pure e
  let pVal := Crt.product pLimbs
  if 2 ^ 64 ≤ pVal * beta then throw "OverflowError"
  let g ← rotationGenerator degree j
  let cols ← (List.range sk.moduli.length).mapM (fun (i : Nat) => applyAutomorphism degree g (sk.data i))
  if sk.moduli.length ≠ qLimbs.length then throw "ValueError"
  let rotBeta : Mat := fun i p => mul64 (cols.getD i (fun _ => 0) p) beta % qLimbs.getD i 0
  let ksk ← genKsk degree { data := rotBeta, moduli := sk.moduli } sk qLimbs pLimbs 1 (fun _ => rand0) (some ext)
  let key0 : Ciphertext :=
    { c0 := ksk.b.getD 0 (fun _ _ => 0), c1 := ksk.a.getD 0 (fun _ _ => 0), moduli := ksk.moduli }
  let aSlots ← nttMat degree allModuli rand1.1
  let eSlots ← nttMat degree allModuli (residues allModuli rand1.2)
  let b : Mat := fun i p =>
    let q := allModuli.getD i 0
    let target1 := pVal * beta % q % q
    let prod := mul64 (aSlots i p) (ext.data i p) % q
    sub64 (add64 (add64 (eSlots i p) target1) q) prod % q
  pure { key0 := key0, key1 := { c0 := fun i p => b i p % 2 ^ 32, c1 := fun i p => aSlots i p % 2 ^ 32, moduli := allModuli } }

/-- `gen_mux_rotation_key`, key_gen.py L329-379. `1 - bit` is the Python difference; the model takes bits in `{0, 1}`
(`Nat` subtraction). -/
def genMuxRotationKey (degree : Nat) (sk : SecretKey) (bits : List Nat) (qLimbs pLimbs : List Nat) (stride : Nat)
    (rand : Nat → Nat → Mat × (Nat → Int)) : Except String (List (HMuxRotKey × HMuxRotKey)) := do
  let ext ← extendSecretKey degree sk (qLimbs ++ pLimbs)
  (List.range bits.length).mapM (fun (k : Nat) => do
    let bit := bits.getD k 0
    let k0 ← genHmuxrotKey degree sk bit (2 ^ k * stride) qLimbs pLimbs (rand k 0) (rand k 1) (some ext)
    let k1 ← genHmuxrotKey degree sk (1 - bit) 0 qLimbs pLimbs (rand k 2) (rand k 3) (some ext)
    pure (k0, k1))

end Verif.CkksKeys
