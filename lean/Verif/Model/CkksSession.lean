import Verif.Model.Helpers
import Verif.Model.CkksKeys
import Verif.Model.CkksRotate
import Verif.Model.Encode

/-!
# Model of the randomised entry points of the CKKS package

`random.py` (the samplers), and the functions that draw samples: `key_gen.py`, `encrypt.Encrypt.encrypt`; further
`key_gen.gen_cm_keys` and `blind_rotate_utils.lift_ciphertext`. A generator is a state machine over a state `σ`.
-/

namespace Verif.CkksSession
open Verif.Helpers Verif.CkksKeys Verif.CkksMul Verif.CkksRotate Verif.NttBat

/-- Computations that draw samples and may raise. -/
abbrev Draw (σ : Type) := StateT σ (Except String)

/-- The methods of the Python generator `self.rng` used in random.py L40-70: `round(normalvariate(0, sigma))`,
`choice(list)`, `randrange(0, q)`, `sample(range(n), k=weight)`. -/
structure Rng (σ : Type) where
  normal : σ → Int × σ
  choice : List Int → σ → Int × σ
  randrange : Nat → σ → Int × σ
  sample : Nat → Nat → σ → List Nat × σ

/-- The coefficients of `gen_gaussian_poly`, random.py L42. -/
def gaussianCoeffs {σ : Type} (rng : Rng σ) (degree : Nat) : Draw σ (Nat → Int) := fun s =>
  let r := draw rng.normal degree s
  .ok (fun p => r.1.getD p 0, r.2)

/-- `gen_gaussian_poly`, random.py L39-45. -/
def genGaussianPoly {σ : Type} (rng : Rng σ) (degree : Nat) (moduli : List Nat) : Draw σ Mat := do
  let coeffs ← gaussianCoeffs rng degree
  pure (residues moduli coeffs)

/-- The coefficients of `gen_ternary_poly`, random.py L49. -/
def ternaryCoeffs {σ : Type} (rng : Rng σ) (degree : Nat) : Draw σ (Nat → Int) := fun s =>
  let r := draw (rng.choice [0, 1]) degree s
  .ok (fun p => r.1.getD p 0, r.2)

/-- `gen_ternary_poly`, random.py L48-52. -/
def genTernaryPoly {σ : Type} (rng : Rng σ) (degree : Nat) (moduli : List Nat) : Draw σ Mat := do
  let coeffs ← ternaryCoeffs rng degree
  pure (residues moduli coeffs)

/-- The loop of `gen_uniform_poly`, random.py L56-58. `randrange(0, 0)` raises. -/
def uniformCols {σ : Type} (rng : Rng σ) (degree : Nat) : List Nat → Draw σ (List (List Int))
  | [] => pure []
  | q :: qs => do
    if q = 0 ∧ degree ≠ 0 then throw "ValueError"
    let col ← (fun s => .ok (draw (rng.randrange q) degree s) : Draw σ (List Int))
    let rest ← uniformCols rng degree qs
    pure (col :: rest)

/-- `gen_uniform_poly`, random.py L55-58. -/
def genUniformPoly {σ : Type} (rng : Rng σ) (degree : Nat) (moduli : List Nat) : Draw σ Mat := do
  let cols ← uniformCols rng degree moduli
  pure (fun i p => ((cols.getD i []).getD p 0).toNat)

/-- The vector of `gen_sparse_binary`, random.py L64-66. A weight above the degree makes `sample` raise, an index
outside the array the assignment. -/
def sparseCoeffs {σ : Type} (rng : Rng σ) (degree weight : Nat) : Draw σ (Nat → Int) := do
  if degree < weight then throw "ValueError"
  let indices ← (fun s => .ok (rng.sample degree weight s) : Draw σ (List Nat))
  if indices.all (fun i => i < degree) = false then throw "IndexError"
  pure (fun p => if p ∈ indices then 1 else 0)

/-- `gen_sparse_binary`, random.py L61-66: the same column for every modulus. -/
def genSparseBinary {σ : Type} (rng : Rng σ) (degree weight : Nat) (moduli : List Nat) : Draw σ Mat := do
  if moduli = [] then throw "ValueError"
  let v ← sparseCoeffs rng degree weight
  pure (fun _ p => (v p).toNat)

/-- `keygen` with its draws, key_gen.py L17-45. `CkksKeys.keygen` reduces the coefficients as the samplers do (the
sparse column is not reduced by the sampler; the values agree for moduli of at least 2). -/
def keygenRandom {σ : Type} (rng : Rng σ) (degree : Nat) (moduli : List Nat) (hammingWeight : Option Nat) :
    Draw σ (PublicKey × SecretKey) := do
  let s ← match hammingWeight with
    | some w => sparseCoeffs rng degree w
    | none => ternaryCoeffs rng degree
  let a ← genUniformPoly rng degree moduli
  let e ← gaussianCoeffs rng degree
  MonadExcept.ofExcept (keygen degree moduli s e a)

/-- `Encrypt.encrypt` with its draws, encrypt.py L46-89. The check of the moduli comes before the draws. -/
def encryptRandom {σ : Type} (rng : Rng σ) (degree : Nat) (pk : PublicKey) (pt : Plaintext) : Draw σ Ciphertext := do
  if pt.moduli ≠ pk.moduli.take pt.moduli.length then throw "ValueError"
  let v ← ternaryCoeffs rng degree
  let e0 ← gaussianCoeffs rng degree
  let e1 ← gaussianCoeffs rng degree
  MonadExcept.ofExcept (encrypt degree pk pt v e0 e1)

/-- The draws of `n` rounds of the loop of `gen_key_switching_key`, key_gen.py L138-139: a uniform and a short
polynomial per part. -/
def kskDraws {σ : Type} (rng : Rng σ) (degree : Nat) (moduli : List Nat) : Nat → Draw σ (List (Mat × (Nat → Int)))
  | 0 => pure []
  | n + 1 => do
    let a ← genUniformPoly rng degree moduli
    let e ← gaussianCoeffs rng degree
    let rest ← kskDraws rng degree moduli n
    pure ((a, e) :: rest)

/-- The draw of a part. -/
def drawOf (draws : List (Mat × (Nat → Int))) (part : Nat) : Mat × (Nat → Int) :=
  draws.getD part (fun _ _ => 0, fun _ => 0)

/-- `gen_evaluation_key` with its draws, key_gen.py L169-192. -/
def genEvaluationKeyRandom {σ : Type} (rng : Rng σ) (degree : Nat) (sk : SecretKey) (qTowers pTowers : List Nat)
    (dnum : Nat) : Draw σ EvalKeys := do
  let draws ← kskDraws rng degree (qTowers ++ pTowers) dnum
  MonadExcept.ofExcept (genEvaluationKey degree sk qTowers pTowers dnum (drawOf draws))

/-- `gen_conjugate_key` with its draws, key_gen.py L223-242. -/
def genConjugateKeyRandom {σ : Type} (rng : Rng σ) (degree : Nat) (sk : SecretKey) (qLimbs pLimbs : List Nat)
    (dnum : Nat) : Draw σ EvalKeys := do
  let draws ← kskDraws rng degree (qLimbs ++ pLimbs) dnum
  MonadExcept.ofExcept (genConjugateKey degree sk qLimbs pLimbs dnum (drawOf draws))

/-- `gen_hmuxrot_key` with its draws, key_gen.py L245-326: those of the key-switching key with one part (L298-306),
then those of the second component (L311-312). -/
def genHmuxrotKeyRandom {σ : Type} (rng : Rng σ) (degree : Nat) (sk : SecretKey) (beta j : Nat)
    (qLimbs pLimbs : List Nat) (skExt : Option SecretKey) : Draw σ HMuxRotKey := do
  let draws ← kskDraws rng degree (qLimbs ++ pLimbs) 2
  MonadExcept.ofExcept (genHmuxrotKey degree sk beta j qLimbs pLimbs (drawOf draws 0) (drawOf draws 1) skExt)

/-- The rows of `gen_cm_keys`, key_gen.py L213-218: `n` columns from column `j` on. -/
def cmRow {σ : Type} (rng : Rng σ) (degree : Nat) (pk : PublicKey) (plain0 plain1 : Plaintext) (i j : Nat) :
    Nat → Draw σ (List Ciphertext)
  | 0 => pure []
  | n + 1 => do
    let ct ← encryptRandom rng degree pk (if i = j then plain1 else plain0)
    let rest ← cmRow rng degree pk plain0 plain1 i (j + 1) n
    pure (ct :: rest)

/-- `n` rows from row `i` on, of `width` entries each. -/
def cmRows {σ : Type} (rng : Rng σ) (degree : Nat) (pk : PublicKey) (plain0 plain1 : Plaintext) (width i : Nat) :
    Nat → Draw σ (List (List Ciphertext))
  | 0 => pure []
  | n + 1 => do
    let row ← cmRow rng degree pk plain0 plain1 i 0 width
    let rest ← cmRows rng degree pk plain0 plain1 width (i + 1) n
    pure (row :: rest)

/-- `gen_cm_keys`, key_gen.py L197-220, over exact complex numbers. Every `encrypt` makes its own
`SecureRandomSource`; `rng` is the system generator behind them. -/
noncomputable def genCmKeys {σ : Type} (rng : Rng σ) (rnd : ℝ → ℤ) (degree : Nat) (indices : List Nat) (pk : PublicKey)
    (scale : ℝ) : Draw σ (List (List Ciphertext)) := do
  let numSlots := degree / 2
  let plain0 ← MonadExcept.ofExcept (Encode.encode rnd degree pk.moduli scale (List.replicate numSlots 0))
  let plain1 ← MonadExcept.ofExcept (Encode.encode rnd degree pk.moduli scale (List.replicate numSlots 1))
  let n := indices.length
  cmRows rng degree pk plain0 plain1 n 0 n

/-- One element of `lift_ciphertext`, blind_rotate_utils.py L67-92. Simplified: the transforms reduce by the moduli of the
ciphertext and by `p_limbs`, where the code reduces by the moduli the kernels were built for. -/
def liftElement (qLimbs pLimbs : List Nat) (bc : BcKernel) (controlIndex r c : Nat)
    (tablesQ tablesP : List Tables) (data : Mat) : Except String Mat := do
  if tablesQ.length ≠ qLimbs.length ∨ tablesP.length ≠ pLimbs.length then throw "TypeError"
  let coeffs : Mat := fun i => inttFlat r c (qLimbs.getD i 0) (tablesQ.getD i Rescale.noTables) (data i)
  match bc[controlIndex]? with
  | none => throw "IndexError"
  | some (original, target) => do
    if original.length ≠ qLimbs.length ∨ target.length ≠ pLimbs.length then throw "TypeError"
    let conv ← basisChangeMat (r * c) original target coeffs
    let pNtt : Mat := fun j => nttFlat r c (pLimbs.getD j 0) (tablesP.getD j Rescale.noTables) (conv j)
    pure (fun i => if i < qLimbs.length then data i else pNtt (i - qLimbs.length))

/-- `lift_ciphertext`, blind_rotate_utils.py L44-97, for two elements. The tables are those of `ntt_q` and `ntt_p`. -/
def liftCiphertext (ct : Ciphertext) (bc : BcKernel) (controlIndex : Nat) (pLimbs : List Nat)
    (tablesQ tablesP : List Tables) (r c : Nat) : Except String Ciphertext := do
  let c0 ← liftElement ct.moduli pLimbs bc controlIndex r c tablesQ tablesP ct.c0
  let c1 ← liftElement ct.moduli pLimbs bc controlIndex r c tablesQ tablesP ct.c1
  pure { c0 := c0, c1 := c1, moduli := ct.moduli ++ pLimbs }

end Verif.CkksSession
