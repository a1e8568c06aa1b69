import Verif.Model.CkksMul
import Verif.Model.Rescale

/-!
# Model of `jaxite/jaxite_ckks/blind_rotate.py` and `conjugate.py`

The kernels hold the moduli their constants were computed for. The NTT kernels `ntt_q` and `ntt_p`
(blind_rotate.py L80-81) are only used by `lift_ciphertext` and are not represented.
-/

namespace Verif.CkksRotate
open Verif.Barrett Verif.CkksKeys Verif.CkksMul Verif.Automorphism

/-- `BlindRotate`, blind_rotate.py L35-64. -/
structure Kernel where
  switcher : KeySwitcher
  bc : BcKernel
  mulModuli : List Nat
  rescaler : Rescale.Kernel

/-- The pairs of blind_rotate.py L86-94, resolved to moduli as `BasisConversionBarrett.precompute_constants` does. -/
def bcPairs (qLimbs pLimbs : List Nat) (dnum : Nat) : BcKernel :=
  let n := (qLimbs.length + dnum - 1) / dnum
  let all := qLimbs ++ pLimbs
  (List.range dnum).map (fun i =>
    let start := i * n
    let stop := min (start + n) qLimbs.length
    ((List.range' start (stop - start)).map (fun j => all.getD j 0),
     ((List.range all.length).filter (fun j => !(decide (start ≤ j) && decide (j < stop)))).map (fun j => all.getD j 0)))

/-- `precompute_constants`, blind_rotate.py L67-103. -/
def precompute (qLimbs pLimbs : List Nat) (dnum r c numRescales : Nat) : Except String Kernel := do
  let S ← precomputeSwitch qLimbs pLimbs dnum r c
  let R ← Rescale.precompute (qLimbs ++ pLimbs) numRescales r c
  pure { switcher := S, bc := bcPairs qLimbs pLimbs dnum, mulModuli := qLimbs ++ pLimbs, rescaler := R }

/-- `rescale_kernel.rescale(ct)` on both elements, rescale.py L151-219; it updates the ciphertext in place. -/
def rescaleCt (K : Rescale.Kernel) (degree : Nat) (ct : Ciphertext) : Except String Ciphertext := do
  let r0 ← Rescale.rescale (some K) degree ct.moduli.length ct.c0
  let r1 ← Rescale.rescale (some K) degree ct.moduli.length ct.c1
  pure { c0 := r0.2, c1 := r1.2, moduli := r0.1 }

/-- `apply_automorphism_ntt` on every limb of one element, blind_rotate.py L115-116. -/
def rotate (degree : Nat) (g : Int) (numModuli : Nat) (data : Mat) : Except String Mat := do
  let cols ← (List.range numModuli).mapM (fun (i : Nat) => applyAutomorphism degree g (data i))
  pure (fun i => cols.getD i (fun _ => 0))

/-- `hmuxrot`, blind_rotate.py L105-170. A key holds one part; a kernel with more parts (`dnum > 1`) uses it for each. -/
def hmuxrot (K : Kernel) (degree : Nat) (ct : Ciphertext) (key : HMuxRotKey) (j : Nat) (pLimbs : List Nat)
    (controlIndex : Nat) : Except String Ciphertext := do
  let g ← rotationGenerator degree j
  let alphaRot ← rotate degree g ct.moduli.length ct.c1
  let betaRot ← rotate degree g ct.moduli.length ct.c0
  let zeros : Mat := fun _ _ => 0
  let prod0 ← keySwitch K.switcher { c0 := zeros, c1 := alphaRot, moduli := ct.moduli }
    { a := [key.key0.c1], b := [key.key0.c0], moduli := key.key0.moduli } pLimbs K.bc (some K.mulModuli) controlIndex
  let prod1 ← keySwitch K.switcher { c0 := zeros, c1 := betaRot, moduli := ct.moduli }
    { a := [key.key1.c1], b := [key.key1.c0], moduli := key.key1.moduli } pLimbs K.bc (some K.mulModuli) controlIndex
  let all := prod0.moduli
  let sum : Mat → Mat → Mat := fun x y i p => add64 (x i p) (y i p) % all.getD i 0 % 2 ^ 32
  rescaleCt K.rescaler degree { c0 := sum prod0.c0 prod1.c0, c1 := sum prod0.c1 prod1.c1, moduli := all }

/-- One iteration of `brot_mux`, blind_rotate.py L205-232. -/
def muxStep (K : Kernel) (degree : Nat) (pLimbs : List Nat) (controlIndex stride : Nat) (ct : Ciphertext)
    (k : Nat) (keys : HMuxRotKey × HMuxRotKey) : Except String Ciphertext := do
  let ct0 ← hmuxrot K degree ct keys.1 (2 ^ k * stride) pLimbs controlIndex
  let ct1 ← hmuxrot K degree ct keys.2 0 pLimbs controlIndex
  let sum : Mat → Mat → Mat := fun x y i p =>
    let m := ct0.moduli.getD i 0
    let s := add64 (x i p) (y i p)
    (if m ≤ s then s - m else s) % 2 ^ 32
  pure { c0 := sum ct0.c0 ct1.c0, c1 := sum ct0.c1 ct1.c1, moduli := ct0.moduli }

/-- The loop of `brot_mux` from iteration `k` on. -/
def muxLoop (K : Kernel) (degree : Nat) (pLimbs : List Nat) (controlIndex stride : Nat) :
    Nat → List (HMuxRotKey × HMuxRotKey) → Ciphertext → Except String Ciphertext
  | _, [], ct => .ok ct
  | k, key :: rest, ct => do
    let ct' ← muxStep K degree pLimbs controlIndex stride ct k key
    muxLoop K degree pLimbs controlIndex stride (k + 1) rest ct'

/-- `brot_mux`, blind_rotate.py L172-232. -/
def brotMux (K : Kernel) (degree : Nat) (ct : Ciphertext) (keys : List (HMuxRotKey × HMuxRotKey)) (pLimbs : List Nat)
    (controlIndex stride : Nat) : Except String Ciphertext :=
  muxLoop K degree pLimbs controlIndex stride 0 keys ct

/-- `brot_cm`, blind_rotate.py L234-279. All entries of a list have the shape of its first entry (`jnp.stack`). -/
def brotCm (K : Kernel) (degree : Nat) (cmkeys : List Ciphertext) (pts : List Plaintext) : Except String Ciphertext :=
  if cmkeys.length ≠ pts.length then .error "ValueError"
  else match cmkeys, pts with
  | ct0 :: _, pt0 :: _ =>
    if ct0.moduli.length ≠ pt0.moduli.length then .error "ValueError"
    else do
      let prods ← (List.range cmkeys.length).mapM (fun (l : Nat) => do
        let ct := cmkeys.getD l ct0
        let pt := pts.getD l pt0
        let m0 ← mulBarrett (some K.mulModuli) ct0.moduli pt0.moduli ct.c0 pt.data
        let m1 ← mulBarrett (some K.mulModuli) ct0.moduli pt0.moduli ct.c1 pt.data
        pure (m0, m1))
      let reduce : (Mat × Mat → Mat) → Mat := fun sel i p =>
        modularReduction ((prods.map (fun x => sel x i p)).foldl add64 0) (Barrett.precompute (K.mulModuli.getD i 0)) % 2 ^ 32
      rescaleCt K.rescaler degree { c0 := reduce Prod.fst, c1 := reduce Prod.snd, moduli := ct0.moduli }
  | _, _ => .error "IndexError"

/-- `conjugate`, conjugate.py L55-84, with the kernels passed as in the call. -/
def conjugate (S : KeySwitcher) (R : Rescale.Kernel) (degree : Nat) (ct : Ciphertext) (conjKey : EvalKeys)
    (pLimbs : List Nat) (bc : BcKernel) (mulModuli : Option (List Nat)) (start : Nat) : Except String Ciphertext := do
  let prime ← keySwitch S
    { c0 := fun i => flip degree (ct.c0 i), c1 := fun i => flip degree (ct.c1 i), moduli := ct.moduli }
    conjKey pLimbs bc mulModuli start
  rescaleCt R degree prime

end Verif.CkksRotate
