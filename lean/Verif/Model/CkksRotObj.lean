import Verif.Model.CkksObj
import Verif.Model.CkksRotate

/-!
# Model of key switching, conjugation and blind rotation on whole objects, with array shapes

`Verif.Model.CkksMul` and `Verif.Model.CkksRotate` take elements with one limb for each modulus. Here the data of a ciphertext is
an array of shape `(num_elements, degree, num_limbs)`, as in `Verif.Model.CkksObj`; data of shape `(degree, num_limbs)` is an
array with one element. Operations broadcast and raise when they cannot, an index beyond the end of an array is clamped, a slice
beyond the end is empty.

Simplifications: the kinds of the exceptions for shapes that do not fit are not distinguished; `jnp.take` in
`apply_automorphism_ntt` is used with indices in range (powers of two as degree).
-/

namespace Verif.CkksRotObj
open Verif.Barrett Verif.CkksKeys Verif.CkksMul Verif.RescaleArr Verif.CkksObj

/-- One part of `c1` over all moduli, key_switching.py L105-152. The slice at L119 stops at the last limb of the data; the reshapes
at L120 and L129 together require `r * c` rows and one limb for each modulus of the part (a first reshape that moves entries
between limbs is followed by one that raises, since no part is empty in a kernel that was built). -/
def partArr (S : KeySwitcher) (q p : List Nat) (bc : BcKernel) (start i : Nat) (c1 : Arr Nat) : Except String (Arr Nat) := do
  let n := (q.length + S.tablesQ.length - 1) / S.tablesQ.length
  let stop := min (i * n + n) q.length
  if c1.n ≠ S.r * S.c ∨ min stop c1.l - i * n ≠ stop - i * n then throw "TypeError"
  let part ← switchPart S q p bc start i (fun l t => c1.get 0 t l)
  pure ⟨1, c1.n, (q ++ p).length, fun _ t l => part l t⟩

/-- The product with one part of one half of the key, added to the sum, key_switching.py L154-169. -/
def accumulate (mulModuli : Option (List Nat)) (all : List Nat) (acc key : Arr Nat) (i : Nat) (part : Arr Nat) :
    Except String (Arr Nat) := do
  let k ← elem key i
  let prod ← CkksObj.mulBarrett mulModuli ⟨k, all⟩ ⟨part, all⟩
  let sum ← map2 add64 acc prod.data
  map2 (fun x m : Nat => x % m) sum (row 0 all)

/-- The loop of `key_switch`, key_switching.py L105-169, from part `i` on. -/
def switchLoop (S : KeySwitcher) (q p : List Nat) (bc : BcKernel) (mulModuli : Option (List Nat)) (start : Nat) (ksk : EvkObj)
    (c1 : Arr Nat) : Nat → Nat → Arr Nat × Arr Nat → Except String (Arr Nat × Arr Nat)
  | 0, _, acc => .ok acc
  | n + 1, i, acc => do
    let part ← partArr S q p bc start i c1
    let b ← accumulate mulModuli (q ++ p) acc.1 ksk.b i part
    let a ← accumulate mulModuli (q ++ p) acc.2 ksk.a i part
    switchLoop S q p bc mulModuli start ksk c1 n (i + 1) (b, a)

/-- `p_mod_q`, key_switching.py L172-176. -/
def prodMod (p : List Nat) (m : Nat) : Nat := p.foldl (fun acc x => mul64 acc (x % m) % m) 1

/-- `jnp.concatenate([x, zeros], axis=-1)` with `k` columns of zeros, key_switching.py L180-183. -/
def padLimbs (A : Arr Nat) (k : Nat) : Arr Nat :=
  ⟨A.e, A.n, A.l + k, fun a t i => if i < A.l then A.get a t i % 2 ^ 32 else 0⟩

/-- `jnp.stack` of two arrays of one shape, key_switching.py L190-192. -/
def stack2 (x y : Arr Nat) : Except String (Arr Nat) :=
  if x.n ≠ y.n ∨ x.l ≠ y.l then .error "ValueError"
  else .ok ⟨2, x.n, x.l, fun a t i => (if a = 0 then x.get 0 t i else y.get 0 t i) % 2 ^ 32⟩

/-- `KeySwitcher.key_switch`, key_switching.py L81-194. `mulModuli` are the moduli of the constants of the product kernel
(`none` when missing). `ksk.moduli` is not read. -/
def keySwitch (S : KeySwitcher) (ct : CtObj) (ksk : EvkObj) (p : List Nat) (bc : BcKernel) (mulModuli : Option (List Nat))
    (start : Nat) : Except String CtObj := do
  let c0 ← elem ct.data 0
  let c1 ← elem ct.data 1
  let q := ct.moduli
  let dnum := S.tablesQ.length
  if dnum = 0 then throw "ZeroDivisionError"
  let all := q ++ p
  let zeros : Arr Nat := ⟨1, c1.n, all.length, fun _ _ _ => 0⟩
  let ks ← switchLoop S q p bc mulModuli start ksk c1 dnum 0 (zeros, zeros)
  let scaled ← map2 mul64 c0 (row 0 (q.map (prodMod p)))
  let scaledQ ← map2 (fun x m : Nat => x % m) scaled (row 0 q)
  let sum ← map2 add64 (padLimbs scaledQ p.length) ks.1
  let c0' ← map2 (fun x m : Nat => x % m) sum (row 0 all)
  let data ← stack2 c0' ks.2
  pure { data := data, moduli := all }

/-- `jnp.flip(ct.data, axis=1)`, conjugate.py L67-70. -/
def flipArr (A : Arr Nat) : Arr Nat := ⟨A.e, A.n, A.l, fun a t i => A.get a (A.n - 1 - t) i⟩

/-- `Conjugation.conjugate`, conjugate.py L55-84, with the kernels passed as in the call. The object that is rescaled in place is
the one `key_switch` returned. -/
def conjugate (S : KeySwitcher) (ct : CtObj) (conjKey : EvkObj) (p : List Nat) (bc : BcKernel) (mulModuli : Option (List Nat))
    (rescaler : Option RescaleArr.Kernel) (start : Nat) : Except String CtObj := do
  let prime ← keySwitch S ⟨flipArr ct.data, ct.moduli⟩ conjKey p bc mulModuli start
  RescaleArr.rescale rescaler prime

/-- The attributes of a `BlindRotation` object, blind_rotate.py L34-40, without the two transforms that none of its methods uses. -/
structure Kernel where
  switcher : KeySwitcher
  bc : BcKernel
  mulModuli : Option (List Nat)
  rescaler : Option RescaleArr.Kernel

/-- `BlindRotation()`, blind_rotate.py L34-40. -/
def Kernel.fresh : Kernel := ⟨⟨0, 0, [], [], [], []⟩, [], none, none⟩

/-- `precompute_constants`, blind_rotate.py L66-103. The transforms for the two lists (L79-80) need at least one modulus each. -/
def precompute (q p : List Nat) (dnum r c numRescales : Nat) : Except String Kernel := do
  if q = [] ∨ p = [] then throw "ValueError"
  let S ← precomputeSwitch q p dnum r c
  let R ← RescaleArr.precompute (q ++ p) numRescales r c
  pure { switcher := S, bc := CkksRotate.bcPairs q p dnum, mulModuli := some (q ++ p), rescaler := some R }

/-- An `HMuxRotKey`, types.py L65-84: two ciphertext objects. -/
structure HmrObj where
  key0 : CtObj
  key1 : CtObj

/-- `apply_automorphism_ntt` on data of shape `(degree, num_limbs)`, blind_rotate.py L115-116. -/
def rotateArr (A : Arr Nat) (g : Int) : Except String (Arr Nat) := do
  let m ← CkksRotate.rotate A.n g A.l (fun i t => A.get 0 t i)
  pure ⟨1, A.n, A.l, fun _ t i => m i t⟩

/-- `jnp.stack([zeros, x])`, blind_rotate.py L120-126. -/
def underZero (x : Arr Nat) : Arr Nat := ⟨2, x.n, x.l, fun a t i => if a = 0 then 0 else x.get 0 t i⟩

/-- `data[a:b]` along the first axis. -/
def sliceElems (A : Arr Nat) (a b : Nat) : Arr Nat := ⟨min b A.e - a, A.n, A.l, fun k t i => A.get (a + k) t i⟩

/-- The evaluation key made of a ciphertext, blind_rotate.py L129-138. -/
def asKeys (c : CtObj) : EvkObj := ⟨sliceElems c.data 1 2, sliceElems c.data 0 1, c.moduli⟩

/-- `hmuxrot`, blind_rotate.py L105-170. -/
def hmuxrot (K : Kernel) (ct : CtObj) (key : HmrObj) (j : Nat) (p : List Nat) (controlIndex : Nat) : Except String CtObj := do
  let g ← rotationGenerator ct.data.n j
  let c1 ← elem ct.data 1
  let alpha ← rotateArr c1 g
  let c0 ← elem ct.data 0
  let beta ← rotateArr c0 g
  let prod0 ← keySwitch K.switcher ⟨underZero alpha, ct.moduli⟩ (asKeys key.key0) p K.bc K.mulModuli controlIndex
  let prod1 ← keySwitch K.switcher ⟨underZero beta, ct.moduli⟩ (asKeys key.key1) p K.bc K.mulModuli controlIndex
  let sum ← map2 add64 prod0.data prod1.data
  let reduced ← map2 (fun x m : Nat => x % m % 2 ^ 32) sum (row 0 prod0.moduli)
  RescaleArr.rescale K.rescaler ⟨reduced, prod0.moduli⟩

/-- One iteration of `brot_mux`, blind_rotate.py L202-229. -/
def muxStep (K : Kernel) (p : List Nat) (controlIndex stride : Nat) (ct : CtObj) (k : Nat) (keys : HmrObj × HmrObj) :
    Except String CtObj := do
  let ct0 ← hmuxrot K ct keys.1 (2 ^ k * stride) p controlIndex
  let ct1 ← hmuxrot K ct keys.2 0 p controlIndex
  let sum ← map2 add64 ct0.data ct1.data
  let reduced ← map2 (fun s m : Nat => (if m ≤ s then s - m else s) % 2 ^ 32) sum (row 0 ct0.moduli)
  pure { data := reduced, moduli := ct0.moduli }

/-- The loop of `brot_mux` from iteration `k` on. -/
def muxLoop (K : Kernel) (p : List Nat) (controlIndex stride : Nat) : Nat → List (HmrObj × HmrObj) → CtObj → Except String CtObj
  | _, [], ct => .ok ct
  | k, key :: rest, ct => do
    let ct' ← muxStep K p controlIndex stride ct k key
    muxLoop K p controlIndex stride (k + 1) rest ct'

/-- `brot_mux`, blind_rotate.py L172-232. -/
def brotMux (K : Kernel) (ct : CtObj) (keys : List (HmrObj × HmrObj)) (p : List Nat) (controlIndex stride : Nat) :
    Except String CtObj :=
  muxLoop K p controlIndex stride 0 keys ct

/-- The products of `brot_cm` added up, blind_rotate.py L261-265: `acc` is the sum so far. -/
def sumLoop (mulModuli : Option (List Nat)) (msC msP : List Nat) : List (Arr Nat × Arr Nat) → Arr Nat → Except String (Arr Nat)
  | [], acc => .ok acc
  | (c, x) :: rest, acc => do
    let prod ← CkksObj.mulBarrett mulModuli ⟨c, msC⟩ ⟨x, msP⟩
    let acc' ← map2 add64 acc prod.data
    sumLoop mulModuli msC msP rest acc'

/-- Whether arrays have one shape, as `jnp.stack` requires. -/
def sameShape (A B : Arr Nat) : Bool := A.e == B.e && A.n == B.n && A.l == B.l

/-- `brot_cm`, blind_rotate.py L234-279. The moduli of the first entries are used for all (L243, L254-257). A plaintext has data of
shape `(degree, num_limbs)`. The sum starts with an array of the shape of the products. -/
def brotCm (K : Kernel) (cms : List CtObj) (pts : List PtObj) : Except String CtObj :=
  if cms.length ≠ pts.length then .error "ValueError"
  else match cms, pts with
  | ct0 :: _, pt0 :: _ =>
    if ct0.moduli.length ≠ pt0.moduli.length then .error "ValueError"
    else if ¬ (cms.all (fun c => sameShape c.data ct0.data) ∧ pts.all (fun x => sameShape x.data pt0.data)) then .error "ValueError"
    else do
      let first ← CkksObj.mulBarrett K.mulModuli ⟨ct0.data, ct0.moduli⟩ ⟨pt0.data, pt0.moduli⟩
      let zeros : Arr Nat := { first.data with get := fun _ _ _ => 0 }
      let sum ← sumLoop K.mulModuli ct0.moduli pt0.moduli (cms.zipWith (fun c x => (c.data, x.data)) pts) zeros
      let reduced ← map2 (fun z m : Nat => modularReduction z (Barrett.precompute m) % 2 ^ 32) sum (row 0 (K.mulModuli.getD []))
      RescaleArr.rescale K.rescaler ⟨reduced, ct0.moduli⟩
  | _, _ => .error "IndexError"

end Verif.CkksRotObj
