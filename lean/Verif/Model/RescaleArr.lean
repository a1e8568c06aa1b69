import Verif.Model.Rescale

/-!
# Model of `Rescale` on whole ciphertext objects: `jaxite/jaxite_ckks/rescale.py` L58-219, with array shapes

`Verif.Model.Rescale` takes one ciphertext element with as many limbs as the kernel has moduli. Here the data is an
array of shape `(num_elements, degree, num_limbs)`, operations broadcast as in JAX and raise when they cannot, the
stacked tables are padded and sliced as in the code, and the transform kernels are slices of one set of constants.

Simplifications: the `(r, c)` layout around the transforms is folded into `nttFlat` and `inttFlat`, as in
`Verif.Model.NttBat`; an array without elements, whose `reshape` with a `-1` raises (L202-204), is refused at once.
-/

namespace Verif.RescaleArr
open Verif.CkksMath Verif.Barrett Verif.NttBat Verif.Rescale

/-- An array of three axes: elements, coefficients or evaluation points, limbs. -/
structure Arr (α : Type) where
  e : Nat
  n : Nat
  l : Nat
  get : Nat → Nat → Nat → α

/-- The common length of two axes under broadcasting; `lax` raises `TypeError` when there is none. -/
def bdim (a b : Nat) : Except String Nat :=
  if a = b then .ok a else if a = 1 then .ok b else if b = 1 then .ok a else .error "TypeError"

/-- The index into an axis of length `d` that broadcasting uses for index `i` of the result. -/
def pick (d i : Nat) : Nat := if d = 1 then 0 else i

/-- An elementwise operation with broadcasting. -/
def map2 {α β γ : Type} (f : α → β → γ) (A : Arr α) (B : Arr β) : Except String (Arr γ) := do
  let e ← bdim A.e B.e
  let n ← bdim A.n B.n
  let l ← bdim A.l B.l
  pure ⟨e, n, l, fun a p i =>
    f (A.get (pick A.e a) (pick A.n p) (pick A.l i)) (B.get (pick B.e a) (pick B.n p) (pick B.l i))⟩

/-- `jnp.array(xs).reshape(1, 1, -1)`, rescale.py L187, L193, L198, L209, L218. -/
def row {α : Type} (d : α) (xs : List α) : Arr α := ⟨1, 1, xs.length, fun _ _ i => xs.getD i d⟩

/-- The constants of an `NTTBarrett` kernel along the axis of moduli. -/
abbrev NttK := List (Nat × Tables)

/-- `NTTBarrett.ntt` (ntt.py L244-267) between the reshapes at rescale.py L201-205 and L212. The axis of moduli of the
constants must be that of the data. -/
def nttArr (r c : Nat) (K : NttK) (A : Arr Nat) : Except String (Arr Nat) :=
  if A.l ≠ K.length then .error "ValueError"
  else .ok ⟨A.e, A.n, A.l, fun a p i =>
    nttFlat r c (K.getD i (0, noTables)).1 (K.getD i (0, noTables)).2 (fun t => A.get a t i) p⟩

/-- `NTTBarrett.intt` (ntt.py L269-290) between the reshapes at rescale.py L175-181. -/
def inttArr (r c : Nat) (K : NttK) (A : Arr Nat) : Except String (Arr Nat) :=
  if A.l ≠ K.length then .error "ValueError"
  else .ok ⟨A.e, A.n, A.l, fun a p i =>
    inttFlat r c (K.getD i (0, noTables)).1 (K.getD i (0, noTables)).2 (fun t => A.get a t i) p⟩

/-- The constants of one iteration: row `iter_idx` of the stacked tables, `thresholds[iter_idx]` and the two sliced
transform kernels (L80-88). -/
structure Level where
  gammas : List Nat
  betas : List Nat
  threshold : Nat
  nttLast : NttK
  nttRemaining : NttK

/-- The attributes of a `Rescale` object after `precompute_constants`. -/
structure Kernel where
  moduli : List Nat
  r : Nat
  c : Nat
  levels : List Level

/-- `jnp.zeros((m,)).at[:k].set(xs)`, rescale.py L122-127. -/
def padded (m k : Nat) (xs : List Nat) : List Nat := (List.range m).map (fun i => if i < k then xs.getD i 0 else 0)

/-- `constants.slice_moduli(slice(a, b))`, ntt.py L89-101. -/
def sliceModuli (K : NttK) (a b : Nat) : NttK := (K.take b).drop a

/-- The loop of `precompute_constants`, rescale.py L117-145: `full` are the constants of the transform for all moduli,
`m` is their number. -/
def levelsLoop (full : NttK) (m : Nat) : Nat → List Nat → Except String (List Level)
  | 0, _ => .ok []
  | k + 1, current => do
    let n := current.length
    let gb ← gammaBeta current
    let level : Level := {
      gammas := padded (m - 1) (n - 1) gb.1
      betas := padded (m - 1) (n - 1) gb.2
      threshold := (current.getD (n - 1) 0 + 1) / 2
      nttLast := sliceModuli full (n - 1) n
      nttRemaining := sliceModuli full 0 (n - 1) }
    let rest ← levelsLoop full m k current.dropLast
    pure (level :: rest)

/-- `precompute_constants`, rescale.py L96-149. -/
def precompute (moduli : List Nat) (numRescales r c : Nat) : Except String Kernel := do
  let tables ← moduli.mapM (fun (q : Nat) => precomputeTables r c q)
  let levels ← levelsLoop (moduli.zip tables) moduli.length numRescales moduli
  if numRescales = 0 then throw "ValueError"
  pure { moduli := moduli, r := r, c := c, levels := levels }

/-- `data[..., -1:]` between the reshapes of L172-176: an axis of no limbs cannot be reshaped to one limb. -/
def lastLimb (A : Arr Nat) : Except String (Arr Nat) :=
  if A.l = 0 then .error "TypeError" else .ok ⟨A.e, A.n, 1, fun a p _ => A.get a p (A.l - 1)⟩

/-- `data[..., :-1]`, L208. -/
def initLimbs (A : Arr Nat) : Arr Nat := { A with l := A.l - 1 }

/-- One iteration of `rescale`, rescale.py L162-219. -/
def stepArr (r c : Nat) (L : Level) (current : List Nat) (data : Arr Nat) : Except String (Arr Nat) := do
  let lastIdx := current.length - 1
  let gammas := L.gammas.take lastIdx
  let betas := L.betas.take lastIdx
  let qL := current.getD lastIdx 0
  let remaining := current.dropLast
  let last ← lastLimb data
  let coeffs ← inttArr r c L.nttLast last
  let shifted ← map2 (fun (q : Int) (x : Nat) => q - (qL : Int) + (x : Int)) (row 0 (remaining.map Int.ofNat)) coeffs
  let switched ← map2 (fun (x : Nat) (y : Int) => if x < L.threshold then (x : Int) else y) coeffs shifted
  let twisted ← map2 (fun (s : Int) (g : Nat) => mul64 (toU64 s) g) switched (row 0 gammas)
  let reduced ← map2 (fun (t q : Nat) => t % q % 2 ^ 32) twisted (row 0 remaining)
  let nttRes ← nttArr r c L.nttRemaining reduced
  let scaled ← map2 mul64 (initLimbs data) (row 0 betas)
  let res ← map2 add64 scaled nttRes
  map2 (fun (t q : Nat) => t % q % 2 ^ 32) res (row 0 remaining)

/-- The loop of `rescale`, rescale.py L162-219. -/
def loopArr (r c : Nat) : List Level → List Nat → Arr Nat → Except String (List Nat × Arr Nat)
  | [], current, data => .ok (current, data)
  | L :: rest, current, data => do
    let data' ← stepArr r c L current data
    loopArr r c rest current.dropLast data'

/-- A `Ciphertext` object (types.py L27-40). -/
structure CtObj where
  data : Arr Nat
  moduli : List Nat

/-- `rescale`, rescale.py L151-219: the state of the ciphertext object afterwards. Its attributes are assigned after
everything that can raise, so an exception leaves it as it was. `ciphertext.moduli` is not read. -/
def rescale (kernel : Option Kernel) (ct : CtObj) : Except String CtObj :=
  match kernel with
  | none => .error "ValueError"
  | some K =>
    if ct.data.n ≠ K.r * K.c then .error "AssertionError"
    else if ct.data.e = 0 then .error "TypeError"
    else do
      let out ← loopArr K.r K.c K.levels K.moduli ct.data
      pure { data := out.2, moduli := out.1 }

/-- `Rescale.precompute_constants` and `rescale` on one object. -/
def rescaleWith (moduli : List Nat) (numRescales r c : Nat) (ct : CtObj) : Except String CtObj := do
  let K ← precompute moduli numRescales r c
  rescale (some K) ct

end Verif.RescaleArr
