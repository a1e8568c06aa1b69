import Verif.Model.EcBatch
import Verif.Model.Pippenger

/-!
# jaxite_ec/pippenger.py and pippenger_rns.py: the array programs

`Verif.Model.Pippenger` follows the algorithms on lists of points.  Here are the programs as they are written: arrays
with the axes (coordinate, window, bucket, chunk), reshapes, transpositions, flips, broadcasts, gathers, scatters and
`jax.lax.scan`, on top of the packed point operations of `Verif.Model.EcBatch`.  Arrays are nested lists in the order of
their axes.

Not represented: dtypes (the entries of all arrays are in range), device placement, and the compilation for fixed shapes
(a call with other shapes than those the functions were compiled for raises; here it raises when the shapes do not fit
together).
-/

namespace Verif.PippengerArr
open Verif.EcBatch Verif.EcCurve Verif.EcRns Verif.Pippenger

/-- A four-dimensional array. -/
abbrev Arr4 := List Arr3

/-- The packed point operations that the algorithms call. -/
structure Packs where
  /-- `padd_*_pack` -/
  padd : Arr3 → Arr3 → Except String Arr3
  /-- `pdul_*_pack` -/
  pdul : Arr3 → Except String Arr3
  /-- `pneg_*_pack` -/
  pneg : Arr3 → Except String Arr3

/-- pippenger.py, twisted curve. -/
def lazyTwistedPacks : Packs where
  padd := paddLazyTwistedPack
  pdul p := .ok (pdulLazyTwistedPack p)
  pneg p := .ok (pnegLazyTwistedPack p)

/-- pippenger.py, XYZZ coordinates (there is no negation). -/
def lazyXyzzPacks : Packs where
  padd := paddLazyXyzzPack
  pdul p := .ok (pdulLazyXyzzPack p)
  pneg p := .ok p

/-- pippenger_rns.py, twisted curve (there is no negation). -/
def rnsTwistedPacks (mat : Mat) : Packs where
  padd := paddRnsTwistedPack mat
  pdul := pdulRnsTwistedPack mat
  pneg p := .ok p

/-- pippenger_rns.py, XYZZ coordinates. -/
def rnsXyzzPacks (mat : Mat) : Packs where
  padd := paddRnsXyzzPack mat
  pdul := pdulRnsXyzzPack mat
  pneg p := .ok p

/-! ## Array operations -/

/-- A read at a `uint32` index on the first axis; JAX clamps an index that is out of bounds. -/
def clampGet {β : Type} (d : β) (a : List β) (i : Nat) : β := a.getD (min i (a.length - 1)) d

/-- `buckets[:, jnp.arange(window_dim), selection_index, :]` (pippenger.py L301-303, L332, L759-761, L1097-1099); the
two index arrays have to have the same length. -/
def selectBuckets (b : Arr4) (sel : List Nat) : Except String Arr3 :=
  if (b.getD 0 []).length = sel.length then .ok (b.map fun a => List.zipWith (clampGet []) a sel)
  else .error "ValueError"

/-- `buckets.at[:, jnp.arange(window_dim), selection_index, :].set(v)` (L310-312, L338-340, L764-766, L1102-1104); a
write out of bounds is dropped. -/
def setBuckets (b : Arr4) (sel : List Nat) (v : Arr3) : Arr4 :=
  List.zipWith (fun a va => List.zipWith (fun rs x => rs.1.set rs.2 x) (List.zip a sel) va) b v

/-- `jnp.where(cond.reshape(1, batch_dim, 1), x, y)`. -/
def where3 (cond : List Bool) (x y : Arr3) : Arr3 := List.zipWith (whereRows cond) x y

/-- `jnp.all(x == y, axis=(0, 2))`. -/
def equalRows (x y : Arr3) : List Bool :=
  (List.range (x.getD 0 []).length).map fun i =>
    (List.zipWith (fun a b => decide (a.getD i [] = b.getD i [])) x y).all id

/-- `jax.lax.scan(f, init, xs, length=n)` for a body without per-step outputs. -/
def scan {σ β : Type} (n : Nat) (f : σ → β → Except String σ) (init : σ) (xs : List β) : Except String σ :=
  if xs.length = n then xs.foldlM f init else .error "ValueError"

/-- `jax.lax.fori_loop(0, n, body, init)`. -/
def foriLoop {σ : Type} (f : σ → Except String σ) : Nat → σ → Except String σ
  | 0, s => .ok s
  | n + 1, s => do foriLoop f n (← f s)

/-- `jnp.flip(all_buckets.transpose(2, 0, 1, 3), axis=0)` (L363, L390, L786). -/
def flipBuckets (b : Arr4) : Arr4 :=
  (List.range ((b.getD 0 []).getD 0 []).length).reverse.map fun j => b.map fun a => a.map fun row => row.getD j []

/-- `jnp.broadcast_to(blank_point, (coordinate_num, n, chunk_num))` with `blank_point` of shape `(coordinate_num, 1,
chunk_num)`. -/
def bcastBlank (blank : Arr2) (n : Nat) : Arr3 := blank.map fun r => List.replicate n r

/-- `all_buckets` of `__init__` (L516-526; L902-916 with the tiling for `point_parallel`). -/
def initBuckets (blank : Arr2) (wn par bn : Nat) : Arr4 :=
  blank.map fun r => (List.replicate par (List.replicate wn (List.replicate bn r))).flatten

/-- `all_points.reshape((-1, point_parallel, coordinate_dim, precision_dim)).transpose(0, 2, 1, 3)` (L968-970,
L1226-1228). -/
def groupPoints (par : Nat) (pts : Arr3) : Except String Arr4 :=
  if par ≠ 0 ∧ pts.length % par = 0 then
    .ok ((List.range (pts.length / par)).map fun s => swap01 (reshapeRow pts par s))
  else .error "ValueError"

/-- `selection.reshape((-1, n))` (L971-973, L1229-1234). -/
def groupRows {β : Type} (n : Nat) (sel : List (List β)) : Except String (List (List β)) :=
  if n ≠ 0 ∧ sel.flatten.length % n = 0 then
    .ok ((List.range (sel.flatten.length / n)).map fun s => reshapeRow sel.flatten n s)
  else .error "ValueError"

/-- `jnp.array(pylist).astype(jnp.uint32)` and `_, window_dim = array.shape` (L962-965, L1219-1223): the integers have to
fit into the default type `int32`, and an empty list gives a one-dimensional array. -/
def indexArray (l : List (List Int)) : Except String (List (List Nat)) :=
  if l.all (fun r => r.all fun v => decide (-2 ^ 31 ≤ v ∧ v < 2 ^ 31)) then
    if l = [] then .error "ValueError" else .ok (l.map fun r => r.map toU32)
  else .error "OverflowError"

/-! ## Twisted curve -/

/-- `padd_with_pdul_check` (L726-735; pippenger_rns.py L722-730). -/
def paddCheckA (P : Packs) (p q : Arr3) : Except String Arr3 := do
  let n ← P.padd p q
  let d ← P.pdul p
  pure (where3 (equalRows p q) d n)

/-- `jax.lax.broadcast_in_dim(point, (coordinate, parallel, single_window, chunk), (0, 1, 3))` followed by the reshape to
`(coordinate, batch_window, chunk)` (L753-758, L1091-1096). -/
def bcastPoint (sw : Nat) (p : Arr3) : Arr3 := p.map fun a => (a.map fun r => List.replicate sw r).flatten

/-- `bucket_accumulation_index_scan_parallel_algorithm_twisted` (L737-776; pippenger_rns.py L733-772). -/
def baTwistedA (P : Packs) (n : Nat) (buckets : Arr4) (points : Arr4) (sel : List (List Nat)) : Except String Arr4 :=
  let bw := (buckets.getD 0 []).length
  let par := ((points.getD 0 []).getD 0 []).length
  let sw := bw / par
  if par * sw = bw ∧ points.length = sel.length then
    scan n (fun b ps => do
      let pt := bcastPoint sw ps.1
      let s ← selectBuckets b ps.2
      let u ← P.padd s pt
      pure (setBuckets b ps.2 u)) buckets (points.zip sel)
  else .error "ValueError"

/-- `bucket_reduction_scan_algorithm_twisted` (L779-801; pippenger_rns.py L775-797). -/
def brTwistedA (P : Packs) (n : Nat) (buckets : Arr4) (temp window : Arr3) : Except String Arr3 := do
  let r ← scan n (fun tw b => do
    let t ← P.padd tw.1 b
    let w ← paddCheckA P tw.2 t
    pure (t, w)) (temp, window) ((flipBuckets buckets).take n)
  pure r.2

/-- `batch_window_summation_algorithm_twisted` (L804-823; pippenger_rns.py L800-819). -/
def batchSumA (P : Packs) (par : Nat) (batch all : Arr3) : Except String Arr3 :=
  let n := (all.getD 0 []).length
  if par ≠ 0 ∧ n % par = 0 then
    scan par P.padd batch ((List.range par).map fun j => all.map fun a => reshapeRow a (n / par) j)
  else .error "ValueError"

/-- `window_merge_scan_algorithm(_twisted)` (L445-472, L826-855; pippenger_rns.py L443-470, L822-851). -/
def windowMergeA (P : Packs) (k : Nat) (ws : Arr3) : Except String Arr2 := do
  let n := (ws.getD 0 []).length
  let t := swap01 ws
  let r ← scan (n - 1) (fun r w => do
    let r ← foriLoop P.pdul k r
    P.padd r (w.map fun x => [x])) ((t.getD (n - 1) []).map fun x => [x]) (t.take (n - 1)).reverse
  pure (r.map fun a => a.flatten)

/-- `MSMPippengerTwisted(k, par)`: `__init__`, `initialize`, `bucket_accumulation`, `bucket_reduction`,
`batch_window_summation`, `window_merge` (L886-1060) with the functions compiled as in msm_test.py L229-311.  `conv` is
`int_list_to_array` with base 16 and 25 chunks, or `int_list_to_array_rns` in pippenger_rns.py. -/
def msmTwistedA (P : Packs) (conv : List Int → Except String Arr2) (k par : Nat) (scalars : List Int)
    (points : List (List Int)) : Except String Arr2 := do
  let wn := windowNum k
  let blank ← conv [0, 1, 1, 0]
  let pts ← points.mapM conv
  let pts ← stack pts
  let sel ← indexArray (baSelection k scalars)
  let pts ← groupPoints par pts
  let sel ← groupRows (wn * par) sel
  let b ← baTwistedA P (scalars.length / par) (initBuckets blank wn par (2 ^ k - 1)) pts sel
  let w ← brTwistedA P (2 ^ k - 1) b (bcastBlank blank (wn * par)) (bcastBlank blank (wn * par))
  let w ← batchSumA P par (bcastBlank blank wn) w
  windowMergeA P k w

/-! ## Signed buckets -/

/-- `padd_with_sign` (L1066-1072). -/
def paddSignA (P : Packs) (p q : Arr3) (sign : List Int) : Except String Arr3 := do
  let m ← P.pneg q
  P.padd p (where3 (sign.map fun s => decide (s = 1)) m q)

/-- `bucket_accumulation_signed_index_scan_parallel_algorithm_twisted` (L1075-1114). -/
def baSignedA (P : Packs) (n : Nat) (buckets : Arr4) (points : Arr4) (sel : List (List Nat)) (sgn : List (List Int)) :
    Except String Arr4 :=
  let bw := (buckets.getD 0 []).length
  let par := ((points.getD 0 []).getD 0 []).length
  let sw := bw / par
  if par * sw = bw ∧ points.length = sel.length ∧ points.length = sgn.length then
    scan n (fun b ps => do
      let pt := bcastPoint sw ps.1
      let s ← selectBuckets b ps.2.1
      let u ← paddSignA P s pt ps.2.2
      pure (setBuckets b ps.2.1 u)) buckets (points.zip (sel.zip sgn))
  else .error "ValueError"

/-- `MSMPippengerTwistedSigned(k, par)` (L1148-1319). -/
def msmTwistedSignedA (P : Packs) (conv : List Int → Except String Arr2) (k par : Nat) (scalars : List Int)
    (points : List (List Int)) : Except String Arr2 := do
  let wn := windowNum k
  let blank ← conv [0, 1, 1, 0]
  let pts ← points.mapM conv
  let pts ← stack pts
  let ss ← baSelectionSigned k scalars
  let sel ← indexArray (ss.map (·.1))
  let pts ← groupPoints par pts
  let sel ← groupRows (wn * par) sel
  let sgn ← groupRows (wn * par) (ss.map (·.2))
  let b ← baSignedA P (scalars.length / par) (initBuckets blank wn par (2 ^ (k - 1))) pts sel sgn
  let w ← brTwistedA P (2 ^ (k - 1)) b (bcastBlank blank (wn * par)) (bcastBlank blank (wn * par))
  let w ← batchSumA P par (bcastBlank blank wn) w
  windowMergeA P k w

/-! ## XYZZ coordinates -/

/-- `padd_with_zero_alter` (L196-202). -/
def paddAlterA (P : Packs) (p q : Arr3) (pz : List Bool) : Except String Arr3 := do
  let n ← P.padd p q
  pure (where3 pz q n)

/-- `selective_padd_with_zero` (L147-168). -/
def selectivePaddA (P : Packs) (p q : Arr3) (sel z : List Bool) : Except String Arr3 := do
  let n ← P.padd p q
  let s := where3 sel n p
  pure (where3 (List.zipWith (fun a b => a && b) sel z) q s)

/-- `padd_with_zero` (L171-193). -/
def paddZeroA (P : Packs) (p q : Arr3) (pz qz : List Bool) : Except String Arr3 := do
  let n ← P.padd p q
  let r := where3 qz p q
  pure (where3 (List.zipWith (fun a b => a || b) qz pz) r n)

/-- `padd_with_zero_and_pdul_check` (L205-236). -/
def paddZeroCheckA (P : Packs) (p q : Arr3) (pz qz : List Bool) : Except String Arr3 := do
  let n ← P.padd p q
  let d ← P.pdul p
  let r := where3 qz p q
  let r := where3 (List.zipWith (fun a b => a || b) qz pz) r n
  pure (where3 (equalRows p q) d r)

/-- The step shared by `bucket_accumulation_index_algorithm` (L298-312) and its scan version (L327-342). -/
def baXyzzBody (P : Packs) (wd : Nat) (b : Arr4) (p : Arr2) (sel : List Nat) (z : List (List Bool)) :
    Except String Arr4 := do
  let pt := p.map fun r => List.replicate wd r
  let s ← selectBuckets b sel
  let zs := List.zipWith (clampGet true) z sel
  let u ← paddAlterA P s pt zs
  pure (setBuckets b sel u)

/-- `bucket_accumulation_index_scan_algorithm` (L316-350). -/
def baXyzzA (P : Packs) (n : Nat) (buckets : Arr4) (points : Arr3) (sel : List (List Nat))
    (z : List (List (List Bool))) : Except String Arr4 :=
  let wd := (buckets.getD 0 []).length
  if points.length = sel.length ∧ points.length = z.length then
    scan n (fun b ps => baXyzzBody P wd b ps.1 ps.2.1 ps.2.2) buckets (points.zip (sel.zip z))
  else .error "ValueError"

/-- `bucket_accumulation_index_algorithm` (L287-313): the same with a Python loop; static indices are clamped. -/
def baXyzzLoopA (P : Packs) (n : Nat) (buckets : Arr4) (points : Arr3) (sel : List (List Nat))
    (z : List (List (List Bool))) : Except String Arr4 :=
  let wd := (buckets.getD 0 []).length
  (List.range n).foldlM (fun b i => baXyzzBody P wd b (clampGet [] points i) (clampGet [] sel i) (clampGet [] z i)) buckets

/-- `bucket_accumulation_scan_algorithm` (L258-284): all buckets in one axis, with masks. -/
def baMaskA (P : Packs) (n : Nat) (buckets : Arr3) (points : Arr3) (sel z : List (List Bool)) : Except String Arr3 :=
  let bd := (buckets.getD 0 []).length
  if points.length = sel.length ∧ points.length = z.length then
    scan n (fun b ps => selectivePaddA P b (ps.1.map fun r => List.replicate bd r) ps.2.1 ps.2.2) buckets
      (points.zip (sel.zip z))
  else .error "ValueError"

/-- `bucket_accumulation_algorithm` (L239-255). -/
def baMaskLoopA (P : Packs) (n : Nat) (buckets : Arr3) (points : Arr3) (sel z : List (List Bool)) : Except String Arr3 :=
  let bd := (buckets.getD 0 []).length
  (List.range n).foldlM (fun b i =>
    selectivePaddA P b ((clampGet [] points i).map fun r => List.replicate bd r) (clampGet [] sel i) (clampGet [] z i)) buckets

/-- `construct_br_zero_states` (L682-714) with the window axis: lists of rows over the windows. -/
def brZeroA (wn bn : Nat) (z : List (List Bool)) : List (List Bool) × List (List Bool) × List (List Bool) :=
  let b := (List.range bn).reverse.map fun j => z.map fun row => row.getD j true
  let t := b.scanl (List.zipWith fun x y => x && y) (List.replicate wn true)
  let w := (t.drop 1).scanl (List.zipWith fun x y => x && y) (List.replicate wn true)
  (b, t, w)

/-- The step shared by `bucket_reduction_algorithm` (L365-376) and its scan version (L392-407). -/
def brXyzzBody (P : Packs) (tw : Arr3 × Arr3) (b : Arr3) (bz tz tz1 wz : List Bool) : Except String (Arr3 × Arr3) := do
  let t ← paddZeroA P tw.1 b tz bz
  let w ← paddZeroCheckA P tw.2 t wz tz1
  pure (t, w)

/-- `bucket_reduction_scan_algorithm` (L380-422). -/
def brXyzzA (P : Packs) (n : Nat) (buckets : Arr4) (temp window : Arr3) (bz tz wz : List (List Bool)) :
    Except String Arr3 :=
  let xs := (flipBuckets buckets).take (n - 1)
  let bz := bz.take (n - 1)
  let tz1 := tz.drop 1
  let tz := tz.take (n - 1)
  let wz := wz.take (n - 1)
  if bz.length = xs.length ∧ tz.length = xs.length ∧ tz1.length = xs.length ∧ wz.length = xs.length then do
    let r ← scan (n - 1) (fun tw x => brXyzzBody P tw x.1 x.2.1 x.2.2.1 x.2.2.2.1 x.2.2.2.2) (temp, window)
      (xs.zip (bz.zip (tz.zip (tz1.zip wz))))
    pure r.2
  else .error "ValueError"

/-- `bucket_reduction_algorithm` (L353-377). -/
def brXyzzLoopA (P : Packs) (n : Nat) (buckets : Arr4) (temp window : Arr3) (bz tz wz : List (List Bool)) :
    Except String Arr3 := do
  let xs := flipBuckets buckets
  let r ← (List.range (n - 1)).foldlM (fun tw i => brXyzzBody P tw (clampGet [] xs i) (clampGet [] bz i) (clampGet [] tz i)
    (clampGet [] tz (i + 1)) (clampGet [] wz i)) (temp, window)
  pure r.2

/-- `window_merge_algorithm` (L425-442). -/
def windowMergeLoopA (P : Packs) (k : Nat) (ws : Arr3) : Except String Arr2 := do
  let n := (ws.getD 0 []).length
  let r ← (List.range (n - 1)).reverse.foldlM (fun r w => do
    let r ← foriLoop P.pdul k r
    P.padd r (ws.map fun a => [clampGet [] a w])) (ws.map fun a => [clampGet [] a (n - 1)])
  pure (r.map fun a => a.flatten)

/-- `selection_index_list` and `zero_states_list` as arrays; `jnp.array(..., dtype=jnp.uint32)` (L569-580). -/
def indexArrayU (l : List (List Nat)) : Except String (List (List Nat)) :=
  if l.all (fun r => r.all fun v => decide (v < 2 ^ 32)) then .ok l else .error "OverflowError"

/-- `MSMPippenger(k)`: `__init__`, `initialize`, `bucket_accumulation`, `bucket_reduction`, `window_merge` (L505-714) with
the functions compiled as in msm_test.py L112-180.  `points` are lists `[x, y]` of affine coordinates. -/
def msmXyzzA (P : Packs) (conv : List Int → Except String Arr2) (k : Nat) (scalars : List Int)
    (points : List (List Int)) : Except String Arr2 := do
  let wn := windowNum k
  let blank ← conv [0, 0, 0, 0]
  let pts ← points.mapM fun c => conv (c ++ [1, 1])
  let pts ← stack pts
  let z := zeroStates k scalars
  let sel ← indexArrayU (xyzzSelection k scalars)
  let fz := brZeroA wn (2 ^ k) (z.getD (z.length - 1) [])
  let b ← baXyzzA P scalars.length (initBuckets blank wn 1 (2 ^ k)) pts sel (z.take scalars.length)
  let w ← brXyzzA P (2 ^ k) b (bcastBlank blank wn) (bcastBlank blank wn) (fz.1.take (2 ^ k)) (fz.2.1.take (2 ^ k))
    (fz.2.2.take (2 ^ k))
  windowMergeA P k w

/-! ## From integers to integers -/

/-- `MSMPippengerTwisted` with the conversion of the result (`util.jax_point_pack_to_int_point`, util.py L198-204). -/
def msmTwistedIntsA (k par : Nat) (scalars : List Int) (points : List (List Int)) : Except String (List Nat) := do
  let r ← msmTwistedA lazyTwistedPacks (intListToArray 16 25) k par scalars points
  pure (arrayToIntList 16 r)

/-- `MSMPippengerTwistedSigned`, likewise. -/
def msmTwistedSignedIntsA (k par : Nat) (scalars : List Int) (points : List (List Int)) : Except String (List Nat) := do
  let r ← msmTwistedSignedA lazyTwistedPacks (intListToArray 16 25) k par scalars points
  pure (arrayToIntList 16 r)

/-- `MSMPippenger`, likewise. -/
def msmXyzzIntsA (k : Nat) (scalars : List Int) (points : List (List Int)) : Except String (List Nat) := do
  let r ← msmXyzzA lazyXyzzPacks (intListToArray 16 25) k scalars points
  pure (arrayToIntList 16 r)

/-- `MSMPippengerTwisted` of pippenger_rns.py (L882-1057) with `util.jax_rns_point_pack_to_int_point` (util.py
L242-248). -/
def msmTwistedRnsA (mat : Mat) (k par : Nat) (scalars : List Int) (points : List (List Int)) : Except String (List Int) := do
  let r ← msmTwistedA (rnsTwistedPacks mat) (fun l => .ok (intListToArrayRns l)) k par scalars points
  arrayRnsToIntList r

/-- `MSMPippenger` of pippenger_rns.py (L503-710). -/
def msmXyzzRnsA (mat : Mat) (k : Nat) (scalars : List Int) (points : List (List Int)) : Except String (List Int) := do
  let r ← msmXyzzA (rnsXyzzPacks mat) (fun l => .ok (intListToArrayRns l)) k scalars points
  arrayRnsToIntList r

end Verif.PippengerArr
