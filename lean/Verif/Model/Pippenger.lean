import Verif.Model.EcCurve
import Verif.Model.EcRns

/-!
# jaxite_ec/pippenger.py and jaxite_ec/pippenger_rns.py

The two files differ only in the point arithmetic and in the conversion of the coordinates, so the algorithms are
modelled once, over a record `Ops` of point operations on a type `α` of packed points (the coordinate and precision axes
of the arrays).  All point operations act independently on every element of the batch axis, so arrays of points are
lists; `jax.lax.scan` and `fori_loop` are folds.  The `length`/`msm_length`/`bucket_num_in_window` arguments, which have
to agree with the shapes, are taken from the shapes.
-/

namespace Verif.Pippenger

/-- The point arithmetic.  `selEq p q a b` is `jnp.where(jnp.all(p == q), a, b)`. -/
structure Ops (α : Type) where
  /-- `blank_point` -/
  blank : α
  /-- `padd_*_pack` -/
  padd : α → α → α
  /-- `pdul_*_pack` -/
  pdul : α → α
  /-- `pneg_*_pack` -/
  pneg : α → α
  /-- selection by equality of arrays -/
  selEq : α → α → α → α → α

variable {α : Type}

/-- `int(math.ceil(254 / self.slice_length))` (pippenger.py L509, L892, L1153). -/
def windowNum (k : Nat) : Nat := (254 + k - 1) / k

/-- `(scalar >> (w * self.slice_length)) & self.slice_mask` (L672, L1055-1057, L1306); Python integers are two's complement
of unlimited width. -/
def slice (k : Nat) (scalar : Int) (w : Nat) : Int := scalar / 2 ^ (w * k) % 2 ^ k

/-- `.astype(jnp.uint32)` (L962-964, L1219-1221). -/
def toU32 (i : Int) : Nat := (i % 2 ^ 32).toNat

/-- A read at a `uint32` index; JAX clamps an index that is out of bounds. -/
def gather (d : α) (row : List α) (s : Nat) : α := row.getD (min s (row.length - 1)) d

/-- `padd_with_pdul_check` (L726-735). -/
def paddCheck (o : Ops α) (p q : α) : α := o.selEq p q (o.pdul p) (o.padd p q)

/-! ## MSMPippengerTwisted -/

/-- `construct_ba_selection` (L1049-1060). -/
def baSelection (k : Nat) (scalars : List Int) : List (List Int) :=
  scalars.map fun c => (List.range (windowNum k)).map fun w => slice k c w - 1

/-- One step of `bucket_accumulation_index_scan_parallel_algorithm_twisted` (L751-768): `pts` are the `par` points of
the step, broadcast to all windows; a write out of bounds is dropped. -/
def baStep (o : Ops α) (wn : Nat) (buckets : List (List α)) (pts : List α) (sel : List Nat) : List (List α) :=
  (List.range buckets.length).map fun i =>
    let row := buckets.getD i []
    let s := sel.getD i 0
    row.set s (o.padd (gather o.blank row s) (pts.getD (i / wn) o.blank))

/-- Row `i` of `l.reshape((-1, n))`. -/
def reshapeRow {β : Type} (l : List β) (n i : Nat) : List β := (l.drop (i * n)).take n

/-- `bucket_accumulation_index_scan_parallel_algorithm_twisted` (L737-776) on the arrays that `initialize` builds by
reshaping (L968-973); `S` is the number of steps. -/
def bucketAccumulation (o : Ops α) (wn par S : Nat) (buckets : List (List α)) (points : List α) (sel : List (List Nat)) :
    List (List α) :=
  (List.range S).foldl (fun b s => baStep o wn b (reshapeRow points par s) (reshapeRow sel.flatten (wn * par) s)) buckets

/-- One window of `bucket_reduction_scan_algorithm_twisted` (L779-801). -/
def bucketReduce (o : Ops α) (row : List α) : α :=
  (row.reverse.foldl (fun tw b =>
    let t := o.padd tw.1 b
    (t, paddCheck o tw.2 t)) (o.blank, o.blank)).2

/-- `batch_window_summation_algorithm_twisted` (L804-823). -/
def batchSum (o : Ops α) (wn par : Nat) (sums : List α) : List α :=
  (List.range par).foldl (fun acc j => List.zipWith o.padd acc (reshapeRow sums wn j)) (List.replicate wn o.blank)

/-- `window_merge_scan_algorithm_twisted` (L826-855). -/
def windowMerge (o : Ops α) (k : Nat) (sums : List α) : α :=
  (sums.take (sums.length - 1)).reverse.foldl (fun r s => o.padd (o.pdul^[k] r) s) (sums.getD (sums.length - 1) o.blank)

/-- The reshapes of `initialize` (L953-973): `jnp.array([])` has no coordinate axis, and the number of points has to be
a multiple of `point_parallel`; the scan needs as many scalars as points. -/
def shapesOk (par n m : Nat) : Bool := n != 0 && n % par == 0 && n == m

/-- `MSMPippengerTwisted(k, par)`: `initialize`, `bucket_accumulation`, `bucket_reduction`, `batch_window_summation`,
`window_merge` (L886-1060). -/
def msmTwisted (o : Ops α) (k par : Nat) (scalars : List Int) (points : List α) : Except String α :=
  if shapesOk par points.length scalars.length then
    let wn := windowNum k
    let sel := (baSelection k scalars).map fun r => r.map toU32
    let buckets := List.replicate (wn * par) (List.replicate (2 ^ k - 1) o.blank)
    let buckets := bucketAccumulation o wn par (points.length / par) buckets points sel
    .ok (windowMerge o k (batchSum o wn par (buckets.map (bucketReduce o))))
  else .error "ValueError"

/-! ## MSMPippengerTwistedSigned -/

/-- The loop of `construct_ba_selection_with_sign` (L1305-1315) from window `w` on: indices, signs and the carry. -/
def signedLoop (k : Nat) (scalar : Int) : Nat → Nat → Int → List Int × List Int × Int
  | 0, _, carry => ([], [], carry)
  | n + 1, w, carry =>
    let si := slice k scalar w + carry
    let (ni, c) := if si ≥ 2 ^ (k - 1) then (|si - 2 ^ k|, 1) else (si, 0)
    let (is, ss, c') := signedLoop k scalar n (w + 1) c
    ((ni - 1) :: is, c :: ss, c')

/-- One scalar of `construct_ba_selection_with_sign` (L1289-1319), with its assertion. -/
def signedOne (k : Nat) (scalar : Int) : Except String (List Int × List Int) :=
  let r := signedLoop k scalar (windowNum k) 0 0
  if r.2.2 = 0 then .ok (r.1, r.2.1) else .error "AssertionError"

/-- `construct_ba_selection_with_sign`. -/
def baSelectionSigned (k : Nat) (scalars : List Int) : Except String (List (List Int × List Int)) :=
  scalars.mapM (signedOne k)

/-- `padd_with_sign` (L1066-1072). -/
def paddSign (o : Ops α) (p q : α) (sign : Int) : α := o.padd p (if sign = 1 then o.pneg q else q)

/-- One step of `bucket_accumulation_signed_index_scan_parallel_algorithm_twisted` (L1089-1106). -/
def baStepSigned (o : Ops α) (wn : Nat) (buckets : List (List α)) (pts : List α) (sel : List Nat) (sgn : List Int) :
    List (List α) :=
  (List.range buckets.length).map fun i =>
    let row := buckets.getD i []
    let s := sel.getD i 0
    row.set s (paddSign o (gather o.blank row s) (pts.getD (i / wn) o.blank) (sgn.getD i 0))

/-- `bucket_accumulation_signed_index_scan_parallel_algorithm_twisted` (L1075-1114). -/
def bucketAccumulationSigned (o : Ops α) (wn par S : Nat) (buckets : List (List α)) (points : List α)
    (sel : List (List Nat)) (sgn : List (List Int)) : List (List α) :=
  (List.range S).foldl (fun b s => baStepSigned o wn b (reshapeRow points par s)
    (reshapeRow sel.flatten (wn * par) s) (reshapeRow sgn.flatten (wn * par) s)) buckets

/-- `MSMPippengerTwistedSigned(k, par)` (L1148-1319). -/
def msmTwistedSigned (o : Ops α) (k par : Nat) (scalars : List Int) (points : List α) : Except String α := do
  let ss ← baSelectionSigned k scalars
  if shapesOk par points.length scalars.length then
    let wn := windowNum k
    let sel := ss.map fun r => r.1.map toU32
    let buckets := List.replicate (wn * par) (List.replicate (2 ^ (k - 1)) o.blank)
    let buckets := bucketAccumulationSigned o wn par (points.length / par) buckets points sel (ss.map (·.2))
    .ok (windowMerge o k (batchSum o wn par (buckets.map (bucketReduce o))))
  else .error "ValueError"

/-! ## MSMPippenger (XYZZ coordinates with zero flags) -/

/-- `construct_ba_zero_states_and_selection` (L649-680): the list of zero states before each scalar and after the last,
and the selected buckets. -/
def zeroStep (k : Nat) (z : List (List Bool)) (c : Int) : List (List Bool) :=
  (List.range (windowNum k)).map fun w => (z.getD w []).set (slice k c w).toNat false

@[inherit_doc zeroStep]
def zeroStates (k : Nat) (scalars : List Int) : List (List (List Bool)) :=
  scalars.scanl (zeroStep k) (List.replicate (windowNum k) (List.replicate (2 ^ k) true))

/-- `selection_index_list` (L675, L679). -/
def xyzzSelection (k : Nat) (scalars : List Int) : List (List Nat) :=
  scalars.map fun c => (List.range (windowNum k)).map fun w => (slice k c w).toNat

/-- `selection_list` (L666-669, L674): one-hot. -/
def xyzzMask (k : Nat) (scalars : List Int) : List (List (List Bool)) :=
  scalars.map fun c => (List.range (windowNum k)).map fun w =>
    (List.replicate (2 ^ k) false).set (slice k c w).toNat true

/-- `construct_br_zero_states` (L682-714) for one window: `buckets` are its final zero states.  Returns the flipped
bucket states, the states of the running sum and of the window sum before each step (and after the last). -/
def brZero (buckets : List Bool) : List Bool × List Bool × List Bool :=
  let b := buckets.reverse
  let t := b.scanl (fun x y => x && y) true
  (b, t, (t.drop 1).scanl (fun x y => x && y) true)

/-- `padd_with_zero_alter` (L196-202). -/
def paddAlter (o : Ops α) (p q : α) (pz : Bool) : α := if pz then q else o.padd p q

/-- `selective_padd_with_zero` (L147-168). -/
def selectivePadd (o : Ops α) (p q : α) (sel z : Bool) : α :=
  if sel && z then q else if sel then o.padd p q else p

/-- `padd_with_zero` (L171-193). -/
def paddZero (o : Ops α) (p q : α) (pz qz : Bool) : α :=
  if qz || pz then (if qz then p else q) else o.padd p q

/-- `padd_with_zero_and_pdul_check` (L205-236). -/
def paddZeroCheck (o : Ops α) (p q : α) (pz qz : Bool) : α :=
  o.selEq p q (o.pdul p) (if qz || pz then (if qz then p else q) else o.padd p q)

/-- One step of `bucket_accumulation_index_(scan_)algorithm` (L298-312, L327-342): one bucket per window. -/
def xStep (o : Ops α) (buckets : List (List α)) (p : α) (sel : List Nat) (z : List (List Bool)) : List (List α) :=
  (List.range buckets.length).map fun w =>
    let row := buckets.getD w []
    let s := sel.getD w 0
    row.set s (paddAlter o (gather o.blank row s) p (gather true (z.getD w []) s))

/-- `bucket_accumulation_index_algorithm`, `bucket_accumulation_index_scan_algorithm` (L287-350). -/
def xAccumulate (o : Ops α) (buckets : List (List α)) (points : List α) (sel : List (List Nat))
    (z : List (List (List Bool))) : List (List α) :=
  (List.range points.length).foldl (fun b i => xStep o b (points.getD i o.blank) (sel.getD i []) (z.getD i [])) buckets

/-- One step of `bucket_accumulation_(scan_)algorithm` (L249-254, L268-276): all buckets, with a mask. -/
def xStepMask (o : Ops α) (buckets : List (List α)) (p : α) (sel z : List (List Bool)) : List (List α) :=
  List.zipWith (fun row sz => List.zipWith (fun b s => selectivePadd o b p s.1 s.2) row sz)
    buckets (List.zipWith List.zip sel z)

/-- `bucket_accumulation_algorithm`, `bucket_accumulation_scan_algorithm` (L239-284). -/
def xAccumulateMask (o : Ops α) (buckets : List (List α)) (points : List α) (sel z : List (List (List Bool))) :
    List (List α) :=
  (List.range points.length).foldl (fun b i => xStepMask o b (points.getD i o.blank) (sel.getD i []) (z.getD i []))
    buckets

/-- `bucket_reduction_(scan_)algorithm` (L353-422) for one window: all buckets but bucket 0, from the top; `z` are the
results of `brZero`. -/
def xReduce (o : Ops α) (row : List α) (z : List Bool × List Bool × List Bool) : α :=
  ((List.range (row.length - 1)).foldl (fun tw i =>
    let t := paddZero o tw.1 (row.reverse.getD i o.blank) (z.2.1.getD i true) (z.1.getD i true)
    (t, paddZeroCheck o tw.2 t (z.2.2.getD i true) (z.2.1.getD (i + 1) true))) (o.blank, o.blank)).2

/-- `MSMPippenger(k)`: `initialize`, `bucket_accumulation`, `bucket_reduction`, `window_merge` (L505-714).
`window_merge_(scan_)algorithm` (L425-472) is `windowMerge`. -/
def msmXyzz (o : Ops α) (k : Nat) (scalars : List Int) (points : List α) : Except String α :=
  if shapesOk 1 points.length scalars.length then
    let z := zeroStates k scalars
    let buckets := List.replicate (windowNum k) (List.replicate (2 ^ k) o.blank)
    let buckets := xAccumulate o buckets points (xyzzSelection k scalars) (z.take points.length)
    let zl := z.getD (z.length - 1) []
    .ok (windowMerge o k ((List.range buckets.length).map fun w =>
      xReduce o (buckets.getD w []) (brZero (zl.getD w []))))
  else .error "ValueError"

/-! ## The point arithmetic of the two files -/

open Verif.EcCurve Verif.EcRns

/-- Selection by equality. -/
def selDec {β : Type} [DecidableEq β] (p q a b : β) : β := if p = q then a else b

/-- The four 25-chunk arrays of small constants (`util.int_list_to_array`, L512-514, L898-900). -/
def chunkConst (c : Nat) : List Nat := c :: List.replicate 24 0

/-- pippenger.py, twisted curve. -/
def lazyTwisted : Ops (Quad (List Nat)) where
  blank := (chunkConst 0, chunkConst 1, chunkConst 1, chunkConst 0)
  padd := paddLazyTwisted
  pdul := pdulLazyTwisted
  pneg := pnegLazyTwisted
  selEq := selDec

/-- pippenger.py, XYZZ coordinates. -/
def lazyXyzz : Ops (Quad (List Nat)) where
  blank := (chunkConst 0, chunkConst 0, chunkConst 0, chunkConst 0)
  padd := paddLazyXyzz
  pdul := pdulLazyXyzz
  pneg := id
  selEq := selDec

/-- `util.int_list_to_array(coordinates, util.BASE, util.U16_EXT_CHUNK_NUM)` in `initialize` (L948-951, L1208-1211; L560-565
appends the coordinates `1, 1`), for non-negative integers. -/
def packPoint (q : Quad Nat) : Except String (Quad (List Nat)) :=
  match EcChunks.intToArray 16 (some 25) q.1, EcChunks.intToArray 16 (some 25) q.2.1,
      EcChunks.intToArray 16 (some 25) q.2.2.1, EcChunks.intToArray 16 (some 25) q.2.2.2 with
  | .ok x, .ok y, .ok z, .ok t => .ok (x, y, z, t)
  | _, _, _, _ => .error "AssertionError"

/-- `util.jax_point_pack_to_int_point` (util.py L198-204), with which the callers read the result. -/
def unpackPoint (p : Quad (List Nat)) : Quad Nat :=
  (EcChunks.arrayToInt 16 p.1, EcChunks.arrayToInt 16 p.2.1, EcChunks.arrayToInt 16 p.2.2.1, EcChunks.arrayToInt 16 p.2.2.2)

/-- `MSMPippengerTwisted` from integer coordinates to integer coordinates. -/
def msmTwistedInts (k par : Nat) (scalars : List Int) (points : List (Quad Nat)) : Except String (Quad Nat) := do
  let pts ← points.mapM packPoint
  let r ← msmTwisted lazyTwisted k par scalars pts
  .ok (unpackPoint r)

/-- `MSMPippengerTwistedSigned` from integer coordinates to integer coordinates. -/
def msmTwistedSignedInts (k par : Nat) (scalars : List Int) (points : List (Quad Nat)) : Except String (Quad Nat) := do
  let pts ← points.mapM packPoint
  let r ← msmTwistedSigned lazyTwisted k par scalars pts
  .ok (unpackPoint r)

/-- `MSMPippenger` from affine integer coordinates to integer coordinates. -/
def msmXyzzInts (k : Nat) (scalars : List Int) (points : List (Nat × Nat)) : Except String (Quad Nat) := do
  let pts ← points.mapM fun q => packPoint (q.1, q.2, 1, 1)
  let r ← msmXyzz lazyXyzz k scalars pts
  .ok (unpackPoint r)

/-- Residues of a small constant (`int_list_to_array_rns`, pippenger_rns.py L894-898). -/
def rnsSmall (c : Nat) : List Nat := MODULI.map fun m => c % m

/-- pippenger_rns.py, twisted curve; there is no signed variant. -/
def rnsTwisted (mat : List (List Nat) × List Nat) : Ops Pt where
  blank := (rnsSmall 0, rnsSmall 1, rnsSmall 1, rnsSmall 0)
  padd := paddTwisted mat
  pdul := pdulTwisted mat
  pneg := id
  selEq := selDec

/-- pippenger_rns.py, XYZZ coordinates. -/
def rnsXyzz (mat : List (List Nat) × List Nat) : Ops Pt where
  blank := (rnsSmall 0, rnsSmall 0, rnsSmall 0, rnsSmall 0)
  padd := paddXyzz mat
  pdul := pdulXyzz mat
  pneg := id
  selEq := selDec

end Verif.Pippenger
