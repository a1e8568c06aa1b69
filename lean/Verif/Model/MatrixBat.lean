import Mathlib.Algebra.BigOperators.Group.Finset.Basic

/-!
# Model of the general-modulus matrix product of `jaxite/jaxite_cggi/matrix_utils.py` L204-640

Matrices of chunks are represented by their columns. `B = 2^chunkwidth` is the chunk base; the arrays have the type of
twice that width (`dtype_double_length`), so sums are reduced modulo `B^2`. 64-bit types are enabled, as L627 assumes.
-/

namespace Verif.MatrixBat
open Finset

/-- The loop of `chunk_decomposition`, matrix_utils.py L225-227. Every round divides `x` by the base, so `x` rounds
suffice. -/
def chunkLoop (B : Nat) : Nat → Nat → List Nat
  | 0, _ => []
  | fuel + 1, x => if 0 < x then (x % B) :: chunkLoop B fuel (x / B) else []

/-- `chunk_decomposition`, matrix_utils.py L204-230. -/
def chunkDecomposition (x B : Nat) : List Nat := chunkLoop B x x

/-- `x_dense.at[:len(r), c].set(add(r, x_dense[:len(r), c]))` on one column, matrix_utils.py L426-428 and L457-459.
Simplified: when `r` is longer than the column (a modulus above `B^T`), JAX raises a shape error and the model ignores
the excess. -/
def addPrefix (B : Nat) : List Nat → List Nat → List Nat
  | c :: cs, r :: rs => (c + r) % B ^ 2 :: addPrefix B cs rs
  | cs, _ => cs

/-- One round of the carry loop, matrix_utils.py L332-336: `roll` by one along the axis. -/
def carryRound (B : Nat) (b : List Nat) : List Nat :=
  let carry := b.map (· / B)
  List.zipWith (fun x y => (x + y) % B ^ 2) (b.map (· % B)) (carry.getLastD 0 :: carry.dropLast)

/-- The carry loop, matrix_utils.py L332-336. A round with a carry decreases the sum of the entries, so that sum is
enough fuel. -/
def carryLoop (B : Nat) : Nat → List Nat → List Nat
  | 0, b => b
  | fuel + 1, b => if b.all (· ≤ B - 1) then b else carryLoop B fuel (carryRound B b)

/-- `rechunkify_after_chunkwise_add`, matrix_utils.py L233-346. -/
def rechunkify (B : Nat) (a : List Nat) : List Nat :=
  let b := List.zipWith (fun x y => (x + y) % B ^ 2) (a.map (· % B) ++ [0]) (0 :: a.map (· / B))
  let c := carryLoop B b.sum b
  -- the last chunk is split in two
  c.dropLast ++ [c.getLastD 0 % B, c.getLastD 0 / B]

/-- A matrix, by columns. -/
abbrev Cols := Nat → List Nat

/-- The nested loops over the bottom block, matrix_utils.py L418-428 and L447-462 (and L524-534, L554-568): column
`T - 1 - j` is replaced by `g i j` of it. `n` is the number of chunks of `x`. -/
def blockLoop (T n : Nat) (g : Nat → Nat → List Nat → List Nat) (M : Cols) : Cols :=
  (List.range (n - 1)).foldl (fun M i =>
    (List.range (n - 1 - i)).foldl (fun M j => Function.update M (T - 1 - j) (g i j (M (T - 1 - j)))) M) M

/-- The matrix before the block loop, matrix_utils.py L392-399. -/
def initial (T : Nat) (x : List Nat) : Cols := fun j =>
  (List.range (T + T - 1)).map (fun r => if j ≤ r ∧ r < min T (x.length + j) then x.getD (r - j) 0 else 0)

/-- The column update of the first block loop, matrix_utils.py L420-428. -/
def addProjected (B T q : Nat) (x : List Nat) (i j : Nat) (col : List Nat) : List Nat :=
  addPrefix B col (chunkDecomposition (x.getD (i + j + 1) 0 * B ^ (T + i) % q) B)

/-- The column update of the second block loop, matrix_utils.py L449-462. -/
def moveDown (B T q : Nat) (i _j : Nat) (col : List Nat) : List Nat :=
  let data := col.getD (T + i) 0
  if 0 < data then (addPrefix B col (chunkDecomposition (data * B ^ (T + i) % q) B)).set (T + i) 0 else col

/-- Columns `T - 1, ..., 1` are renormalised if they need it, matrix_utils.py L433-441. -/
def rechunkCols (B T : Nat) (M : Cols) : Cols :=
  (List.range (T - 1)).foldl (fun M j =>
    if (M (T - 1 - j)).all (· ≤ B - 1) then M
    else Function.update M (T - 1 - j) ((rechunkify B (M (T - 1 - j))).take (T + T - 1))) M

/-- The condition for leaving the `while` loop, matrix_utils.py L430-432. -/
def finished (B T : Nat) (M : Cols) : Bool :=
  (List.range T).all (fun c => (M c).all (· ≤ B - 1) && ((M c).drop T).all (· = 0))

/-- The `while` loop, matrix_utils.py L430-462. It need not end; `none` is "not within `fuel` rounds". -/
def mainLoop (B T q n : Nat) : Nat → Cols → Option Cols
  | 0, _ => none
  | fuel + 1, M =>
    if finished B T M then some M
    else mainLoop B T q n fuel (blockLoop T n (moveDown B T q) (rechunkCols B T M))

/-- `smul_as_dense_gemv_bat`, matrix_utils.py L349-463. `T` is `total_chunk_num`; the result is row `p`, column `c`,
cast to `uint8` at L463. -/
def denseBat (fuel x T width q : Nat) : Option (Nat → Nat → Nat) :=
  let B := 2 ^ width
  let chunks := chunkDecomposition x B
  let M := blockLoop T chunks.length (addProjected B T q chunks) (initial T chunks)
  (mainLoop B T q chunks.length fuel M).map (fun M p c => (M c).getD p 0 % 2 ^ 8)

/-- The four bytes of a `uint32` and the eight of a `uint64` (`bitcast_convert_type`). -/
def bytes (n x : Nat) : List Nat := (List.range n).map (fun i => x / 256 ^ i % 256)

/-- The column updates of `smul_as_dense_gemv_bat_jax`, matrix_utils.py L526-534 and L556-568, with 8-byte chunk
vectors cut to the height 7. -/
def addProjectedJax (q : Nat) (x : List Nat) (i j : Nat) (col : List Nat) : List Nat :=
  addPrefix 256 col ((bytes 8 (x.getD (i + j + 1) 0 * 256 ^ (4 + i) % 2 ^ 64 % q)).take 7)

def moveDownJax (q : Nat) (i _j : Nat) (col : List Nat) : List Nat :=
  let data := col.getD (4 + i) 0
  if 0 < data then (addPrefix 256 col ((bytes 8 (data * 256 ^ (4 + i) % 2 ^ 64 % q)).take 7)).set (4 + i) 0 else col

/-- The `while` loop of `smul_as_dense_gemv_bat_jax`, matrix_utils.py L536-568. -/
def mainLoopJax (q : Nat) : Nat → Cols → Option Cols
  | 0, _ => none
  | fuel + 1, M =>
    if finished 256 4 M then some M else mainLoopJax q fuel (blockLoop 4 4 (moveDownJax q) (rechunkCols 256 4 M))

/-- `smul_as_dense_gemv_bat_jax`, matrix_utils.py L466-569. The initial matrix, L497-508, contains the bottom block. -/
def denseBatJax (fuel x q : Nat) : Option (Nat → Nat → Nat) :=
  let b := bytes 4 x
  let init : Cols := fun c => (List.range 7).map (fun r => if c ≤ r then b.getD (r - c) 0 else 0)
  (mainLoopJax q fuel (blockLoop 4 4 (addProjectedJax q b) init)).map (fun M p c => (M c).getD p 0 % 2 ^ 8)

/-- `hpmatmul_offline_compile_bat`, matrix_utils.py L572-612, `uint32` entries: one chunk matrix for every entry. -/
def offlineCompile (fuel q : Nat) (a : Nat → Nat → Nat) (i k : Nat) : Option (Nat → Nat → Nat) :=
  denseBat fuel (a i k) 4 8 q

/-- `hpmatmul_bat_adapt`, matrix_utils.py L615-627, for one output entry: products are accumulated in `int32`, converted
to `uint64`, shifted and added. `lhs l p t` is row `p`, column `t` of the chunk matrix number `l`, `y l` the `uint32`
entries of the column of the right operand. -/
def batAdapt (n : Nat) (lhs : Nat → Nat → Nat → Nat) (y : Nat → Nat) : Nat :=
  (∑ p ∈ range 4,
    ((Int.bmod (∑ l ∈ range n, ∑ t ∈ range 4, (lhs l p t : Int) * ((y l / 256 ^ t % 256 : Nat) : Int)) (2 ^ 32)) % 2 ^ 64).toNat
      * 2 ^ (8 * p) % 2 ^ 64) % 2 ^ 64

/-- `hpmatmul_golden`, matrix_utils.py L630-640, for one output entry. -/
def golden (n : Nat) (a b : Nat → Nat) (q : Nat) : Nat := (∑ l ∈ range n, a l * b l) % q

end Verif.MatrixBat
