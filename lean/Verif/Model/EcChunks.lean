import Mathlib.Data.List.Basic
import Mathlib.Data.Int.Basic
import Mathlib.Tactic.Ring
import Mathlib.Tactic.Linarith

/-!
# Chunked big integers (jaxite_ec/util.py, jaxite_ec/finite_field.py)

An array of unsigned chunks is a list of naturals, least significant chunk first.  The width of
each lane is made explicit by the reductions modulo a power of two.  The batch axis is modelled only
for the while loop, whose test looks at the whole batch (`carryLoopBatch`); every other operation
acts on each row separately.  Shapes are static in the code: a mismatch is refused when the function is
traced, and the theorems carry the shape as a hypothesis.
-/

namespace Verif.EcChunks

inductive Err where
  | assertion
  | unsupported
  deriving DecidableEq, Repr

/-! ## Conversion -/

/-- The `while python_int > 0` loop shared by `int_to_array` (jaxite_ec/util.py L158-161),
`int_to_precomputed_array` (L333-335) and algorithm/util.py `int_to_array` (L37-39).  With `base = 0`
the Python loop never ends; the model stops (`base` is 8, 16, 32 or 64 in every call). -/
def elements (base x : Nat) : List Nat :=
  if h : 0 < x ∧ 0 < base then (x &&& ((1 <<< base) - 1)) :: elements base (x >>> base) else []
termination_by x
decreasing_by
  rw [Nat.shiftRight_eq_div_pow]
  exact Nat.div_lt_self h.1 (Nat.one_lt_two_pow (by omega))

/-- `int_to_array` (jaxite_ec/util.py L152-166), `int_to_precomputed_array` (L326-342) and
algorithm/util.py `int_to_array` (L20-48) on a non-negative integer; `none` is `array_size=None`.  The cast to
the element type is exact because each element is below `2^base` and the type has `base` bits (the
algorithm version refuses a `base` without such a type, see `algIntToArray`). -/
def intToArray (base : Nat) (size : Option Nat) (x : Nat) : Except Err (List Nat) :=
  let e := elements base x
  match size with
  | none => .ok e
  | some n => if e.length ≤ n then .ok (e.take n ++ List.replicate (n - e.length) 0) else .error .assertion

/-- algorithm/util.py `int_to_array` (L20-48) with `bits_to_numpy_dtype` (L6-16). -/
def algIntToArray (base : Nat) (size : Option Nat) (x : Nat) : Except Err (List Nat) :=
  if base = 8 ∨ base = 16 ∨ base = 32 ∨ base = 64 then intToArray base size x else .error .unsupported

/-- `array_to_int` (jaxite_ec/util.py L142-149, algorithm/util.py L51-61): `result |= elem << (i * base)`. -/
def arrayToIntFrom (base : Nat) : Nat → Nat → List Nat → Nat
  | _, acc, [] => acc
  | i, acc, c :: l => arrayToIntFrom base (i + 1) (acc ||| (c <<< (i * base))) l

@[inherit_doc arrayToIntFrom]
def arrayToInt (base : Nat) (l : List Nat) : Nat := arrayToIntFrom base 0 0 l

/-! ## Carry propagation -/

/-- The flat list from which `carry_propagation` builds its matrix (finite_field.py L124-130). -/
def rollFlat (n : Nat) : List Nat :=
  [0, 1] ++ (List.replicate (n - 2) (List.replicate n 0 ++ [1])).flatten ++ [1] ++ List.replicate (n - 1) 0

/-- `jnp.matmul(high, roll_mat)` (finite_field.py L133-135), exact: one entry of each column is one.  The
reshape needs `n * n` entries, which `rollFlat n` has for `n ≥ 2`. -/
def rollMul (h : List Nat) : List Nat :=
  let n := h.length
  (List.range n).map fun j => ((List.range n).map fun i => h.getD i 0 * (rollFlat n).getD (i * n + j) 0).sum

/-- `carry_propagation` (finite_field.py L103-137) on one row, lanes of `2 * s` bits (uint32 for 16-bit
chunks, uint64 for 32-bit chunks); the carries are cast to uint16. -/
def carryStep (s : Nat) (l : List Nat) : List Nat :=
  let low := l.map fun v => v &&& (2 ^ s - 1)
  let high := l.map fun v => (v >>> s) % 2 ^ 16
  List.zipWith (fun x y => (x + y) % 2 ^ (2 * s)) low ((rollMul high).map (· % 2 ^ 16))

/-- `check_any_chunk_with_carry` (finite_field.py L78-98). -/
def anyCarry (s : Nat) (l : List Nat) : Bool := l.any fun v => v >>> s != 0

/-- `carry_add` (finite_field.py L45-75): a fixed number of rounds, carries rolled by `jnp.roll`. -/
def roll (h : List Nat) : List Nat :=
  match h.getLast? with
  | none => []
  | some x => x :: h.dropLast

@[inherit_doc roll]
def carryAdd (s : Nat) : Nat → List Nat → List Nat
  | 0, l => l
  | k + 1, l =>
    carryAdd s k (List.zipWith (fun x y => (x + y) % 2 ^ (2 * s)) (l.map fun v => v &&& (2 ^ s - 1))
      (roll (l.map fun v => v >>> s)))

end Verif.EcChunks
