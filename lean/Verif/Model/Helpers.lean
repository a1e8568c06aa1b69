/-!
# Model of `jaxite/jaxite_cggi/jax_helpers.py` (`batch_vmap`) and of the helpers of `random_source.py`

Arrays along the mapped axis are lists (the axis is moved to the front, jax_helpers.py L44; `moveaxis` at
other axes is a transposition that is undone by the caller's `out_axes` and is not modelled). Arguments are
single arrays: the pytree plumbing of `_tree_map_multi_output` (L14-20) is not modelled.
-/

namespace Verif.Helpers

/-- One argument of the mapped function: an array with a mapped axis or, for `in_axis = None`, a value
passed to every call. -/
inductive Arg (α : Type)
  | batched (rows : List α)
  | unbatched (v : α)

/-- `jax.vmap(g)(*args)`: needs at least one mapped argument, and equal sizes; applies `g` to the tuples of
rows. -/
def vmap {α β : Type} (g : List α → β) (args : List (List α)) : Except String (List β) :=
  match args with
  | [] => .error "ValueError"
  | a :: rest =>
    if rest.all (fun r => r.length == a.length) then
      .ok ((List.range a.length).map (fun i => g ((a :: rest).filterMap (fun r => r[i]?))))
    else .error "ValueError"

/-- `_lax_map`, jax_helpers.py L23-27: `lax.scan` over the leading axis; the loop body may fail (at trace
time). -/
def laxMap {α β : Type} (g : List α → Except String β) (xs : List (List α)) : Except String (List β) :=
  match xs with
  | [] => .error "ValueError"
  | a :: rest =>
    if rest.all (fun r => r.length == a.length) then
      (List.range a.length).mapM (fun i => g ((a :: rest).filterMap (fun r => r[i]?)))
    else .error "ValueError"

/-- `preprocess`, jax_helpers.py L42-48: the first `batch_count * batch_size` rows as a list of batches, and
the remaining rows. -/
def preprocess {α : Type} (batchSize : Nat) (x : List α) : List (List α) × List α :=
  let batchCount := x.length / batchSize
  let loopElements := batchCount * batchSize
  ((List.range batchCount).map (fun b => ((x.take loopElements).drop (b * batchSize)).take batchSize),
   x.drop loopElements)

/-- `postprocess`, jax_helpers.py L50-54. -/
def postprocess {β : Type} (xLoop : List (List β)) (xTail : List β) : List β := xLoop.flatten ++ xTail

/-- Python's `list.insert`. -/
def pyInsert {α : Type} (l : List α) (i : Nat) (a : α) : List α := l.take i ++ a :: l.drop i

/-- The positions and values of the unmapped arguments (`unbatched`), L66-67. -/
def unbatchedArgs {α : Type} : Nat → List (Arg α) → List (Nat × α)
  | _, [] => []
  | i, .unbatched v :: t => (i, v) :: unbatchedArgs (i + 1) t
  | i, .batched _ :: t => unbatchedArgs (i + 1) t

/-- The mapped arguments, L68-77. -/
def batchedArgs {α : Type} : List (Arg α) → List (List α)
  | [] => []
  | .unbatched _ :: t => batchedArgs t
  | .batched r :: t => r :: batchedArgs t

/-- `batch_vmap(f, batch_size=batch_size)(*args)`, jax_helpers.py L33-95. -/
def batchVmap {α β : Type} (f : List α → β) (batchSize : Nat) (args : List (Arg α)) :
    Except String (List β) := do
  if batchSize = 0 ∧ (batchedArgs args).length ≠ 0 then .error "ZeroDivisionError"
  let unbatched := unbatchedArgs 0 args
  let pre := (batchedArgs args).map (preprocess batchSize)
  let loopArgs := pre.map Prod.fst
  let tailArgs := pre.map Prod.snd
  -- `f2`, L79-83
  let f2 : List α → β := fun a => f (unbatched.foldl (fun l p => pyInsert l p.1 p.2) a)
  let loopOut ← laxMap (fun a => vmap f2 a) loopArgs
  let tailOut ← vmap f2 tailArgs
  pure (postprocess loopOut tailOut)

/-! ## `random_source.py` -/

/-- An unsigned dtype of the given width, or a signed one. -/
inductive DType
  | unsigned (width : Nat)
  | signed (width : Nat)

/-- `_normalize_value`, random_source.py L15-30. -/
def normalizeValue (value : Int) : DType → Int
  | .unsigned w => value % ((2 ^ w - 1) + 1)
  | .signed _ => value

/-- `[generator() for _ in range(n)]` for a stateful generator. -/
def draw {σ : Type} (gen : σ → Int × σ) : Nat → σ → List Int × σ
  | 0, s => ([], s)
  | n + 1, s =>
    let r := gen s
    let rest := draw gen n r.2
    (r.1 :: rest.1, rest.2)

/-- An array: shape and entries in row-major order. -/
structure Array' where
  shape : List Nat
  data : List Int

/-- `_shape_generator`, random_source.py L33-63. -/
def shapeGenerator {σ : Type} (gen : σ → Int × σ) (shape : List Int) (dtype : DType) (s : σ) :
    Except String (Array' × σ) :=
  if shape.any (fun d => d < 0) then .error "ValueError"
  else
    let numElements := shape.foldl (fun a b => a * b) 1
    let r := draw gen numElements.toNat s
    let flat := r.1.map (fun v => normalizeValue v dtype)
    -- `jnp.reshape(flat, shape)`
    if flat.length = (shape.map Int.toNat).foldl (fun a b => a * b) 1 then
      .ok (⟨shape.map Int.toNat, flat⟩, r.2)
    else .error "TypeError"

/-- Row-major position of a multi-index. -/
def flatIndex : List Nat → List Nat → Nat
  | _ :: ds, i :: is => i * ds.foldl (fun a b => a * b) 1 + flatIndex ds is
  | _, _ => 0

/-- `bin(x)[2:]` as a list of digits, most significant first (`"0"` for zero). -/
def binDigits (x : Nat) : List Int :=
  if x = 0 then [0] else go x []
where
  go (x : Nat) (acc : List Int) : List Int :=
    if h : x = 0 then acc else go (x / 2) (((x % 2 : Nat) : Int) :: acc)
  termination_by x
  decreasing_by omega

/-- `CycleRng`, random_source.py L89-111: the state is the position in the cycle. `uniform_data` is
`bin(13**39**2 // 53)[2:]`, and any number here. -/
def cycleNext (data : List Int) (s : Nat) : Int × Nat := (data.getD (s % data.length) 0, s + 1)

/-- `CycleRng.uniform` (and `sk_uniform`), L98-106. -/
def cycleUniform (data : List Int) (shape : List Int) (dtype : DType) (s : Nat) :
    Except String (Array' × Nat) := shapeGenerator (cycleNext data) shape dtype s

/-- `CycleRng.rounded_normal`, L108-111. -/
def cycleNormal (noise : Int) (shape : List Int) (dtype : DType) : Except String (Array' × Unit) :=
  shapeGenerator (fun _ => (noise, ())) shape dtype ()

end Verif.Helpers
