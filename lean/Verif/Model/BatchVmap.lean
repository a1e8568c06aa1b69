import Mathlib.Data.List.InsertIdx

/-!
# Model of `batch_vmap` on arrays and pytrees, `jaxite/jaxite_cggi/jax_helpers.py` L14-95

`Verif.Model.Helpers` has `batch_vmap` on lists. Here arguments are pytrees of arrays of any rank, and `in_axes` and `out_axes`
take all their forms. An array is its shape and its entries by index (indices outside the shape are not used). A pytree is
its structure (an element of any type with decidable equality: what JAX calls `treedef`) and its leaves.

A function under JAX transformations is traced, so that the structure and the shapes of its results depend only on those of its
arguments; it is given by this shape function, which may raise, and by the entries of its results.
`batch_size` is not negative.
-/

namespace Verif.BatchVmap

/-- An array. -/
structure Arr (α : Type) where
  shape : List Nat
  get : List Nat → α

/-- A pytree with structure and leaves. -/
structure Tree (D A : Type) where
  treedef : D
  leaves : List A

/-- The leaves changed, the structure kept. -/
def Tree.map {D A B : Type} (f : A → B) (t : Tree D A) : Tree D B := ⟨t.treedef, t.leaves.map f⟩

/-- The shapes of the leaves. -/
def shapes {D α : Type} (t : Tree D (Arr α)) : Tree D (List Nat) := t.map Arr.shape

/-- A function that JAX can trace. -/
structure JaxFn (D α : Type) where
  shape : List (Tree D (List Nat)) → Except String (Tree D (List Nat))
  val : List (Tree D (Arr α)) → Nat → List Nat → α

/-- The call of a function: the leaves of the result are numbered. -/
def JaxFn.call {D α : Type} (f : JaxFn D α) (args : List (Tree D (Arr α))) : Except String (Tree D (Arr α)) :=
  (f.shape (args.map shapes)).map (fun S => ⟨S.treedef, S.leaves.zipIdx.map (fun s => ⟨s.1, f.val args s.2⟩)⟩)

/-- Python's index of an axis: negative ones count from the end. -/
def normAxis (rank : Nat) (a : Int) : Option Nat :=
  if -(rank : Int) ≤ a ∧ a < rank then some (if a < 0 then (a + rank).toNat else a.toNat) else none

/-- `jnp.moveaxis(x, a, 0)`. -/
def moveToFront {α : Type} (x : Arr α) (a : Nat) : Arr α :=
  ⟨x.shape.getD a 0 :: x.shape.eraseIdx a, fun l => x.get (l.tail.insertIdx a (l.headD 0))⟩

/-- `jnp.moveaxis(x, 0, o)`. -/
def moveFromFront {α : Type} (x : Arr α) (o : Nat) : Arr α :=
  ⟨x.shape.tail.insertIdx o (x.shape.headD 0), fun l => x.get (l.getD o 0 :: l.eraseIdx o)⟩

/-- `x[:m]`. -/
def takeLead {α : Type} (m : Nat) (x : Arr α) : Arr α := ⟨min m (x.shape.headD 0) :: x.shape.tail, x.get⟩

/-- `x[m:]`. -/
def dropLead {α : Type} (m : Nat) (x : Arr α) : Arr α :=
  ⟨(x.shape.headD 0 - m) :: x.shape.tail, fun l => x.get ((l.headD 0 + m) :: l.tail)⟩

/-- `x.reshape((count, size) + x.shape[1:])` of an array with `count * size` rows. -/
def splitLead {α : Type} (count size : Nat) (x : Arr α) : Arr α :=
  ⟨count :: size :: x.shape.tail, fun l => x.get ((l.headD 0 * size + l.tail.headD 0) :: l.tail.tail)⟩

/-- `x.reshape((shape[0] * shape[1],) + shape[2:])`. -/
def mergeLead {α : Type} (x : Arr α) : Arr α :=
  ⟨(x.shape.headD 0 * x.shape.tail.headD 0) :: x.shape.tail.tail,
   fun l => x.get (l.headD 0 / x.shape.tail.headD 0 :: l.headD 0 % x.shape.tail.headD 0 :: l.tail)⟩

/-- `jnp.concatenate([x, y], axis=0)`. -/
def concatLead {α : Type} (x y : Arr α) : Except String (Arr α) :=
  if x.shape.tail ≠ y.shape.tail then .error "TypeError"
  else .ok ⟨(x.shape.headD 0 + y.shape.headD 0) :: x.shape.tail,
    fun l => if l.headD 0 < x.shape.headD 0 then x.get l else y.get ((l.headD 0 - x.shape.headD 0) :: l.tail)⟩

/-- `preprocess`, jax_helpers.py L42-48. -/
def preprocess {α : Type} (batchSize : Nat) (x : Arr α) (inAxis : Int) : Except String (Arr α × Arr α) :=
  match normAxis x.shape.length inAxis with
  | none => .error "IndexError"
  | some a =>
    if batchSize = 0 then .error "ZeroDivisionError"
    else
      let batchCount := x.shape.getD a 0 / batchSize
      let y := moveToFront x a
      let loopElements := batchCount * batchSize
      .ok (splitLead batchCount batchSize (takeLead loopElements y), dropLead loopElements y)

/-- `postprocess`, jax_helpers.py L50-54. -/
def postprocess {α : Type} (xLoop xTail : Arr α) (outAxis : Int) : Except String (Arr α) := do
  let x ← concatLead (mergeLead xLoop) xTail
  match normAxis x.shape.length outAxis with
  | none => .error "ValueError"
  | some o => pure (moveFromFront x o)

/-- `_tree_map_multi_output(preprocess, arg, in_axis)`, jax_helpers.py L14-20: the structures must be equal; without leaves
there is nothing to unpack (L69, L75). -/
def preprocessTree {D α : Type} [DecidableEq D] (batchSize : Nat) (arg : Tree D (Arr α)) (axes : Tree D Int) :
    Except String (Tree D (Arr α) × Tree D (Arr α)) :=
  if axes.treedef ≠ arg.treedef then .error "ValueError"
  else do
    let out ← (arg.leaves.zip axes.leaves).mapM (fun (p : Arr α × Int) => preprocess batchSize p.1 p.2)
    if out = [] then throw "ValueError"
    pure (⟨arg.treedef, out.map Prod.fst⟩, ⟨arg.treedef, out.map Prod.snd⟩)

/-- The entry of `in_axes` for one argument: `None`, an `int`, or a pytree of `int`. -/
inductive AxArg (D : Type)
  | none
  | int (a : Int)
  | tree (t : Tree D Int)

/-- `in_axes`: an `int` or `None` for all arguments, or a sequence. -/
inductive InAxes (D : Type)
  | all (a : Option Int)
  | seq (l : List (AxArg D))

/-- `in_axes_tuple`, jax_helpers.py L57-60. -/
def InAxes.tuple {D : Type} (ax : InAxes D) (numArgs : Nat) : List (AxArg D) :=
  match ax with
  | .all Option.none => List.replicate numArgs .none
  | .all (some a) => List.replicate numArgs (.int a)
  | .seq l => l

/-- The loop over the arguments, jax_helpers.py L62-77: the unbatched arguments with their positions, the arguments of the loop
and those of the tail. -/
def collect {D α : Type} [DecidableEq D] (batchSize : Nat) : Nat → List (Tree D (Arr α) × AxArg D) →
    Except String (List (Nat × Tree D (Arr α)) × List (Tree D (Arr α)) × List (Tree D (Arr α)))
  | _, [] => .ok ([], [], [])
  | i, (arg, ax) :: rest =>
    match ax with
    | .none => (collect batchSize (i + 1) rest).map (fun r => ((i, arg) :: r.1, r.2.1, r.2.2))
    | .int a =>
      match preprocessTree batchSize arg ⟨arg.treedef, List.replicate arg.leaves.length a⟩ with
      | .error e => .error e
      | .ok p => (collect batchSize (i + 1) rest).map (fun r => (r.1, p.1 :: r.2.1, p.2 :: r.2.2))
    | .tree t =>
      match preprocessTree batchSize arg t with
      | .error e => .error e
      | .ok p => (collect batchSize (i + 1) rest).map (fun r => (r.1, p.1 :: r.2.1, p.2 :: r.2.2))

/-- The insertions of `f2`, jax_helpers.py L80-82 (`list.insert`). -/
def insertAll {A : Type} (unbatched : List (Nat × A)) (args : List A) : List A :=
  unbatched.foldl (fun l p => l.take p.1 ++ p.2 :: l.drop p.1) args

/-- `f2`, jax_helpers.py L79-83. -/
def f2 {D α : Type} (f : JaxFn D α) (unbatched : List (Nat × Tree D (Arr α))) : JaxFn D α where
  shape args := f.shape (insertAll (unbatched.map (fun p => (p.1, shapes p.2))) args)
  val args := f.val (insertAll unbatched args)

/-- Row `k` of an array. -/
def row {α : Type} (k : Nat) (x : Arr α) : Arr α := ⟨x.shape.tail, fun idx => x.get (k :: idx)⟩

/-- The common leading dimension of some shapes: there must be one, and it must be the same. -/
def leadDim : List (List Nat) → Option Nat
  | [] => none
  | s :: rest => match s with
    | [] => none
    | n :: _ => if rest.all (fun t => t.head? == some n) then some n else none

/-- `jax.vmap(f)` with axes 0, and the `jax.lax.scan` without carry in `_lax_map` (jax_helpers.py L23-27): row `k` of the results
is the result for rows `k` of the arguments. Both raise a `ValueError` if the leading dimensions differ or there are none. -/
def mapLead {D α : Type} (f : JaxFn D α) : JaxFn D α where
  shape args :=
    match leadDim (args.flatMap Tree.leaves) with
    | none => .error "ValueError"
    | some n => (f.shape (args.map (Tree.map List.tail))).map (Tree.map (n :: ·))
  val args leaf l := f.val (args.map (Tree.map (row (l.headD 0)))) leaf l.tail

/-- `out_axes`: an `int`, or a pytree of `int`. -/
inductive OutAxes (D : Type)
  | int (a : Int)
  | tree (t : Tree D Int)

/-- `tree_map(postprocess, loop_out, tail_out, ...)`, jax_helpers.py L87-92. A structure of `out_axes` other than that of the
result is refused. -/
def finish {D α : Type} [DecidableEq D] (loopOut tailOut : Tree D (Arr α)) (outAxes : OutAxes D) :
    Except String (Tree D (Arr α)) := do
  if tailOut.treedef ≠ loopOut.treedef then throw "ValueError"
  let axes ← match outAxes with
    | .int a => pure (List.replicate loopOut.leaves.length a)
    | .tree t => if t.treedef ≠ loopOut.treedef then throw "ValueError" else pure t.leaves
  let leaves ← ((loopOut.leaves.zip tailOut.leaves).zip axes).mapM
    (fun (p : (Arr α × Arr α) × Int) => postprocess p.1.1 p.1.2 p.2)
  pure ⟨loopOut.treedef, leaves⟩

/-- `batch_vmap(f, in_axes, out_axes, batch_size=batch_size)(*args)`, jax_helpers.py L33-95. -/
def batchVmap {D α : Type} [DecidableEq D] (f : JaxFn D α) (inAxes : InAxes D) (outAxes : OutAxes D) (batchSize : Nat)
    (args : List (Tree D (Arr α))) : Except String (Tree D (Arr α)) := do
  let (unbatched, loopArgs, tailArgs) ← collect batchSize 0 (args.zip (inAxes.tuple args.length))
  let loopOut ← (mapLead (mapLead (f2 f unbatched))).call loopArgs
  let tailOut ← (mapLead (f2 f unbatched)).call tailArgs
  finish loopOut tailOut outAxes

end Verif.BatchVmap
