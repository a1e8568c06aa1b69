import Mathlib.Data.List.Basic

/-!
# `to_tuple` and `profile_jax_functions`, jaxite_ec/util.py

`to_tuple` turns the nested lists and arrays of the precomputed constants into tuples, which can be static arguments
of compiled functions. `profile_jax_functions` runs a list of tasks under the profiler.
-/

namespace Verif.EcHelpers

/-- The kinds of sequences that occur: Python lists and tuples, numpy arrays of dimension at least one (whose
elements are arrays or scalars). -/
inductive Kind
  | list | tuple | array
deriving DecidableEq

/-- The Python values that occur as arguments of `to_tuple`: numbers (also numpy scalars and arrays of dimension
zero, over which one cannot iterate), strings, sequences. Simplified: dictionaries, sets and generators, over which
one can also iterate, are left out. -/
inductive PyVal
  | num (v : Int)
  | str (s : List Char)
  | seq (k : Kind) (xs : List PyVal)

/-- `to_tuple`, jaxite_ec/util.py L316-321 and, identical, jaxite_ec/algorithm/rns_mod_reduce.py L17-22: the
`TypeError` of iterating over a number is caught and the number returned; the characters of a string are strings
again, whose characters are strings: `RecursionError`, which is not a `TypeError`, unless the string is empty.
Simplified: sequences nested deeper than the recursion limit, which also raise, are not modelled. -/
def toTuple : PyVal → Except String PyVal
  | .num v => .ok (.num v)
  | .str [] => .ok (.seq .tuple [])
  | .str (_ :: _) => .error "RecursionError"
  | .seq _ xs => (xs.attach.mapM fun x => toTuple x.1).map (.seq .tuple)
decreasing_by
  have := x.2
  simp only [PyVal.seq.sizeOf_spec]
  have := List.sizeOf_lt_of_mem this
  omega

/-- How a call ends: with a value, with an exception derived from `Exception` (its type and text), or with one that is
not, such as `KeyboardInterrupt` or `SystemExit`. -/
inductive Outcome (α : Type)
  | value (a : α)
  | exception (type text : String)
  | baseException (type : String)
deriving DecidableEq

/-- A task: a function applied to its arguments, with effects on a state `σ`. -/
abbrev Task (σ α : Type) := σ → Outcome α × σ

/-- The loop over the tasks, util.py L374-377. -/
def launch {σ α : Type} : List (Task σ α) → List α → σ → Outcome (List α) × σ
  | [], results, w => (.value results, w)
  | f :: fs, results, w =>
    match f w with
    | (.value r, w) => launch fs (results ++ [r]) w
    | (.exception t m, w) => (.exception t m, w)
    | (.baseException t, w) => (.baseException t, w)

/-- The `try` block of `profile_jax_functions`, util.py L372-381; `block` is `jax.block_until_ready`. -/
def tryBlock {σ α : Type} (block : List α → Task σ Unit) (tasks : List (Task σ α)) (w : σ) : Outcome Unit × σ :=
  match launch tasks [] w with
  | (.value results, w) => if results.isEmpty then (.value (), w) else block results w
  | (.exception t m, w) => (.exception t m, w)
  | (.baseException t, w) => (.baseException t, w)

/-- What the name `client` is bound to in the module, util.py L395-401: nothing (the statement that binds it is in a
comment), or a value that counts as false, which a caller could set. Simplified: a profiler client, which is not part
of the published code, is not modelled. -/
inductive Client
  | unbound
  | falsy

/-- The `finally` block, util.py L391-405, for `session_id = None` (the statements that set it are in comments): the
lines printed, and the name of the exception raised, if any. -/
def finallyBlock (client : Client) (profileName : String) : List String × Option String :=
  let line := profileName ++ ": http://xprof/?session_id=None"
  match client with
  | .unbound => ([line], some "NameError")
  | .falsy => ([line], none)

/-- `profile_jax_functions`, util.py L350-405: the exceptions of the tasks are printed and dropped; an exception in
the `finally` block replaces the one under way. Gives the printed lines, the outcome and the state. -/
def profileJaxFunctions {σ α : Type} (client : Client) (block : List α → Task σ Unit) (tasks : List (Task σ α))
    (profileName : String) (w : σ) : List String × Outcome Unit × σ :=
  let (o, w) := tryBlock block tasks w
  let (printed, pending) : List String × Outcome Unit :=
    match o with
    | .value _ => ([], .value ())
    | .exception t m =>
      (["Error type: " ++ t, "Error details: " ++ m, "Xprof session ended due to error."], .value ())
    | .baseException t => ([], .baseException t)
  let (lines, raised) := finallyBlock client profileName
  (printed ++ lines, match raised with
    | some e => .exception e "name 'client' is not defined"
    | none => pending, w)

end Verif.EcHelpers
