/-!
# Model of `jaxite/jaxite_bool/lut.py` and `jaxite/jaxite_bool/bool_encoding.py`

Truth tables are natural numbers, Boolean functions of `n` inputs are functions on `List Bool`
(the argument tuple). Python object identity is an explicit object number because
`LookUpTable` defines `__hash__` but not `__eq__`.
-/

namespace Verif.Lut

/-- `bool_encoding.py` L11. -/
def cleartextFalse : Nat := 0
/-- `bool_encoding.py` L12. -/
def cleartextTrue : Nat := 1
/-- `bool_encoding.py` L18. -/
def cleartextUnused : Nat := 2
/-- `ENCODING_PARAMS.message_bit_length`, `bool_encoding.py` L8. -/
def messageBits : Nat := 3

/-- `LookUpTable.__init__`, lut.py L24-26. -/
structure LookUpTable where
  numInputs : Nat
  truthTable : Nat
deriving DecidableEq, Repr

/-- `_values_from_lsb_to_msb`, lut.py L28-33. -/
def LookUpTable.values (l : LookUpTable) : List Nat :=
  (List.range (2 ^ l.numInputs)).map fun i => (l.truthTable &&& (1 <<< i)) >>> i

/-- `as_cleartext_list`, lut.py L35-41. -/
def LookUpTable.asCleartextList (l : LookUpTable) : List Nat :=
  l.values.map fun bit => if bit ≠ 0 then cleartextTrue else cleartextFalse

/-- `as_rlwe_test_polynomial`, lut.py L43-64, up to and including the padded coefficient list; the
final call `test_polynomial.gen_and_encrypt` is modelled in `Model/TestPolynomial.lean`. -/
def LookUpTable.paddedCoefficients (l : LookUpTable) : Except String (List Nat) :=
  let paddingRequired : Int := (2 ^ messageBits : Int) - (l.asCleartextList.length : Int)
  if paddingRequired < 0 then .error "ValueError"
  else .ok (l.asCleartextList ++ List.replicate paddingRequired.toNat cleartextUnused)

/-- `itertools.product([False, True], repeat=n)`, used in lut.py L95: tuples in lexicographic order,
the last position varying fastest. -/
def product : Nat → List (List Bool)
  | 0 => [[]]
  | n + 1 => [false, true].flatMap fun b => (product n).map fun t => b :: t

/-- `from_callable`, lut.py L89-101. The state of the loop is `(truth_table, bit)`. -/
def fromCallable (numInputs : Nat) (fn : List Bool → Bool) : LookUpTable :=
  let st := (product numInputs).foldl
    (fun (st : Nat × Nat) inputBits =>
      (st.1 ||| ((if fn inputBits then 1 else 0) <<< st.2), st.2 + 1)) (0, 0)
  { numInputs := numInputs, truthTable := st.1 }

/-- A Python function of two Boolean arguments seen as a function of the argument tuple. -/
def fn2 (f : Bool → Bool → Bool) : List Bool → Bool
  | [x, y] => f x y
  | _ => false

/-- A Python function of three Boolean arguments seen as a function of the argument tuple. -/
def fn3 (f : Bool → Bool → Bool → Bool) : List Bool → Bool
  | [x, y, z] => f x y z
  | _ => false

/-- `FUNC_NAME_TO_LUT2`, lut.py L104-116 (the lambdas as written there). -/
def funcNameToLut2 : String → Option LookUpTable
  | "and" => some (fromCallable 2 (fn2 fun x y => x && y))
  | "andny" => some (fromCallable 2 (fn2 fun x y => !x && y))
  | "andyn" => some (fromCallable 2 (fn2 fun x y => x && !y))
  | "nand" => some (fromCallable 2 (fn2 fun x y => !(x && y)))
  | "nor" => some (fromCallable 2 (fn2 fun x y => !(x || y)))
  | "or" => some (fromCallable 2 (fn2 fun x y => x || y))
  | "orny" => some (fromCallable 2 (fn2 fun x y => !x || y))
  | "oryn" => some (fromCallable 2 (fn2 fun x y => x || !y))
  | "xnor" => some (fromCallable 2 (fn2 fun x y => x == y))
  | "xor" => some (fromCallable 2 (fn2 fun x y => x != y))
  | "cmux" => some (fromCallable 3 (fn3 fun v1 v0 ctrl => if ctrl then v1 else v0))
  | _ => none

/-! ## The cache -/

/-- `functools.lru_cache` with its default `maxsize=128`: most recently used entry first. -/
def lruMaxSize : Nat := 128

/-- One call through `functools.lru_cache`: on a hit the entry moves to the front, on a miss the
function is evaluated (threading the world state `σ`), the result is stored and the oldest entry is
dropped; exceptions are not cached. -/
def lruCall {κ ν σ : Type} [DecidableEq κ] (cache : List (κ × ν)) (key : κ)
    (compute : σ → Except String ν × σ) (s : σ) :
    Except String ν × List (κ × ν) × σ :=
  match cache.find? (fun e => e.1 = key) with
  | some e => (.ok e.2, e :: cache.eraseP (fun e => e.1 = key), s)
  | none =>
    match compute s with
    | (.ok v, s') => (.ok v, ((key, v) :: cache).take lruMaxSize, s')
    | (.error m, s') => (.error m, cache, s')

/-- A `LookUpTable` object: identity and immutable content. -/
structure LutObj where
  oid : Nat
  lut : LookUpTable
deriving DecidableEq

/-- The mutable state shared by all `LutCache` instances: the `lru_cache` of `LutCache.lut` is keyed
by `(self, num_inputs, lut_as_int)`, each instance has its `test_poly_cache` dictionary keyed by
`lut_as_int`, and the `lru_cache` of `as_rlwe_test_polynomial` is keyed by
`(LookUpTable object, scheme_params)`. -/
structure CacheState (π poly : Type) where
  nextOid : Nat
  dicts : Nat → Nat → Option LutObj
  lutLru : List ((Nat × Nat × Nat) × LutObj)
  polyLru : List ((Nat × π) × poly)

variable {π poly : Type} [DecidableEq π]

/-- Body of `LutCache.lut`, lut.py L126-131: stores a fresh object in `test_poly_cache[lut_as_int]`
and returns what the dictionary holds at that key. World state = `(nextOid, dicts)`. -/
def lutBody (inst numInputs lutAsInt : Nat) (w : Nat × (Nat → Nat → Option LutObj)) :
    Except String LutObj × (Nat × (Nat → Nat → Option LutObj)) :=
  let obj : LutObj := ⟨w.1, ⟨numInputs, lutAsInt⟩⟩
  let dicts' := fun i k => if i = inst ∧ k = lutAsInt then some obj else w.2 i k
  match dicts' inst lutAsInt with
  | some o => (.ok o, (w.1 + 1, dicts'))
  | none => (.error "KeyError", (w.1 + 1, dicts'))

/-- `LutCache.lut`, lut.py L126-131 (with its decorator). -/
def lutCall (inst numInputs lutAsInt : Nat) (st : CacheState π poly) :
    Except String LutObj × CacheState π poly :=
  let r := lruCall st.lutLru (inst, numInputs, lutAsInt) (lutBody inst numInputs lutAsInt)
    (st.nextOid, st.dicts)
  (r.1, { st with lutLru := r.2.1, nextOid := r.2.2.1, dicts := r.2.2.2 })

/-- `LutCache.lut_by_name`, lut.py L133-140: always asks for `num_inputs=2`. -/
def lutByName (inst : Nat) (name : String) (st : CacheState π poly) :
    Except String LutObj × CacheState π poly :=
  match funcNameToLut2 name with
  | none => (.error "ValueError", st)
  | some l => lutCall inst 2 l.truthTable st

/-- `as_rlwe_test_polynomial` through its `lru_cache`, lut.py L43-44; `gen` is the body. -/
def polyCall (gen : LookUpTable → π → Except String poly) (obj : LutObj) (params : π)
    (st : CacheState π poly) : Except String poly × CacheState π poly :=
  let r := lruCall st.polyLru (obj.oid, params) (fun (_ : Unit) => (gen obj.lut params, ())) ()
  (r.1, { st with polyLru := r.2.1 })

/-- `LutCache.lut_poly`, lut.py L142-145. `paramsOf inst` is the `scheme_params` of the instance. -/
def lutPoly (gen : LookUpTable → π → Except String poly) (paramsOf : Nat → π)
    (inst numInputs lutAsInt : Nat) (st : CacheState π poly) :
    Except String poly × CacheState π poly :=
  match lutCall inst numInputs lutAsInt st with
  | (.ok o, st') => polyCall gen o (paramsOf inst) st'
  | (.error m, st') => (.error m, st')

/-- `LutCache.lut_poly_by_name`, lut.py L147-149. -/
def lutPolyByName (gen : LookUpTable → π → Except String poly) (paramsOf : Nat → π)
    (inst : Nat) (name : String) (st : CacheState π poly) :
    Except String poly × CacheState π poly :=
  match lutByName inst name st with
  | (.ok o, st') => polyCall gen o (paramsOf inst) st'
  | (.error m, st') => (.error m, st')

/-- A query a client can make on a cache instance. -/
inductive Query
  | lut (inst numInputs lutAsInt : Nat)
  | lutByName (inst : Nat) (name : String)
  | lutPoly (inst numInputs lutAsInt : Nat)
  | lutPolyByName (inst : Nat) (name : String)

/-- Answers: the table of the returned object or the returned polynomial. -/
inductive Answer (poly : Type)
  | table (r : Except String LookUpTable)
  | poly (r : Except String poly)

/-- Executes one query. -/
def runQuery (gen : LookUpTable → π → Except String poly) (paramsOf : Nat → π) (q : Query)
    (st : CacheState π poly) : Answer poly × CacheState π poly :=
  match q with
  | .lut i n t => let r := lutCall i n t st; (.table (r.1.map LutObj.lut), r.2)
  | .lutByName i s => let r := lutByName i s st; (.table (r.1.map LutObj.lut), r.2)
  | .lutPoly i n t => let r := lutPoly gen paramsOf i n t st; (.poly r.1, r.2)
  | .lutPolyByName i s => let r := lutPolyByName gen paramsOf i s st; (.poly r.1, r.2)

/-- The state before any query: lut.py L122-124 and empty `lru_cache`s. -/
def initState : CacheState π poly := ⟨0, fun _ _ => none, [], []⟩

/-- Runs a history of queries and returns all answers. -/
def runHistory (gen : LookUpTable → π → Except String poly) (paramsOf : Nat → π) :
    List Query → CacheState π poly → List (Answer poly)
  | [], _ => []
  | q :: qs, st =>
    let r := runQuery gen paramsOf q st
    r.1 :: runHistory gen paramsOf qs r.2

end Verif.Lut
