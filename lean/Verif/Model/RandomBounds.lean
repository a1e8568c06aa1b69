import Verif.Model.Session

/-!
# Model of the bounds of the random sources

`jaxite/jaxite_cggi/random_source.py` (constructors and `uniform`, `sk_uniform` of the sources backed by Python's
generator) and the sources of `jaxite/jaxite_bool/bool_params.py`. Python's `randint(lo, hi)` returns
`lo + c` for a choice `c` out of the `hi - lo + 1` choices, all equally likely; the choices are the input of the
model, as a list consumed from the front. How Python makes the choices is not modelled.
-/

namespace Verif.RandomBounds
open Verif.Helpers Verif.Session

/-- The attributes of `SystemRandomSource` (random_source.py L114-127) and `PseudorandomSource` (L151-162), without
the generator. -/
structure PythonRng where
  uniformBounds : Int × Int
  normalStd : Int
  deriving DecidableEq

/-- `PseudorandomSource.__init__`, random_source.py L154-162, and `SystemRandomSource.__init__`, L120-127: the same
default values. The seed decides the choices and is not an input here. -/
def newSource (uniformBounds : Int × Int := (0, 2 ^ 32 - 1)) (normalStd : Int := 1) : PythonRng :=
  ⟨uniformBounds, normalStd⟩

/-- `get_lwe_rng_for_128_bit_security`, bool_params.py L83-92. -/
def getLweRngFor128BitSecurity : PythonRng := newSource (normalStd := 2 ^ 14)

/-- `get_rlwe_rng_for_128_bit_security`, bool_params.py L95-104. -/
def getRlweRngFor128BitSecurity : PythonRng := newSource (normalStd := 256)

/-- `get_rng_for_test`, bool_params.py L134-138. -/
def getRngForTest : PythonRng := newSource (uniformBounds := (0, 2 ^ 32)) (normalStd := 1)

/-- `VARYING_MAGNITUDE_TEST_RNGS`, random_source.py L261-277. -/
def varyingMagnitudeTestRngs : List PythonRng :=
  [((0, 1), 0), ((0, 1), 1), ((0, 2 ^ 5), 1), ((0, 2 ^ 15), 1), ((0, 2 ^ 30), 1), ((0, 2 ^ 32 - 1), 1),
    ((0, 2 ^ 5), 2 ^ 5), ((0, 2 ^ 15), 2 ^ 5), ((0, 2 ^ 30), 2 ^ 5), ((0, 2 ^ 32 - 1), 2 ^ 5),
    ((0, 2 ^ 32 - 1), 2 ^ 7)].map (fun p : (Int × Int) × Int => newSource p.1 p.2)

/-- `randint(lo, hi)` of Python on a list of choices (a list that is too short counts as zeros). -/
def randint (lo hi : Int) (choices : List Nat) : Int × List Nat :=
  (lo + ((choices.headD 0 % (hi - lo + 1).toNat : Nat) : Int), choices.tail)

/-- The source with these attributes, random_source.py L164-181. The normal samples are arbitrary. -/
def PythonRng.source (r : PythonRng) (normal : Int → List Nat → Int × List Nat) : RandomSource (List Nat) :=
  pythonSource randint normal r.uniformBounds r.normalStd

/-- `uniform`, random_source.py L164-169 (and L129-134): `randint` raises if there is nothing to choose from, which
happens if any element is drawn. -/
def PythonRng.uniform (r : PythonRng) (shape : List Int) (dtype : DType) (choices : List Nat) :
    Except String (Array' × List Nat) :=
  if r.uniformBounds.2 < r.uniformBounds.1 ∧ (∀ d ∈ shape, 0 < d) then .error "ValueError"
  else shapeGenerator (randint r.uniformBounds.1 r.uniformBounds.2) shape dtype choices

/-- `sk_uniform`, random_source.py L178-181 (and L145-148). -/
def PythonRng.skUniform (_r : PythonRng) (shape : List Int) (dtype : DType) (choices : List Nat) :
    Except String (Array' × List Nat) :=
  shapeGenerator (randint 0 1) shape dtype choices

end Verif.RandomBounds
