import Mathlib.Data.Nat.Log

/-!
# Model of `jaxite/jaxite_ckks/barrett.py` and `jaxite/jaxite_ckks/add.py`

`jax_enable_x64` is on in this package. Arrays of `uint64`/`uint32` are handled entry by entry; an entry is a
natural number and every machine operation is followed by an explicit reduction modulo `2^64` or `2^32`.
-/

namespace Verif.Barrett

/-- `uint64` multiplication. -/
def mul64 (a b : Nat) : Nat := a * b % 2 ^ 64
/-- `uint64` addition. -/
def add64 (a b : Nat) : Nat := (a + b) % 2 ^ 64
/-- `uint64` subtraction. -/
def sub64 (a b : Nat) : Nat := (a + (2 ^ 64 - b % 2 ^ 64)) % 2 ^ 64

/-- `math.floor(a / b)` for Python integers with `1 ≤ a / b < 2^53`: true division returns the double nearest
to the quotient (ties to even), i.e. the quotient is rounded to 53 significant bits, and the result is
floored. -/
def floorTrueDiv (a b : Nat) : Nat :=
  let k := 52 - Nat.log 2 (a / b)
  let n := a * 2 ^ k
  let q := n / b
  let r := n % b
  let rounded := if b < 2 * r ∨ (2 * r = b ∧ q % 2 = 1) then q + 1 else q
  rounded / 2 ^ k

/-- `BarrettConstants` for one modulus, barrett.py L14-39. -/
structure Constants where
  m : Nat
  modulus : Nat
  w : Nat
  sw : Nat
deriving DecidableEq, Repr

/-- `precompute_barrett_constants` for one modulus, barrett.py L42-67. `math.ceil(math.log2(m))` is taken to be
the exact ceiling (`Nat.clog`), which holds for the 32-bit moduli stored in `moduli`. -/
def precompute (modulus : Nat) : Constants :=
  let s := 2 * Nat.clog 2 modulus
  let w := min s 32
  { m := floorTrueDiv (2 ^ s) modulus, modulus := modulus, w := w, sw := s - w }

/-- `modular_reduction` on one entry, barrett.py L70-95. -/
def modularReduction (z : Nat) (c : Constants) : Nat :=
  let z1 := z &&& 0xFFFFFFFF
  let z2 := z >>> c.w
  let t := add64 ((mul64 z1 c.m) >>> c.w) (mul64 z2 c.m)
  let t := t >>> c.sw
  let z := sub64 z (mul64 t c.modulus)
  let z := if z ≥ c.modulus then sub64 z c.modulus else z
  z % 2 ^ 32

/-- `AddSimple.add` on `uint32` entries, add.py L32-33. -/
def addSimple (a b : Nat) : Nat := (a + b) % 2 ^ 32

/-- `AddModularBarrett.add`, add.py L60-64; `none` is the missing-constants case. The `uint32` sum wraps. -/
def addModularBarrett (c : Option Constants) (a b : Nat) : Except String Nat :=
  match c with
  | none => .error "ValueError"
  | some c => .ok (modularReduction ((a + b) % 2 ^ 32) c)

/-- `AddModularSubtract.add` on one `uint32` entry with its modulus, add.py L86-92. -/
def addModularSubtract (q a b : Nat) : Nat :=
  let res := (a + b) % 2 ^ 32
  if res ≥ q then (res + 2 ^ 32 - q) % 2 ^ 32 else res

end Verif.Barrett
