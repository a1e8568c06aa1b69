import Mathlib.Data.Int.ModEq

/-!
# The reference field classes (`jaxite_ec/algorithm/finite_field.py`)

`GMPBigInteger` (big_integer.py) is an unbounded integer: `/` is floor division, `%` is the floor remainder, `>>` the
floor division by a power of two, and `x & (2^k - 1)` the remainder modulo `2^k`.  Values may be arbitrary integers;
only the constructor and `set_value` check the range.  Primes are positive here; all operations create fresh objects, so
aliasing plays no role.
-/

namespace Verif.FieldClasses

/-- `gmpy2.powmod` for a non-negative exponent and a positive modulus (big_integer.py L117-129). -/
def powmod (a : Int) (e : Nat) (m : Int) : Int := a ^ e % m

/-- `FiniteFieldElement` (L11-25). -/
structure Plain where
  value : Int
  prime : Int
deriving DecidableEq, Repr

/-- `FiniteFieldElement.__init__` (L14-26). -/
def Plain.new (v p : Int) : Except String Plain :=
  if v < 0 ∨ p ≤ v then .error "ValueError" else .ok ⟨v, p⟩

/-- `set_value` (L28-38). -/
def Plain.setValue (a : Plain) (v : Int) : Except String Plain :=
  if v < 0 ∨ a.prime ≤ v then .error "ValueError" else .ok { a with value := v }

/-- `copy` (L46-67), for an `int` argument or none: `if not value` also holds for the value 0. -/
def Plain.copy (a : Plain) (v : Option Int) : Plain :=
  match v with
  | none => ⟨a.value, a.prime⟩
  | some v => if v = 0 then ⟨a.value, a.prime⟩ else { a with value := v }

/-- `__add__` (L69-73). -/
def Plain.add (a b : Plain) : Except String Plain :=
  if a.prime ≠ b.prime then .error "ValueError" else Plain.new ((a.value + b.value) % a.prime) a.prime
/-- `__sub__` (L75-79). -/
def Plain.sub (a b : Plain) : Except String Plain :=
  if a.prime ≠ b.prime then .error "ValueError" else Plain.new ((a.value - b.value) % a.prime) a.prime
/-- `__mul__` (L81-85). -/
def Plain.mul (a b : Plain) : Except String Plain :=
  if a.prime ≠ b.prime then .error "ValueError" else Plain.new ((a.value * b.value) % a.prime) a.prime
/-- `__truediv__` (L87-93); the prime is at least 2. -/
def Plain.div (a b : Plain) : Except String Plain :=
  if a.prime ≠ b.prime then .error "ValueError"
  else Plain.new ((a.value * powmod b.value (a.prime - 2).toNat a.prime) % a.prime) a.prime
/-- `__pow__` (L95-97) for a non-negative exponent. -/
def Plain.pow (a : Plain) (e : Nat) : Except String Plain := Plain.new (powmod a.value e a.prime) a.prime
/-- `__eq__` (L99-100). -/
def Plain.eq (a b : Plain) : Bool := a.value == b.value && a.prime == b.prime

/-- `FiniteFieldElementBarrett` (L118-130). -/
structure Barrett where
  value : Int
  prime : Int
  twoK : Nat
  mu : Int
deriving DecidableEq, Repr

/-- `__init__` (L121-130).  `clog` stands for `math.ceil(math.log2(prime))`, computed in floating point.  When the prime
is passed as a `BigInt` and `k` is not given, `ceil_log2` (big_integer.py L153-157) passes the `mpfr` returned by
`gmpy2.ceil` to the constructor of `GMPBigInteger`, which rejects it. -/
def Barrett.new (clog : Int → Nat) (v p : Int) (primeIsBigInt : Bool) (k : Option Nat) : Except String Barrett :=
  if v < 0 ∨ p ≤ v then .error "ValueError"
  else
    match k with
    | none => if primeIsBigInt then .error "TypeError" else .ok ⟨v, p, clog p * 2, 2 ^ (clog p * 2) / p⟩
    | some k => .ok ⟨v, p, 2 * k, 2 ^ (2 * k) / p⟩

/-- `barrett_reduction` (L132-139). -/
def Barrett.reduction (a : Barrett) (x : Int) : Int :=
  let q := x * a.mu / 2 ^ a.twoK
  let r := x - q * a.prime
  if a.prime ≤ r then r - a.prime else r

/-- `copy` (L181-190). -/
def Barrett.copy (a : Barrett) (v : Option Int) (reduction : Bool) : Barrett :=
  match v with
  | none => a
  | some v => if v = 0 then a else { a with value := if reduction then a.reduction v else v }

/-- `__add__` (L141-149). -/
def Barrett.add (a b : Barrett) : Except String Barrett :=
  if a.prime ≠ b.prime then .error "ValueError"
  else
    let r := a.value + b.value
    .ok { a with value := if a.prime < r then r - a.prime else r }
/-- `__sub__` (L151-160). -/
def Barrett.sub (a b : Barrett) : Except String Barrett :=
  if a.prime ≠ b.prime then .error "ValueError"
  else .ok { a with value := if a.value < b.value then a.value + a.prime - b.value else a.value - b.value }
/-- `__mul__` (L162-169). -/
def Barrett.mul (a b : Barrett) : Except String Barrett :=
  if a.prime ≠ b.prime then .error "ValueError" else .ok { a with value := a.reduction (a.value * b.value) }
/-- `__truediv__` (L171-179). -/
def Barrett.div (a b : Barrett) : Except String Barrett :=
  if a.prime ≠ b.prime then .error "ValueError"
  else .ok { a with value := a.reduction (a.value * powmod b.value (a.prime - 2).toNat a.prime) }
/-- The inherited `__eq__` (L99-100). -/
def Barrett.eq (a b : Barrett) : Bool := a.value == b.value && a.prime == b.prime

/-- `FiniteFieldElementMontgomery` (L193-213); `one_bar` is not used. -/
structure Mont where
  value : Int
  prime : Int
  k : Nat
  nPrime : Int
  mont : Bool
deriving DecidableEq, Repr

/-- `montgomeryize` (L222-224). -/
def montgomeryize (k : Nat) (p x : Int) : Int := x * 2 ^ k % p

/-- `__init__` (L196-213): `if not k` also holds for `k = 0`. -/
def Mont.new (clog : Int → Nat) (v p : Int) (primeIsBigInt : Bool) (k : Option Nat) : Except String Mont :=
  if v < 0 ∨ p ≤ v then .error "ValueError"
  else
    let make (k : Nat) : Mont :=
      let r : Int := 2 ^ k
      let rInverse := powmod r (p - 2).toNat p
      ⟨montgomeryize k p v, p, k, (r * rInverse - 1) / p, true⟩
    match k with
    | some (k + 1) => .ok (make (k + 1))
    | _ => if primeIsBigInt then .error "TypeError" else .ok (make (clog p))

/-- `montgomery_reduction` (L215-220). -/
def Mont.reduction (a : Mont) (x : Int) : Int :=
  let r : Int := 2 ^ a.k
  let m := x % r * a.nPrime % r
  let u := (x + m * a.prime) / r
  if a.prime ≤ u then u - a.prime else u

/-- `change_montgomery_form` (L230-237). -/
def Mont.change (a : Mont) : Mont :=
  if a.mont then { a with value := a.reduction a.value, mont := false }
  else { a with value := montgomeryize a.k a.prime a.value, mont := true }

/-- `copy` (L291-305). -/
def Mont.copy (a : Mont) (v : Option Int) (transform reduction : Bool) : Mont :=
  match v with
  | none => a
  | some v =>
    if v = 0 then a
    else { a with value := if reduction then a.reduction v else if transform then montgomeryize a.k a.prime v else v }

/-- `__add__` (L239-248). -/
def Mont.add (a b : Mont) : Except String Mont :=
  if a.prime ≠ b.prime then .error "ValueError"
  else if !b.mont then .error "AssertionError"
  else
    let r := a.value + b.value
    .ok { a with value := if a.prime < r then r - a.prime else r }
/-- `__sub__` (L250-260). -/
def Mont.sub (a b : Mont) : Except String Mont :=
  if a.prime ≠ b.prime then .error "ValueError"
  else if !b.mont then .error "AssertionError"
  else .ok { a with value := if a.value < b.value then a.value + a.prime - b.value else a.value - b.value }
/-- `__mul__` (L262-270). -/
def Mont.mul (a b : Mont) : Except String Mont :=
  if a.prime ≠ b.prime then .error "ValueError"
  else if !b.mont then .error "AssertionError"
  else .ok { a with value := a.reduction (a.value * b.value) }
/-- `__truediv__` (L272-289). -/
def Mont.div (a b : Mont) : Except String Mont :=
  if a.prime ≠ b.prime then .error "ValueError"
  else
    let o := if b.mont then a.reduction b.value else b.value
    let inverse := powmod o (a.prime - 2).toNat a.prime
    .ok { a with value := a.reduction (a.value * montgomeryize a.k a.prime inverse) }
/-- The inherited `__eq__` (L99-100). -/
def Mont.eq (a b : Mont) : Bool := a.value == b.value && a.prime == b.prime
/-- The inherited `__pow__` (L95-97): returns a plain element. -/
def Mont.pow (a : Mont) (e : Nat) : Except String Plain := Plain.new (powmod a.value e a.prime) a.prime
@[inherit_doc Mont.pow]
def Barrett.pow (a : Barrett) (e : Nat) : Except String Plain := Plain.new (powmod a.value e a.prime) a.prime

end Verif.FieldClasses
