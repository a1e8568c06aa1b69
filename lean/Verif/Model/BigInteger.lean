import Mathlib.Data.Int.Bitwise
import Mathlib.Data.Int.GCD

/-!
# The big integers of the reference classes (`jaxite_ec/algorithm/big_integer.py`)

An operand is a python object: a `GMPBigInteger`, an `int` (with `bool`), a `gmpy2.mpz`, or anything else. A method returns
`NotImplemented` for operands it does not know (`none` here); the interpreter then tries the reflected method of the other operand and
raises `TypeError`, or compares identities.

External calls: `gmpy2.mpz` is the integers, with the conventions of python for `//`, `%`, `&` and shifts; `gmpy2.powmod` is the power
modulo the modulus, with the sign of the modulus, and raises for a modulus zero and for a negative exponent of a number without
inverse. A negative exponent without a modulus and a negative shift raise. `gmpy2.log2` returns a floating-point `mpfr`. An `int` or
`mpz` does not know `GMPBigInteger`, and an object of another class has no methods that do.
-/

namespace Verif.BigInteger

/-- A python object as an operand. -/
inductive Val where
  | big (v : Int)
  | int (v : Int)
  | mpz (v : Int)
  | other
deriving DecidableEq, Repr

/-- `GMPBigInteger.__init__`, L12-18. -/
def init : Val → Except String Val
  | .int v => .ok (.big v)
  | .mpz v => .ok (.big v)
  | .big v => .ok (.big v)
  | .other => .error "TypeError"

/-- `isinstance(other, (GMPBigInteger, int))` and the value, L21-26. -/
def operand : Val → Option Int
  | .big v => some v
  | .int v => some v
  | _ => none

/-- The binary operators. -/
inductive Op where
  | add | sub | mul | truediv | mod | and
deriving DecidableEq, Repr

/-- The operations on `gmpy2.mpz`, L23, L33, L43, L52-58, L68, L146. -/
def mpzOp : Op → Int → Int → Except String Int
  | .add, a, b => .ok (a + b)
  | .sub, a, b => .ok (a - b)
  | .mul, a, b => .ok (a * b)
  | .truediv, a, b => if b = 0 then .error "ZeroDivisionError" else .ok (a.fdiv b)
  | .mod, a, b => if b = 0 then .error "ZeroDivisionError" else .ok (a.fmod b)
  | .and, a, b => .ok (a.land b)

/-- `__add__`, `__sub__`, `__mul__`, `__truediv__`, `__mod__`, `__and__`, L20-73 and L143-151; `none` is `NotImplemented`. -/
def method (op : Op) (self : Int) (other : Val) : Option (Except String Val) :=
  (operand other).map fun b => do
    let r ← mpzOp op self b
    init (.mpz r)

/-- `x op y` with a `GMPBigInteger` on the left. -/
def opLeft (op : Op) (x : Int) (y : Val) : Except String Val := (method op x y).getD (.error "TypeError")

/-- `x op y` with a `GMPBigInteger` on the right and another object on the left: the class defines no reflected arithmetic. -/
def opRight (op : Op) (x : Val) (y : Int) : Except String Val :=
  match x with
  | .big a => opLeft op a (.big y)
  | _ => .error "TypeError"

/-- The comparisons. -/
inductive Cmp where
  | eq | ne | lt | le | gt | ge
deriving DecidableEq, Repr

/-- The comparisons of `gmpy2.mpz`, L77, L84, L91, L98, L105, L112. -/
def mpzCmp : Cmp → Int → Int → Bool
  | .eq, a, b => a == b
  | .ne, a, b => a != b
  | .lt, a, b => a < b
  | .le, a, b => a ≤ b
  | .gt, a, b => b < a
  | .ge, a, b => b ≤ a

/-- `__eq__`, `__ne__`, `__lt__`, `__le__`, `__gt__`, `__ge__`, L75-115. -/
def cmpMethod (c : Cmp) (self : Int) (other : Val) : Option Bool := (operand other).map (mpzCmp c self)

/-- The reflected comparison. -/
def Cmp.swap : Cmp → Cmp
  | .lt => .gt
  | .le => .ge
  | .gt => .lt
  | .ge => .le
  | c => c

/-- What python does when no method knows the operands: the objects are compared by identity, or an exception. -/
def cmpDefault : Cmp → Except String Bool
  | .eq => .ok false
  | .ne => .ok true
  | _ => .error "TypeError"

/-- `x c y` with a `GMPBigInteger` on the left. -/
def cmpLeft (c : Cmp) (x : Int) (y : Val) : Except String Bool :=
  match cmpMethod c x y with
  | some b => .ok b
  | none => cmpDefault c

/-- `x c y` with a `GMPBigInteger` on the right: python tries the reflected method. -/
def cmpRight (c : Cmp) (x : Val) (y : Int) : Except String Bool :=
  match x with
  | .big a => cmpLeft c a (.big y)
  | x =>
    match cmpMethod c.swap y x with
    | some b => .ok b
    | none => cmpDefault c

/-- The value of an integer object, for the arguments that are passed on to `gmpy2`. -/
def integer : Val → Option Int
  | .big v => some v
  | .int v => some v
  | .mpz v => some v
  | .other => none

/-- An inverse modulo `m`, with its sign: the search of the extended Euclidean algorithm. -/
def inverse (a m : Int) : Option Int :=
  if Int.gcd a m = 1 then some ((Int.gcdA a m).fmod m) else none

/-- `gmpy2.powmod(a, e, m)`. -/
def powmod (a e m : Int) : Except String Int :=
  if m = 0 then .error "ZeroDivisionError"
  else if 0 ≤ e then .ok ((a ^ e.toNat).fmod m)
  else match inverse a m with
    | none => .error "ZeroDivisionError"
    | some i => .ok ((i ^ (-e).toNat).fmod m)

/-- `__pow__`, L117-129. A modulus of another class makes `powmod` raise. -/
def pow (self : Int) (exponent : Val) (modulus : Option Val) : Except String Val :=
  match integer exponent with
  | none => .error "TypeError"
  | some e =>
    match modulus with
    | none => if e < 0 then .error "ValueError" else init (.mpz (self ^ e.toNat))
    | some m =>
      match integer m with
      | none => .error "TypeError"
      | some m => do
        let r ← powmod self e m
        init (.mpz r)

/-- `__lshift__`, L131-135. -/
def lshift (self : Int) (shift : Val) : Except String Val :=
  match integer shift with
  | none => .error "TypeError"
  | some s => if s < 0 then .error "ValueError" else init (.mpz (self * 2 ^ s.toNat))

/-- `__rshift__`, L137-141. -/
def rshift (self : Int) (shift : Val) : Except String Val :=
  match integer shift with
  | none => .error "TypeError"
  | some s => if s < 0 then .error "ValueError" else init (.mpz (self >>> s.toNat))

/-- `ceil_log2`, L153-157: `gmpy2.ceil(gmpy2.log2(value))` is an `mpfr`, which is neither an `int` nor an `mpz`. -/
def ceilLog2 (self : Int) : Except String Val :=
  if self ≤ 0 then .error "ValueError" else init .other

/-- `__int__`, L159-160. -/
def toInt (self : Int) : Val := .int self

end Verif.BigInteger
