import Verif.Model.Encode
import Mathlib.Algebra.Order.Round
import Mathlib.Data.Int.Log

/-!
# Model of `jaxite/jaxite_ckks/encode.py` in floating-point arithmetic

The same functions as in `Model/Encode.lean`, but every arithmetic operation on a `float64` or a `complex128` is an
operation of a record `Arith`, applied in the order of the source. The operations belong to numpy and Python, so they are
parameters; `Accurate` states what is assumed of them (an error relative to the exact result, plus an absolute error for
results that underflow). `Arith.binary64` is one concrete choice: round to nearest, ties to even, 53 significand bits,
smallest exponent -1074, with the textbook formulas for complex numbers.

Simplifications: a `float64` is a real number (no infinities, no NaN, no signed zeros: a result of absolute value above
the largest finite double is kept as a real number); `coeffs[:nh] + 1j * coeffs[nh:]` is exact (each component is one of
its operands plus a zero); `np.round` returns an integer-valued double, which is represented by the integer.
-/

namespace Verif.EncodeFloat
open Verif.BitReversal Verif.CkksKeys Verif.Encode

/-- The floating-point operations `encode.py` calls. -/
structure Arith where
  /-- `complex128 + complex128`. -/
  add : ℂ → ℂ → ℂ
  /-- `complex128 - complex128`. -/
  sub : ℂ → ℂ → ℂ
  /-- `complex128 * complex128`. -/
  mul : ℂ → ℂ → ℂ
  /-- `float64 * float64`. -/
  rmul : ℝ → ℝ → ℝ
  /-- `float64 / float64`. -/
  div : ℝ → ℝ → ℝ
  /-- The conversion of a Python integer to a double, which raises for integers that are too large. -/
  ofInt : ℤ → Except String ℝ
  /-- `np.round`. -/
  rint : ℝ → ℤ
  /-- `_roots(m)[i]`, encode.py L15-16. -/
  root : Nat → Nat → ℂ

/-- The body of the loop of `fft_special_inv`, encode.py L48-60. -/
def invLayerF (A : Arith) (m : Nat) (rg : List Nat) (length : Nat) (vals : List ℂ) : List ℂ :=
  let half := length >>> 1
  let lenq := length <<< 2
  let step := m / lenq
  let currentRoots := fun j => A.root m (((lenq - rg.getD j 0 % lenq) % lenq) * step)
  (List.range vals.length).map (fun p =>
    let c := p % length
    if c < half then A.add (vals.getD p 0) (vals.getD (p + half) 0)
    else A.mul (A.sub (vals.getD (p - half) 0) (vals.getD p 0)) (currentRoots (c - half)))

/-- The loop of `fft_special_inv`, encode.py L47-60, at most `fuel` iterations. -/
def invLoopF (A : Arith) (m : Nat) (rg : List Nat) : Nat → Nat → List ℂ → List ℂ
  | 0, _, vals => vals
  | fuel + 1, length, vals =>
    if length ≥ 2 then invLoopF A m rg fuel (length >>> 1) (invLayerF A m rg length vals) else vals

/-- `fft_special_inv`, encode.py L26-63: `1.0 / nh` is one division and `vals * (1.0 / nh)` a complex product. -/
noncomputable def fftSpecialInvF (A : Arith) (vals : List ℂ) (cyclOrder : Nat) : List ℂ :=
  let m := cyclOrder
  let nh := vals.length
  let rg := rotGroup m nh 5
  let vals := invLoopF A m rg nh nh vals
  bitReversalArray (vals.map (fun x => A.mul x (A.div 1 nh : ℝ)))

/-- The body of the loop of `fft_special`, encode.py L89-100. -/
def fwdLayerF (A : Arith) (m : Nat) (rg : List Nat) (length : Nat) (vals : List ℂ) : List ℂ :=
  let half := length >>> 1
  let lenq := length <<< 2
  let step := m / lenq
  let currentRoots := fun j => A.root m ((rg.getD j 0 % lenq) * step)
  (List.range vals.length).map (fun p =>
    let c := p % length
    if c < half then A.add (vals.getD p 0) (A.mul (vals.getD (p + half) 0) (currentRoots c))
    else A.sub (vals.getD (p - half) 0) (A.mul (vals.getD p 0) (currentRoots (c - half))))

/-- The loop of `fft_special`, encode.py L88-101, at most `fuel` iterations. -/
def fwdLoopF (A : Arith) (m : Nat) (rg : List Nat) (nh : Nat) : Nat → Nat → List ℂ → List ℂ
  | 0, _, vals => vals
  | fuel + 1, length, vals =>
    if length ≤ nh then fwdLoopF A m rg nh fuel (length <<< 1) (fwdLayerF A m rg length vals) else vals

/-- `fft_special`, encode.py L66-101. -/
def fftSpecialF (A : Arith) (vals : List ℂ) (cyclOrder : Nat) : List ℂ :=
  let m := cyclOrder
  let nh := vals.length
  let rg := rotGroup m nh 5
  fwdLoopF A m rg nh nh 2 (bitReversalArray vals)

/-- `Encode.encode` up to the rounded coefficients, encode.py L147-153. -/
noncomputable def encodeCoeffsF (A : Arith) (degree : Nat) (scale : ℝ) (slots : List ℂ) : List ℤ :=
  let nh := degree / 2
  let y := if slots.length < nh then slots ++ List.replicate (nh - slots.length) 0 else slots
  let y := fftSpecialInvF A y (degree * 2)
  let coeffs := y.map Complex.re ++ y.map Complex.im
  coeffs.map (fun c => A.rint (A.rmul c scale))

/-- `Encode.encode`, encode.py L134-159. The remainder of an integer-valued double by a modulus is exact, see
`remFloat` and `C85_remainder`. -/
noncomputable def encodeF (A : Arith) (degree : Nat) (moduli : List Nat) (scale : ℝ) (slots : List ℂ) :
    Except String Plaintext := do
  let scaled := encodeCoeffsF A degree scale slots
  let data ← nttMat scaled.length moduli (residues moduli (fun p => scaled.getD p 0))
  pure { data := data, moduli := moduli }

open Classical in
/-- `c / self.scale` for a Python integer `c` and a float `self.scale`, encode.py L186-188: the integer is converted to
a double, then a zero divisor raises, then the doubles are divided. -/
noncomputable def divScale (A : Arith) (scale : ℝ) (c : ℤ) : Except String ℝ := do
  let a ← A.ofInt c
  if scale = 0 then .error "ZeroDivisionError" else pure (A.div a scale)

/-- `Decode.decode` from the coefficients on, encode.py L186-195. -/
noncomputable def decodeCoeffsF (A : Arith) (degree : Nat) (scale : ℝ) (numSlots : Nat) (coeffs : List ℤ) :
    Except String (List ℂ) := do
  let coeffs ← coeffs.mapM (divScale A scale)
  let nh := degree / 2
  let y : List ℂ := List.zipWith (fun (a b : ℝ) => (⟨a, b⟩ : ℂ)) (coeffs.take nh) (coeffs.drop nh)
  pure ((fftSpecialF A y (degree * 2)).take numSlots)

/-- `Decode.decode`, encode.py L171-195; `none` is an unset scale or slot number. -/
noncomputable def decodeF (A : Arith) (scaleSlots : Option (ℝ × Nat)) (degree : Nat) (pt : Plaintext) (isSlotForm : Bool) :
    Except String (List ℂ) :=
  match scaleSlots with
  | none => .error "ValueError"
  | some (scale, numSlots) => do
    let poly ← if isSlotForm then inttMat degree pt.moduli pt.data else pure pt.data
    let combined ← Crt.reconstructCrt
      ((List.range pt.moduli.length).map (fun i => (List.range degree).map (fun p => (poly i p : Int)))) pt.moduli
    let modulus := Crt.product pt.moduli
    decodeCoeffsF A degree scale numSlots (combined.map (Crt.centredLift modulus))

/-- What is assumed of the operations: relative errors `u` (one rounding), `w` (a complex product), an absolute error `ρ`
of the table of roots, an absolute error `η` for underflow, exact reciprocals of powers of two and integers below `2 ^ big`
converted without an exception. -/
structure Accurate (A : Arith) (u w ρ η : ℝ) (big : Nat) : Prop where
  u0 : 0 ≤ u
  w0 : 0 ≤ w
  rho0 : 0 ≤ ρ
  eta0 : 0 ≤ η
  add : ∀ a b, ‖A.add a b - (a + b)‖ ≤ u * ‖a + b‖ + η
  sub : ∀ a b, ‖A.sub a b - (a - b)‖ ≤ u * ‖a - b‖ + η
  mul : ∀ a b, ‖A.mul a b - a * b‖ ≤ w * (‖a‖ * ‖b‖) + η
  rmul : ∀ a b, |A.rmul a b - a * b| ≤ u * |a * b| + η
  div : ∀ a b, b ≠ 0 → |A.div a b - a / b| ≤ u * |a / b| + η
  recip : ∀ t, t ≤ 1000 → A.div 1 ((2 ^ t : Nat) : ℝ) = 1 / 2 ^ t
  ofInt : ∀ c : ℤ, |c| < 2 ^ big → ∃ r, A.ofInt c = .ok r ∧ |r - c| ≤ u * |(c : ℝ)|
  rint : ∀ x, |(A.rint x : ℝ) - x| ≤ 1 / 2
  root : ∀ m i, i < m → ‖A.root m i - unitRoot m ^ i‖ ≤ ρ

/-! ## One concrete arithmetic -/

/-- Rounding to the nearest integer, ties to the even one: `np.round` on doubles, and the rounding of significands. -/
noncomputable def rne (x : ℝ) : ℤ :=
  if Int.fract x < 1 / 2 then ⌊x⌋
  else if 1 / 2 < Int.fract x then ⌊x⌋ + 1
  else if ⌊x⌋ % 2 = 0 then ⌊x⌋ else ⌊x⌋ + 1

/-- The exponent of the last place of the double nearest to `x`: 52 below the leading bit, at least -1074. -/
noncomputable def ulpExp (x : ℝ) : ℤ := max (Int.log 2 |x| - 52) (-1074)

/-- IEEE 754 binary64 rounding to nearest, without the upper bound on the exponent. -/
noncomputable def fl (x : ℝ) : ℝ := rne (x / 2 ^ ulpExp x) * 2 ^ ulpExp x

/-- `2 ^ 1024 - 2 ^ 970`: integers from here on do not convert to a double (CPython `PyLong_AsDouble`). -/
def intLimit : ℤ := 2 ^ 1024 - 2 ^ 970

/-- Doubles with the textbook formulas for complex sums and products; the table of roots stays a parameter, since
`np.exp` is not specified exactly. -/
noncomputable def Arith.binary64 (root : Nat → Nat → ℂ) : Arith where
  add a b := ⟨fl (a.re + b.re), fl (a.im + b.im)⟩
  sub a b := ⟨fl (a.re - b.re), fl (a.im - b.im)⟩
  mul a b := ⟨fl (fl (a.re * b.re) - fl (a.im * b.im)), fl (fl (a.re * b.im) + fl (a.im * b.re))⟩
  rmul a b := fl (a * b)
  div a b := fl (a / b)
  ofInt c := if |c| < intLimit then .ok (fl c) else .error "OverflowError"
  rint := rne
  root := root

/-- `np.remainder` of doubles (`npy_divmod`) for an integer-valued `x` and a positive modulus, encode.py L155: the C
function `fmod`, which is exact and has the sign of `x`, then one rounded addition if the sign is wrong. -/
noncomputable def remFloat (x : ℤ) (m : Nat) : ℝ :=
  let r : ℝ := ((x.tmod m : ℤ) : ℝ)
  if r ≠ 0 ∧ r < 0 then fl (r + m) else r

end Verif.EncodeFloat
