import Verif.Model.BitReversal
import Verif.Model.CkksKeys
import Mathlib.Analysis.SpecialFunctions.Complex.CircleAddChar

/-!
# Model of `jaxite/jaxite_ckks/encode.py`

Double-precision complex numbers are replaced by an exact field `K` (the complex numbers in `encode` and `decode`), so
floating-point rounding is not part of the model. `np.round` is a parameter `rnd`. The transforms are modelled for
every vector length; for a length that is not a power of two `reshape` raises in Python, which is not modelled (the
theorems are about powers of two).
-/

namespace Verif.Encode
open Verif.BitReversal Verif.CkksKeys

section transform
variable {K : Type} [Field K]

/-- `_roots(m)[i]`, encode.py L15-16, where `zeta` stands for `exp(2j * pi / m)`. -/
def root (zeta : K) (i : Nat) : K := zeta ^ i

/-- `_rot_group`, encode.py L19-23. -/
def rotGroup (m nh g : Nat) : List Nat :=
  (List.range (nh - 1)).foldl (fun r _ => r ++ [(r.getLastD 0 * g) % m]) [1]

/-- The body of the loop of `fft_special_inv`, encode.py L48-60: `reshape(-1, length)` puts entry `p` in column
`p % length`. -/
def invLayer (zeta : K) (m : Nat) (rg : List Nat) (length : Nat) (vals : List K) : List K :=
  let half := length >>> 1
  let lenq := length <<< 2
  let step := m / lenq
  let currentRoots := fun j => root zeta (((lenq - rg.getD j 0 % lenq) % lenq) * step)
  (List.range vals.length).map (fun p =>
    let c := p % length
    if c < half then vals.getD p 0 + vals.getD (p + half) 0
    else (vals.getD (p - half) 0 - vals.getD p 0) * currentRoots (c - half))

/-- The loop of `fft_special_inv`, encode.py L47-60, at most `fuel` iterations. -/
def invLoop (zeta : K) (m : Nat) (rg : List Nat) : Nat → Nat → List K → List K
  | 0, _, vals => vals
  | fuel + 1, length, vals =>
    if length ≥ 2 then invLoop zeta m rg fuel (length >>> 1) (invLayer zeta m rg length vals) else vals

/-- `fft_special_inv`, encode.py L26-63. The loop has at most `nh` iterations. -/
def fftSpecialInv (zeta : K) (vals : List K) (cyclOrder : Nat) : List K :=
  let m := cyclOrder
  let nh := vals.length
  let rg := rotGroup m nh 5
  let vals := invLoop zeta m rg nh nh vals
  bitReversalArray (vals.map (fun x => x * (1 / (nh : K))))

/-- The body of the loop of `fft_special`, encode.py L89-100. -/
def fwdLayer (zeta : K) (m : Nat) (rg : List Nat) (length : Nat) (vals : List K) : List K :=
  let half := length >>> 1
  let lenq := length <<< 2
  let step := m / lenq
  let currentRoots := fun j => root zeta ((rg.getD j 0 % lenq) * step)
  (List.range vals.length).map (fun p =>
    let c := p % length
    if c < half then vals.getD p 0 + vals.getD (p + half) 0 * currentRoots c
    else vals.getD (p - half) 0 - vals.getD p 0 * currentRoots (c - half))

/-- The loop of `fft_special`, encode.py L88-101, at most `fuel` iterations. -/
def fwdLoop (zeta : K) (m : Nat) (rg : List Nat) (nh : Nat) : Nat → Nat → List K → List K
  | 0, _, vals => vals
  | fuel + 1, length, vals =>
    if length ≤ nh then fwdLoop zeta m rg nh fuel (length <<< 1) (fwdLayer zeta m rg length vals) else vals

/-- `fft_special`, encode.py L66-101. -/
def fftSpecial (zeta : K) (vals : List K) (cyclOrder : Nat) : List K :=
  let m := cyclOrder
  let nh := vals.length
  let rg := rotGroup m nh 5
  fwdLoop zeta m rg nh nh 2 (bitReversalArray vals)

end transform

/-- `exp(2j * pi / m)`. -/
noncomputable def unitRoot (m : Nat) : ℂ := Complex.exp (2 * Real.pi * Complex.I / m)

/-- `Encode.encode` up to the rounded integer coefficients, encode.py L147-153. -/
noncomputable def encodeCoeffs (rnd : ℝ → ℤ) (degree : Nat) (scale : ℝ) (slots : List ℂ) : List ℤ :=
  let nh := degree / 2
  let y := if slots.length < nh then slots ++ List.replicate (nh - slots.length) 0 else slots
  let y := fftSpecialInv (unitRoot (degree * 2)) y (degree * 2)
  let coeffs := y.map Complex.re ++ y.map Complex.im
  coeffs.map (fun c => rnd (c * scale))

/-- `Encode.encode`, encode.py L134-159. The degree handed to the transform is the number of coefficients. -/
noncomputable def encode (rnd : ℝ → ℤ) (degree : Nat) (moduli : List Nat) (scale : ℝ) (slots : List ℂ) :
    Except String Plaintext := do
  let scaled := encodeCoeffs rnd degree scale slots
  let data ← nttMat scaled.length moduli (residues moduli (fun p => scaled.getD p 0))
  pure { data := data, moduli := moduli }

/-- `Decode.decode` from the coefficients on, encode.py L181-195: `rows` are the residues per modulus. -/
noncomputable def decodeCoeffs (degree : Nat) (scale : ℝ) (numSlots : Nat) (coeffs : List ℤ) : List ℂ :=
  let coeffs := coeffs.map (fun (c : ℤ) => (c : ℝ) / scale)
  let nh := degree / 2
  let y : List ℂ := List.zipWith (fun (a b : ℝ) => (a : ℂ) + Complex.I * (b : ℂ)) (coeffs.take nh) (coeffs.drop nh)
  (fftSpecial (unitRoot (degree * 2)) y (degree * 2)).take numSlots

/-- `Decode.decode`, encode.py L171-195; `none` is an unset scale or slot number. -/
noncomputable def decode (scaleSlots : Option (ℝ × Nat)) (degree : Nat) (pt : Plaintext) (isSlotForm : Bool) :
    Except String (List ℂ) :=
  match scaleSlots with
  | none => .error "ValueError"
  | some (scale, numSlots) => do
    let poly ← if isSlotForm then inttMat degree pt.moduli pt.data else pure pt.data
    let combined ← Crt.reconstructCrt
      ((List.range pt.moduli.length).map (fun i => (List.range degree).map (fun p => (poly i p : Int)))) pt.moduli
    let modulus := Crt.product pt.moduli
    pure (decodeCoeffs degree scale numSlots (combined.map (Crt.centredLift modulus)))

end Verif.Encode
