import Verif.Model.EcField
import Verif.Model.Crt
import Mathlib.Algebra.Order.Floor.Ring
import Mathlib.Data.Rat.Floor

/-!
# The residue number system arithmetic of jaxite_ec (finite_field.py L657-976, util.py L443-628)

Lanes have fixed widths; every operation below reduces modulo the width the code uses.  One row of the batch is
modelled: every function is elementwise in the batch axis.
-/

namespace Verif.EcRns
open Verif.EcChunks

/-! ## Choice of the moduli and the import-time tables -/

/-- One of the two scanning loops of `find_moduli` (util.py L459-466, L471-478); `true` records the early return. -/
def findLoop (total init sh : Nat) : List Nat → List Nat × List Nat × Nat → Bool × (List Nat × List Nat × Nat)
  | [], st => (false, st)
  | i :: is, (ms, ts, prod) =>
    if Nat.gcd (init - i) prod = 1 then
      if total < prod * (init - i) then (true, (ms ++ [init - i], ts ++ [i <<< sh], prod * (init - i)))
      else findLoop total init sh is (ms ++ [init - i], ts ++ [i <<< sh], prod * (init - i))
    else findLoop total init sh is (ms, ts, prod)

/-- `find_moduli` (util.py L443-480; same body in algorithm/rns_mod_reduce.py L26-52): the moduli and their
offsets. -/
def findModuli (total precision : Nat) : List Nat × List Nat :=
  let is := List.range (2 ^ (precision >>> 1) - 1)
  let r := findLoop total (2 ^ precision) 0 is ([], [], 1)
  if r.1 then (r.2.1, r.2.2.1)
  else if r.2.2.2 < total then
    let s := findLoop total (2 ^ (precision - 1)) 1 is r.2
    (s.2.1, s.2.2.1)
  else (r.2.1, r.2.2.1)

/-- The bound handed to `find_moduli` (util.py L576). -/
def TOTAL : Nat := P * P * 256 * 256 * 50 * 50 * 4 * 2

/-- `overall_moduli` = `MODULI` (util.py L582, L614). -/
def MODULI : List Nat := (findModuli TOTAL 16).1
/-- `overall_constant_offset` = `RNS_MODULI_T` (util.py L582, L615). -/
def RNS_T : List Nat := (findModuli TOTAL 16).2

/-- `M`, the product of the moduli (util.py L583-586). -/
def BIGM : Nat := Crt.product MODULI

/-- `icrt_factors` (util.py L591): the residues are non-negative, so they are kept as naturals; a failing
inverse would raise at import. -/
def FACTORS : List Nat :=
  match Crt.rnsPrecompute MODULI with
  | .ok l => l.map Int.toNat
  | .error _ => []

/-- `icrt_factors_byteshifted`, flattened (util.py L516-522). -/
def byteShifted (factors : List Nat) (numBytes M : Nat) : List Nat :=
  factors.flatMap fun f => (List.range numBytes).map fun b => (1 <<< (8 * b)) * f % M

/-- The two bytes of a `uint16`, little endian (`.view(uint8)`, util.py L564-566, finite_field.py L745). -/
def bytes (l : List Nat) : List Nat := l.flatMap fun v => [v % 256, v / 256 % 256]

/-- `math.ceil((chunk * fix_point) / overall_modulus)` (util.py L541-547).  Python divides the two integers to a
float; `rd` is that rounding. -/
def sqe (rd : ℚ → ℚ) (fix M chunk : Nat) : Int := ⌈rd (((chunk * fix : Nat) : ℚ) / (M : ℚ))⌉

/-- `rns_coefficients_precompute` (util.py L493-567): the stacked byte matrix and the correction row.  NumPy
raises `OverflowError` for a Python integer outside `uint16`. -/
def rnsCoefficients (rd : ℚ → ℚ) (factors moduli : List Nat) (numBytes precision M q : Nat) :
    Except String (List (List Nat) × List Nat) :=
  let sh := byteShifted factors numBytes M
  let rns := sh.map fun c => moduli.map fun m => c % q % m
  let sq := sh.map fun c => sqe rd (1 <<< precision) M c
  let cor := moduli.map fun m => ((-(M : Int)) % (q : Int)).toNat % m
  if rns.all (fun r => r.all (· < 65536)) ∧ sq.all (fun s => 0 ≤ s ∧ s < 65536) ∧ cor.all (· < 65536) then
    .ok (List.zipWith (fun r s => bytes r ++ bytes [Int.toNat s]) rns sq, cor)
  else .error "OverflowError"

/-- `construct_rns_matrix(q)` (util.py L603-606); `RNS_MAT` is the case `q = MODULUS_377_INT` (L593-600, L616). -/
def constructMatrix (rd : ℚ → ℚ) (q : Nat) : Except String (List (List Nat) × List Nat) :=
  rnsCoefficients rd FACTORS MODULI 2 16 BIGM q

/-- `MODULI_SUB` (util.py L125-128): evaluated with the first, literal list of moduli, which equals the computed one. -/
def MODULI_SUB : List Nat := MODULI.map fun m => (((512 * 50 * P * 4 : Nat) : Int) - 2 ^ 16).toNat % m

/-- `TWIST_D_RNS` (util.py L129). -/
def TWIST_D_RNS : List Nat := MODULI.map fun m => TWIST_D % m

/-! ## Limb operations -/

/-- One limb of `moduli_rns_red_internal_2u16` (finite_field.py L682-713). -/
def foldRed (t v : Nat) : Nat :=
  let u1 := v / 2 ^ 16 % 2 ^ 16
  let l1 := v % 2 ^ 16
  let i1 := (l1 + u1 * t % 2 ^ 32) % 2 ^ 32
  let u2 := i1 / 2 ^ 16 % 2 ^ 8
  let l2 := i1 % 2 ^ 16
  let i2 := (l2 + u2 * t % 2 ^ 16) % 2 ^ 32
  let u3 := i2 / 2 ^ 16 % 2 ^ 8
  let l3 := i2 % 2 ^ 16
  (l3 + u3 * t % 2 ^ 8) % 2 ^ 16

/-- One limb of `hardware_friendly_mod_reduce` (algorithm/rns_mod_reduce.py L55-77); the offsets are `uint16`, the
arithmetic `uint32`. -/
def hardwareReduce (t x : Nat) : Nat :=
  let r1 := (((x >>> 16) &&& 0xFFFF) * t % 2 ^ 32 + (x &&& 0xFFFF)) % 2 ^ 32
  let r2 := (((r1 >>> 16) &&& 0xFFFF) * t % 2 ^ 32 + (r1 &&& 0xFFFF)) % 2 ^ 32
  let r3 := (((r2 >>> 16) &&& 0xFFFF) * t % 2 ^ 32 + (r2 &&& 0xFFFF)) % 2 ^ 32
  r3 % 2 ^ 16

/-- One limb of the final folding of `add_sub_rns_var` (finite_field.py L959-969). -/
def foldAdd (t acc : Nat) : Nat :=
  let u1 := acc / 2 ^ 16 % 2 ^ 8
  let l1 := acc % 2 ^ 16
  let i1 := (u1 * t % 2 ^ 16 + l1) % 2 ^ 32
  let u2 := i1 / 2 ^ 16 % 2 ^ 8
  let l2 := i1 % 2 ^ 16
  (u2 * t % 2 ^ 8 + l2) % 2 ^ 16

/-- `negate_rns_for_var_add` (finite_field.py L862-887), one limb. -/
def negLimb (sub a : Nat) : Nat := ((2 ^ 16 - a % 2 ^ 16) % 2 ^ 16 + sub) % 2 ^ 32

/-- `negate_rns_for_var_add_zero_check` (finite_field.py L895-928), one limb. -/
def negLimbZ (sub a : Nat) : Nat :=
  ((2 ^ 16 - a % 2 ^ 16) % 2 ^ 16 + sub) % 2 ^ 32 * (if a % 2 ^ 16 ≠ 0 then 1 else 0) % 2 ^ 32

/-! ## Vector operations -/

/-- `moduli_rns_red_internal_2u16`. -/
def redInternal (vals : List Nat) : List Nat := List.zipWith foldRed RNS_T vals

/-- `mod_red_rns_2u16` (finite_field.py L722-764) with `n = num_moduli`, `precision = 16`. -/
def modRed (mat : List (List Nat) × List Nat) (n : Nat) (l : List Nat) : List Nat :=
  let c := matVec (2 * (n + 1)) (bytes l) mat.1
  let pairs := (List.range (n + 1)).map fun j => (c.getD (2 * j) 0 + (c.getD (2 * j + 1) 0 <<< 8) % 2 ^ 32) % 2 ^ 32
  let qe := pairs.getD n 0
  let k := (qe >>> 16) % 2 ^ 16
  redInternal (List.zipWith (fun r w => (r + k * w % 2 ^ 32) % 2 ^ 32) (pairs.take n) mat.2)

/-- `mul_unreduced_rns_2u16` (finite_field.py L768-779). -/
def mulUnreduced (a b : List Nat) : List Nat := redInternal (List.zipWith (fun x y => x * y % 2 ^ 32) a b)

/-- `mod_mul_rns_2u16` (finite_field.py L783-806). -/
def modMul (mat : List (List Nat) × List Nat) (a b : List Nat) : List Nat := modRed mat 50 (mulUnreduced a b)

/-- `negate_rns_for_var_add`. -/
def negate (a : List Nat) : List Nat := List.zipWith negLimb MODULI_SUB a
/-- `negate_rns_for_var_add_zero_check`. -/
def negateZ (a : List Nat) : List Nat := List.zipWith negLimbZ MODULI_SUB a

/-- The accumulation and folding of `add_sub_rns_var` (finite_field.py L952-969) after its assertions; `v` is the
first operand. -/
def addSubVals (v : List Nat) (vs : List (List Nat)) : List Nat :=
  List.zipWith foldAdd RNS_T (vs.foldl (fun acc w => List.zipWith (fun x y => (x + y) % 2 ^ 32) w acc) v)

/-- `add_sub_rns_var` (finite_field.py L936-969). -/
def addSub : List (List Nat) → Except String (List Nat)
  | [] => .error "AssertionError"
  | v :: vs => if (v :: vs).length < 256 then .ok (addSubVals v vs) else .error "AssertionError"

/-- `add_rns_2u16` (finite_field.py L809-829): `add_sub_rns_var` with two operands. -/
def add2 (a b : List Nat) : List Nat := addSubVals a [b]
/-- `add_rns_3u16` (finite_field.py L832-854). -/
def add3 (a b c : List Nat) : List Nat := addSubVals a [b, c]

/-- `rns_constant` (finite_field.py L973-976). -/
def rnsConstant (c : Int) : Except String (List Nat) :=
  if 0 ≤ c ∧ c < 2 ^ 14 then .ok (List.replicate 50 c.toNat) else .error "AssertionError"

/-! ## Point formulas on residue vectors (elliptic_curve.py L606-893)

The code stacks several products into one call (`vstack`/`vsplit`); rows are independent, so they are written as
separate products. -/

/-- A packed point: four residue vectors. -/
abbrev Pt := List Nat × List Nat × List Nat × List Nat

/-- `padd_rns_twisted_pack` (elliptic_curve.py L771-830). -/
def paddTwisted (mat : List (List Nat) × List Nat) (p1 p2 : Pt) : Pt :=
  let (x1, y1, z1, t1) := p1
  let (x2, y2, z2, t2) := p2
  let a := modMul mat x1 x2
  let b := modMul mat y1 y2
  let d := modMul mat z1 z2
  let c := modMul mat t1 t2
  let e1 := add2 x1 y1
  let e2 := add2 x2 y2
  let e3 := modMul mat e1 e2
  let c := modMul mat c TWIST_D_RNS
  let e := addSubVals e3 [negateZ a, negateZ b]
  let f := addSubVals d [negateZ c]
  let g := add2 d c
  let h := add2 a b
  (modMul mat e f, modMul mat g h, modMul mat f g, modMul mat e h)

/-- `pdul_rns_twisted` (elliptic_curve.py L833-877). -/
def pdulTwisted (mat : List (List Nat) × List Nat) (p1 : Pt) : Pt :=
  let (x1, y1, z1, _) := p1
  let et := add2 x1 y1
  let a := modMul mat x1 x1
  let b := modMul mat y1 y1
  let ct := modMul mat z1 z1
  let et2 := modMul mat et et
  let e := addSubVals et2 [negate a, negate b]
  let g := addSubVals b [negate a]
  let f := addSubVals g [negate ct, negate ct]
  let h := addSubVals (negate a) [negate b]
  (modMul mat e f, modMul mat g h, modMul mat f g, modMul mat e h)

/-- `padd_rns_xyzz_pack` (elliptic_curve.py L604-685). -/
def paddXyzz (mat : List (List Nat) × List Nat) (p1 p2 : Pt) : Pt :=
  let (x1, y1, zz1, zzz1) := p1
  let (x2, y2, zz2, zzz2) := p2
  let u1 := modMul mat x1 zz2
  let s1 := modMul mat y1 zzz2
  let zz := modMul mat zz1 zz2
  let zzz := modMul mat zzz1 zzz2
  let u2 := modMul mat zz1 x2
  let s2 := modMul mat zzz1 y2
  let p := addSubVals u2 [negate u1]
  let r := addSubVals s2 [negate s1]
  let pp := modMul mat p p
  let rr := modMul mat r r
  let ppp := modMul mat p pp
  let q := modMul mat u1 pp
  let zz3 := modMul mat zz pp
  let x3 := addSubVals rr [negate ppp, negate q, negate q]
  let qx3 := addSubVals q [negate x3]
  let s1ppp := modMul mat s1 ppp
  let zzz3 := modMul mat zzz ppp
  let rqx3 := modMul mat r qx3
  (x3, addSubVals rqx3 [negate s1ppp], zz3, zzz3)

/-- `pdul_rns_xyzz` (elliptic_curve.py L688-755). -/
def pdulXyzz (mat : List (List Nat) × List Nat) (p1 : Pt) : Pt :=
  let (x1, y1, zz1, zzz1) := p1
  let u := add2 y1 y1
  let v := modMul mat u u
  let x1x1 := modMul mat x1 x1
  let w := modMul mat u v
  let s := modMul mat x1 v
  let m := add3 x1x1 x1x1 x1x1
  let mm := modMul mat m m
  let wy1 := modMul mat w y1
  let zz3 := modMul mat v zz1
  let zzz3 := modMul mat w zzz1
  let x3 := addSubVals mm [negate s, negate s]
  let sx3 := addSubVals s [negate mm, s, s]
  let msx3 := modMul mat m sx3
  (x3, addSubVals msx3 [negate wy1], zz3, zzz3)

/-- `rns_twist_zero` (elliptic_curve.py L892-896). -/
def twistZero : Except String Pt := do
  let a ← rnsConstant 0
  let b ← rnsConstant 1
  let c ← rnsConstant 1
  let d ← rnsConstant 0
  pure (a, b, c, d)

end Verif.EcRns
