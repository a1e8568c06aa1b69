import Verif.Model.EcField
import Mathlib.Algebra.Field.Defs

/-!
# Curve formulas of jaxite_ec

Two layers.

* The reference classes of jaxite_ec/algorithm/elliptic_curve.py, written over a type `F` with field operations.  The
  classes work on `FiniteFieldElement`; that its operators are those of the field is C63.  Division by zero gives zero
  in both (`0 ** (p - 2)`).
* The array functions of jaxite_ec/elliptic_curve.py on chunk lists (Barrett and lazy reduction).  The residue-number
  versions are in `Verif.Model.EcRns`.  The batch axis is not represented (every operation acts on rows), and the
  `_pack` wrappers only unpack the four coordinates.
-/

namespace Verif.EcCurve

open Verif.EcChunks

/-- Four coordinates. -/
abbrev Quad (α : Type _) := α × α × α × α
/-- Three coordinates. -/
abbrev Triple (α : Type _) := α × α × α

section Reference

variable {F : Type*} [Field F] [DecidableEq F]

/-! ## Affine class (algorithm/elliptic_curve.py L204-269) -/

/-- The coordinates computed by `ECCSWeierstrassAffine.add_general` (L217-219). -/
def affineAddCoords (x1 y1 x2 y2 : F) : F × F :=
  let slope := (y2 - y1) / (x2 - x1)
  let cx := slope * slope - x1 - x2
  (cx, slope * (x1 - cx) - y1)

/-- The coordinates computed by `ECCSWeierstrassAffine.double_general` (L223-227).  `x1 * x1 * 3` and `y1 * 2`
multiply a field element by a Python integer, for which `FiniteFieldElement.__mul__` has no case
(`int` has no attribute `prime`): the method raises (`EcPoint.doubleVals`), and this is what its text says it computes. -/
def affineDoubleCoords (a x1 y1 : F) : F × F :=
  let slope := (x1 * x1 * 3 + a) / (y1 * 2)
  let cx := slope * slope - x1 - x1
  (cx, slope * (x1 - cx) - y1)

/-! ## XYZZ class (algorithm/elliptic_curve.py L437-574) -/

/-- `ECCSWeierstrassXYZZ.add_general` (L478-496). -/
def xyzzAdd (p1 p2 : Quad F) : Quad F :=
  let (x1, y1, zz1, zzz1) := p1
  let (x2, y2, zz2, zzz2) := p2
  let u1 := x1 * zz2
  let u2 := x2 * zz1
  let s1 := y1 * zzz2
  let s2 := y2 * zzz1
  let p := u2 - u1
  let r := s2 - s1
  let pp := p * p
  let ppp := p * pp
  let q := u1 * pp
  let x3 := r * r - ppp - (q + q)
  let y3 := r * (q - x3) - s1 * ppp
  let zz3 := zz1 * zz2 * pp
  let zzz3 := zzz1 * zzz2 * ppp
  (x3, y3, zz3, zzz3)

/-- `ECCSWeierstrassXYZZ.double_general` (L498-522). -/
def xyzzDouble (a : F) (p1 : Quad F) : Quad F :=
  let (x1, y1, zz1, zzz1) := p1
  let u := y1 + y1
  let v := u * u
  let w := u * v
  let s := x1 * v
  let x1sq := x1 * x1
  let m := (x1sq + x1sq + x1sq) + a * (zz1 * zz1)
  let x3 := m * m - (s + s)
  let y3 := m * (s - x3) - w * y1
  let zz3 := v * zz1
  let zzz3 := w * zzz1
  (x3, y3, zz3, zzz3)

/-- `ECCSWeierstrassXYZZ.point_add` (L524-536); `none` is the flagged zero point, equality compares the stored
coordinates. -/
def xyzzPointAdd (a : F) (p q : Option (Quad F)) : Option (Quad F) :=
  match p, q with
  | p, none => p
  | none, q => q
  | some p, some q => if p = q then some (xyzzDouble a p) else some (xyzzAdd p q)

/-- `ECCSWeierstrassXYZZ.point_lshift` (L538-544), also reached from `ECPoint.__lshift__` (L74-77). -/
def xyzzShift (a : F) (p : Option (Quad F)) (n : Nat) : Option (Quad F) :=
  match p with
  | none => none
  | some p => some ((xyzzDouble a)^[n] p)

/-- `ECCSWeierstrassXYZZ.convert_to_affine` (L559-574). -/
def xyzzToAffine (p : Option (Quad F)) : Option (Quad F) :=
  p.map fun q =>
    let a := 1 / q.2.2.2
    let b := q.2.2.1 * a
    let bsq := b * b
    (q.1 * bsq, q.2.1 * a, 1, 1)

/-! ## Projective class (algorithm/elliptic_curve.py L272-434) -/

/-- The formula part of `ECCSWeierstrassProjective.add_z2_eq_1` (L303-313): the second point has `z = 1`. -/
def projMadd (p1 : Triple F) (x2 y2 : F) : Triple F :=
  let (x1, y1, z1) := p1
  let u := y2 * z1 - y1
  let uu := u * u
  let v := x2 * z1 - x1
  let vv := v * v
  let vvv := v * vv
  let r := vv * x1
  let a := uu * z1 - vvv - (r + r)
  let x3 := v * a
  let y3 := u * (r - a) - vvv * y1
  let z3 := vvv * z1
  (x3, y3, z3)

/-- `add_z2_eq_1` (L293-313). -/
def projAddZ1 (p q : Triple F) : Except String (Triple F) :=
  if q.2.2 = 1 then .ok (projMadd p q.1 q.2.1)
  else if p.2.2 = 1 then .ok (projMadd q p.1 p.2.1)
  else .error "NotImplementedError"

/-- `ECCSWeierstrassProjective.add_general` (L315-358). -/
def projAdd (a b : F) (p1 p2 : Triple F) : Triple F :=
  let (x1, y1, z1) := p1
  let (x2, y2, z2) := p2
  let b3 := b * 3
  let t0 := x1 * x2
  let t1 := y1 * y2
  let t2 := z1 * z2
  let t3 := (x1 + y1) * (x2 + y2)
  let t4 := t0 + t1
  let t3 := t3 - t4
  let t4 := (x1 + z1) * (x2 + z2)
  let t5 := t0 + t2
  let t4 := t4 - t5
  let t5 := (y1 + z1) * (y2 + z2)
  let x3 := t1 + t2
  let t5 := t5 - x3
  let z3 := a * t4
  let x3 := b3 * t2
  let z3 := x3 + z3
  let x3 := t1 - z3
  let z3 := t1 + z3
  let y3 := x3 * z3
  let t1 := t0 + t0
  let t1 := t1 + t0
  let t2 := a * t2
  let t4 := b3 * t4
  let t1 := t1 + t2
  let t2 := t0 - t2
  let t2 := a * t2
  let t4 := t4 + t2
  let t0 := t1 * t4
  let y3 := y3 + t0
  let t0 := t5 * t4
  let x3 := t3 * x3
  let x3 := x3 - t0
  let t0 := t3 * t1
  let z3 := t5 * z3
  let z3 := z3 + t0
  (x3, y3, z3)

/-- `ECCSWeierstrassProjective.double_general` (L360-380). -/
def projDouble (a : F) (p1 : Triple F) : Triple F :=
  let (x1, y1, z1) := p1
  let xx := x1 * x1
  let zz := z1 * z1
  let w := a * zz + xx * 3
  let s := y1 * z1 * 2
  let ss := s * s
  let sss := s * ss
  let r := y1 * s
  let rr := r * r
  let b := (x1 + r) * (x1 + r) - xx - rr
  let h := w * w - b * 2
  let x3 := h * s
  let y3 := w * (b - h) - rr * 2
  let z3 := sss
  (x3, y3, z3)

/-- `ECCSWeierstrassProjective.point_add` (L382-396). -/
def projPointAdd (a b : F) (p q : Option (Triple F)) : Except String (Option (Triple F)) :=
  match p, q with
  | p, none => .ok p
  | none, q => .ok q
  | some p, some q =>
    if p = q then .ok (some (projDouble a p))
    else if p.2.2 = 1 ∨ q.2.2 = 1 then (projAddZ1 p q).map some
    else .ok (some (projAdd a b p q))

/-- `ECCSWeierstrassProjective.point_lshift` (L398-404). -/
def projShift (a : F) (p : Option (Triple F)) (n : Nat) : Option (Triple F) :=
  match p with
  | none => none
  | some p => some ((projDouble a)^[n] p)

/-- `ECCSWeierstrassProjective.convert_to_affine` (L422-434). -/
def projToAffine (p : Option (Triple F)) : Option (Triple F) :=
  p.map fun q =>
    let zi := 1 / q.2.2
    (q.1 * zi, q.2.1 * zi, 1)

/-! ## Twisted Edwards class (algorithm/elliptic_curve.py L577-765) -/

/-- The constants read in `ECCSTwistedEdwardsExtended.__init__` (L580-590); `a` and `k` are not used by any
formula. -/
structure TwCfg (F : Type*) where
  d : F
  alpha : F
  s : F
  ma : F
  mb : F
  t : F

/-- `point_add` (L630-650); the zero flag is ignored, a zero point carries the coordinates of `zero()`. -/
def edAdd (d : F) (p1 p2 : Quad F) : Quad F :=
  let (x1, y1, z1, t1) := p1
  let (x2, y2, z2, t2) := p2
  let a := x1 * x2
  let b := y1 * y2
  let c := d * t1 * t2
  let dd := z1 * z2
  let h := b + a
  let e := (x1 + y1) * (x2 + y2) - h
  let f := dd - c
  let g := dd + c
  (e * f, g * h, f * g, e * h)

/-- `double_general` (L652-670). -/
def edDouble (p1 : Quad F) : Quad F :=
  let (x1, y1, z1, _) := p1
  let a := x1 * x1
  let b := y1 * y1
  let ct := z1 * z1
  let h := 0 - a - b
  let et := x1 + y1
  let e := et * et + h
  let g := b - a
  let f := g - ct - ct
  (e * f, g * h, f * g, e * h)

/-- `point_lshift` (L672-678) for a point that is not flagged zero. -/
def edShift (p : Quad F) (n : Nat) : Quad F := edDouble^[n] p

/-- `twist` (L680-697); `none` is Python's `None`. -/
def twist (c : TwCfg F) (p : F × F) : Option (F × F) :=
  let (x, y) := p
  let xm := c.s * (x - c.alpha)
  let ym := c.s * y
  if ym = 0 then none
  else
    let xt := xm / ym
    let den := xm + 1
    if den = 0 then none
    else
      let yt := (xm - 1) / den
      some (xt * c.t, yt)

/-- `untwist` (L699-712). -/
def untwist (c : TwCfg F) (p : F × F) : F × F :=
  let (xt, yt) := p
  let xt := xt / c.t
  let xm := (1 + yt) / (1 - yt)
  let ym := (1 + yt) / ((1 - yt) * xt)
  let x := xm / c.mb + c.ma / (3 * c.mb)
  let y := ym / c.mb
  (x, y)

/-- `zero` (L740-741). -/
def edZero : Quad F := (0, 1, 1, 0)

/-- `generate_formal_coordinates` (L608-628) for two or four coordinates. -/
def edFormal (p : F × F) : Quad F := (p.1, p.2, 1, p.1 * p.2)

/-- `generate_point(coordinates)` (L592-606) with two Weierstrass coordinates and the default `twist=True`: a `None`
from `twist` makes `len(None)` fail. -/
def edGenerate (c : TwCfg F) (p : F × F) : Except String (Quad F) :=
  match twist c p with
  | none => .error "TypeError"
  | some q => .ok (edFormal q)

/-- `convert_to_twisted_edwards_affine` (L718-732), the first two coordinates. -/
def edToEdAffine (p : Quad F) : F × F :=
  let (x, y, z, _) := p
  let zi := 1 / z
  (x * zi, y * zi)

/-- `convert_to_affine` (L734-738), the first two coordinates. -/
def edToAffine (c : TwCfg F) (p : Quad F) : F × F := untwist c (edToEdAffine p)

/-- `twist_int_coordinates` (L743-752), as field elements. -/
def twistIntCoordinates (c : TwCfg F) (p : F × F) : Quad F :=
  match twist c p with
  | none => (0, 1, 1, 0)
  | some q => edFormal q

/-- `twist_projective` (L754-765). -/
def twistProjective (c : TwCfg F) (p : Triple F) : Triple F :=
  let (x, y, z) := p
  let xm := c.s * (x - c.alpha)
  let ym := c.s * y
  let zt := z * ym * (xm + 1)
  let xt := xm * (xm + 1)
  let yt := (xm - 1) * ym
  let xt := xt * c.t
  (xt, yt, zt)

end Reference

/-! ## Configuration (algorithm/config_file.py L3-46) -/

/-- `config_BLS12_377['order']` (L6). -/
def ORDER : Nat := 0x12AB655E9A2CA55660B44D1E5C37B00159AA76FED00000010A11800000000001
/-- `config_BLS12_377['generator']` (L9-12). -/
def GEN_X : Nat := 0x008848DEFE740A67C8FC6225BF87FF5485951E2CAA9D41BB188282C8BD37CB5CD5481512FFCD394EEAB9B16EB21BE9EF
@[inherit_doc GEN_X]
def GEN_Y : Nat := 0x01914A69C5102EFF1F674F5D30AFEEC4BD7FB348CA3E52D96D182AD44FB82305C2FE3D3634A9591AFD82DE55559C8EA6

/-- `config_BLS12_377_t` (L16-46) as field elements.  The class stores `alpha = -1` without reducing it; every use is
a subtraction that reduces. -/
def blsTwist {F : Type*} [Field F] : TwCfg F where
  d := ((122268283598675559488486339158635529096981886914877139579534153582033676785385790730042363341236035746924960903179 : Nat) : F)
  alpha := -1
  s := ((10189023633222963290707194929886294091415157242906428298294512798502806398782149227503530278436336312243746741931 : Nat) : F)
  ma := ((228097355113300204138531148905234651262148041026195375645000724271212049151994375092458297304264351187709081232384 : Nat) : F)
  mb := ((10189023633222963290707194929886294091415157242906428298294512798502806398782149227503530278436336312243746741931 : Nat) : F)
  t := ((23560188534917577818843641916571445935985386319233886518929971599490231428764380923487987729215299304184915158756 : Nat) : F)

/-! ## Array functions with Barrett reduction (elliptic_curve.py L44-161), 24 chunks -/

/-- `padd_barret_xyzz` (L44-107). -/
def paddBarrettXyzz (p1 p2 : Quad (List Nat)) : Quad (List Nat) :=
  let (x1, y1, zz1, zzz1) := p1
  let (x2, y2, zz2, zzz2) := p2
  let u1 := modMulBarrett x1 zz2
  let u2 := modMulBarrett x2 zz1
  let s1 := modMulBarrett y1 zzz2
  let s2 := modMulBarrett y2 zzz1
  let zz := modMulBarrett zz1 zz2
  let zzz := modMulBarrett zzz1 zzz2
  let p := condSub 24 P_CHUNK u2 u1
  let r := condSub 24 P_CHUNK s2 s1
  let pp := modMulBarrett p p
  let rr := modMulBarrett r r
  let ppp := modMulBarrett pp p
  let q := modMulBarrett u1 pp
  let zz3 := modMulBarrett zz pp
  let pppq2 := add3 ppp q q
  let pppq2 := condSubMod 24 P_CHUNK pppq2
  let pppq2 := condSubMod 24 P_CHUNK pppq2
  let x3 := condSub 24 P_CHUNK rr pppq2
  let qx3 := condSub 24 P_CHUNK q x3
  let s1ppp := modMulBarrett s1 ppp
  let zzz3 := modMulBarrett zzz ppp
  let y3 := modMulBarrett r qx3
  let y3 := condSub 24 P_CHUNK y3 s1ppp
  (x3, y3, zz3, zzz3)

/-- `pdul_barret_xyzz` (L111-161). -/
def pdulBarrettXyzz (p1 : Quad (List Nat)) : Quad (List Nat) :=
  let (x1, y1, zz1, zzz1) := p1
  let u := add2 y1 y1
  let u := condSubMod 24 P_CHUNK u
  let x1x1 := modMulBarrett x1 x1
  let v := modMulBarrett u u
  let w := modMulBarrett u v
  let s := modMulBarrett x1 v
  let s2 := add2 s s
  let s2 := condSubMod 24 P_CHUNK s2
  let m := add3 x1x1 x1x1 x1x1
  let m := condSubMod 24 P_CHUNK m
  let m := condSubMod 24 P_CHUNK m
  let mm := modMulBarrett m m
  let wy1 := modMulBarrett w y1
  let zz3 := modMulBarrett v zz1
  let zzz3 := modMulBarrett w zzz1
  let x3 := condSub 24 P_CHUNK mm s2
  let sx3 := condSub 24 P_CHUNK s x3
  let y3 := modMulBarrett m sx3
  let y3 := condSub 24 P_CHUNK y3 wy1
  (x3, y3, zz3, zzz3)

/-! ## Array functions with lazy reduction (elliptic_curve.py L216-569), 25 chunks

`cond_sub_2u16_ext` and `cond_sub_mod_u16_ext` use the shifted modulus `p << 16`. -/

/-- `padd_lazy_xyzz` (L216-292). -/
def paddLazyXyzz (p1 p2 : Quad (List Nat)) : Quad (List Nat) :=
  let (x1, y1, zz1, zzz1) := p1
  let (x2, y2, zz2, zzz2) := p2
  let u1 := modMulLazy x1 zz2
  let u2 := modMulLazy x2 zz1
  let s1 := modMulLazy y1 zzz2
  let s2 := modMulLazy y2 zzz1
  let zz := modMulLazy zz1 zz2
  let zzz := modMulLazy zzz1 zzz2
  let p := condSub 25 P_S16_CHUNK u2 u1
  let r := condSub 25 P_S16_CHUNK s2 s1
  let pp := modMulLazy p p
  let rr := modMulLazy r r
  let ppp := modMulLazy pp p
  let q := modMulLazy u1 pp
  let zz3 := modMulLazy zz pp
  let pppq2 := add3 ppp q q
  let pppq2 := condSubMod 25 P_S16_CHUNK pppq2
  let pppq2 := condSubMod 25 P_S16_CHUNK pppq2
  let x3 := condSub 25 P_S16_CHUNK rr pppq2
  let qx3 := condSub 25 P_S16_CHUNK q x3
  let s1ppp := modMulLazy s1 ppp
  let zzz3 := modMulLazy zzz ppp
  let y3 := modMulLazy r qx3
  let y3 := condSub 25 P_S16_CHUNK y3 s1ppp
  (x3, y3, zz3, zzz3)

/-- `pdul_lazy_xyzz` (L295-359). -/
def pdulLazyXyzz (p1 : Quad (List Nat)) : Quad (List Nat) :=
  let (x1, y1, zz1, zzz1) := p1
  let u := add2 y1 y1
  let u := condSubMod 25 P_S16_CHUNK u
  let x1x1 := modMulLazy x1 x1
  let v := modMulLazy u u
  let w := modMulLazy u v
  let s := modMulLazy x1 v
  let s2 := add2 s s
  let s2 := condSubMod 25 P_S16_CHUNK s2
  let m := add3 x1x1 x1x1 x1x1
  let m := condSubMod 25 P_S16_CHUNK m
  let m := condSubMod 25 P_S16_CHUNK m
  let mm := modMulLazy m m
  let wy1 := modMulLazy w y1
  let zz3 := modMulLazy v zz1
  let zzz3 := modMulLazy w zzz1
  let x3 := condSub 25 P_S16_CHUNK mm s2
  let sx3 := condSub 25 P_S16_CHUNK s x3
  let y3 := modMulLazy m sx3
  let y3 := condSub 25 P_S16_CHUNK y3 wy1
  (x3, y3, zz3, zzz3)

/-- `padd_lazy_twisted` (L387-463) with the default constant `d`. -/
def paddLazyTwisted (p1 p2 : Quad (List Nat)) : Quad (List Nat) :=
  let (x1, y1, z1, t1) := p1
  let (x2, y2, z2, t2) := p2
  let a := modMulLazy x1 x2
  let b := modMulLazy y1 y2
  let d := modMulLazy z1 z2
  let c := modMulLazy t1 t2
  let c := modMulLazy c TWIST_D_CHUNK
  let h := add2 a b
  let h := condSubMod 25 P_S16_CHUNK h
  let e1 := add2 x1 y1
  let e1 := condSubMod 25 P_S16_CHUNK e1
  let e2 := add2 x2 y2
  let e2 := condSubMod 25 P_S16_CHUNK e2
  let e := modMulLazy e1 e2
  let e := condSub 25 P_S16_CHUNK e h
  let f := condSub 25 P_S16_CHUNK d c
  let g := add2 d c
  let g := condSubMod 25 P_S16_CHUNK g
  (modMulLazy e f, modMulLazy g h, modMulLazy f g, modMulLazy e h)

/-- `pdul_lazy_twisted` (L466-527); the sum `a + b` is not reduced before it is subtracted from the modulus. -/
def pdulLazyTwisted (p1 : Quad (List Nat)) : Quad (List Nat) :=
  let (x1, y1, z1, _) := p1
  let a := modMulLazy x1 x1
  let b := modMulLazy y1 y1
  let ct := modMulLazy z1 z1
  let ct2 := add2 ct ct
  let ct2 := condSubMod 25 P_S16_CHUNK ct2
  let h := add2 a b
  let h := condSub 25 P_S16_CHUNK P_S16_CHUNK h
  let et := add2 x1 y1
  let et := condSubMod 25 P_S16_CHUNK et
  let e := modMulLazy et et
  let e := add2 e h
  let e := condSubMod 25 P_S16_CHUNK e
  let g := condSub 25 P_S16_CHUNK b a
  let f := condSub 25 P_S16_CHUNK g ct2
  (modMulLazy e f, modMulLazy g h, modMulLazy f g, modMulLazy e h)

/-- `pneg_lazy_twisted` (L530-570). -/
def pnegLazyTwisted (p1 : Quad (List Nat)) : Quad (List Nat) :=
  let (x1, y1, z1, t1) := p1
  (sub2 25 P_S16_CHUNK x1, y1, z1, sub2 25 P_S16_CHUNK t1)

end Verif.EcCurve
