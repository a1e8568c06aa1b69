import Verif.Model.EcCurve
import Verif.Model.EcRns

/-!
# Batched packs of jaxite_ec: the batch axis of finite_field.py and elliptic_curve.py, and the conversions of util.py

A pack is a three-dimensional array (coordinate, point of the batch, chunk).  Every function of elliptic_curve.py is
called with packs; the carry loops run over the whole batch until no row has a carry left, the comparisons select per
row, and the residue versions stack several products into one array and split the result again.  The models in
`Verif.Model.EcField`, `Verif.Model.EcCurve` and `Verif.Model.EcRns` follow one row; here the batch axis is written out.

Not represented: dtypes of the packs (entries are uint16 in every call) and empty batches given directly as arrays
(`reshape(0, -1)`, finite_field.py L427, depends on the jax version); the conversions below reject them.
-/

namespace Verif.EcBatch
open Verif.EcChunks Verif.EcCurve Verif.EcRns

/-- A two-dimensional array (batch, chunk). -/
abbrev Arr2 := List (List Nat)
/-- A three-dimensional array. -/
abbrev Arr3 := List (List (List Nat))

/-! ## finite_field.py on batches -/

/-- Broadcasting of a one-dimensional array against a batch of `b` rows. -/
def bcast (b : Nat) (c : List Nat) : Arr2 := List.replicate b c

/-- Lane-wise `jnp.add` of two rows as uint32. -/
def addRow (a b : List Nat) : List Nat := List.zipWith (fun x y => (x + y) % 2 ^ 32) a b

/-- `compare_u16` (finite_field.py L197-220) on a batch: one number per row. -/
def compareB (a b : Arr2) : List Int := List.zipWith compare a b

/-- `add_2u16` (finite_field.py L223-238). -/
def add2B (a b : Arr2) : Arr2 := (carryLoopBatch 16 (List.zipWith addRow a b)).map fun r => r.map (· % 2 ^ 16)

/-- `add_3u16` (finite_field.py L243-254). -/
def add3B (a b d : Arr2) : Arr2 :=
  (carryLoopBatch 16 (List.zipWith addRow (List.zipWith addRow a b) d)).map fun r => r.map (· % 2 ^ 16)

/-- `sub_2u16` (finite_field.py L259-297), two-dimensional branch. -/
def sub2B (n : Nat) (a b : Arr2) : Arr2 :=
  let borrowHigh := [0] ++ List.replicate (n - 2) 1 ++ [0]
  let borrowLow := List.replicate (n - 1) (2 ^ 16) ++ [0]
  let va := a.map fun r => addRow r borrowLow
  let vc := (List.zipWith (fun r s => List.zipWith sub32 r s) va b).map fun r => List.zipWith sub32 r borrowHigh
  let vc := carryLoopBatch 16 vc
  vc.map fun r => (r.modify (n - 1) fun v => sub32 v 1).map (· % 2 ^ 16)

/-- `jnp.where` with a condition of shape `(batch, 1)`. -/
def whereRows (cond : List Bool) (a b : Arr2) : Arr2 :=
  List.zipWith (fun c t => if c then t.1 else t.2) cond (List.zip a b)

/-- `cond_sub_mod_u16` (finite_field.py L300-329): the difference is computed for every row and selected afterwards. -/
def condSubModB (n : Nat) (m : List Nat) (a : Arr2) : Arr2 :=
  let cond := compareB a (bcast a.length m)
  let b := sub2B n a (bcast a.length m)
  whereRows (cond.map fun c => decide (c ≥ 0)) b a

/-- `cond_sub_2u16` (finite_field.py L332-368). -/
def condSubB (n : Nat) (m : List Nat) (a b : Arr2) : Arr2 :=
  let cond := compareB a b
  let ap := a.map fun r => addRow r m
  sub2B n (whereRows (cond.map fun c => decide (c ≥ 0)) a ap) b

/-- The common part of `mul_2u16` and `mul_shift_2u16x2x1`: `jax.vmap(conv_1d_2u16xn)` over the rows, padding,
`rechunkify` (L160-192, acting on the last axis), the carry loop over the whole batch, cast to uint32. -/
def mulCoreB (a b : Arr2) : Arr2 :=
  (carryLoopBatch 32 ((List.zipWith (fun r s => conv (split 256 2 r) (split 256 2 s)) a b).map rechunkify)).map
    fun r => r.map (· % 2 ^ 32)

/-- `mul_2u16` (finite_field.py L382-428) with uint16 output.  With `vmap_axes=(0, None)` the second operand is a
one-dimensional constant, given here by `bcast`. -/
def mul2B (n : Nat) (a b : Arr2) : Arr2 := (mulCoreB a b).map fun r => (split (2 ^ 16) 2 r).take (2 * n)

/-- `mul_2u16` with uint8 output. -/
def mul2u8B (n : Nat) (a b : Arr2) : Arr2 := (mulCoreB a b).map fun r => (split 256 4 r).take (4 * n)

/-- `mul_shift_2u16x2x1` (finite_field.py L441-489). -/
def mulShiftB (shift n : Nat) (a b : Arr2) : Arr2 :=
  (mulCoreB a b).map fun r => (joinPairs ((split 256 4 r).drop shift ++ [0])).take n

/-- `mod_mul_barrett_2u16` (finite_field.py L492-538). -/
def modMulBarrettB (a b : Arr2) : Arr2 :=
  let x := mul2B 24 a b
  let d := mulShiftB 95 24 x (bcast x.length MU_CHUNK)
  let e := mul2B 24 d (bcast d.length P_CHUNK)
  let t := sub2B 48 x e
  condSubModB 24 P_CHUNK (t.map (·.take 24))

/-- `mod_mul_lazy_2u16` (finite_field.py L594-654). -/
def modMulLazyB (a b : Arr2) : Arr2 :=
  let v := mul2u8B 25 a b
  let reduced := v.map fun r => matVec 48 (r.drop 48) LAZY_MAT
  let r := List.zipWith (fun x y => addRow (x.take 48) y) v reduced
  let carried := carryLoopBatch 32 (r.map fun x => rechunkify x ++ [0])
  carried.map fun x => (split (2 ^ 16) 2 (x.map (· % 2 ^ 32))).take 25

/-! ## elliptic_curve.py on batches: chunks -/

/-- `p[i]` on the first axis. -/
def at0 (p : Arr3) (i : Nat) : Arr2 := p.getD i []
/-- `p[:, i]`. -/
def at1 (p : Arr3) (i : Nat) : Arr2 := p.map (·.getD i [])

/-- `padd_barret_xyzz` (elliptic_curve.py L43-107) on coordinate arrays. -/
def paddBarrettXyzzB (x1 y1 zz1 zzz1 x2 y2 zz2 zzz2 : Arr2) : Arr3 :=
  let u1 := modMulBarrettB x1 zz2
  let u2 := modMulBarrettB x2 zz1
  let s1 := modMulBarrettB y1 zzz2
  let s2 := modMulBarrettB y2 zzz1
  let zz := modMulBarrettB zz1 zz2
  let zzz := modMulBarrettB zzz1 zzz2
  let p := condSubB 24 P_CHUNK u2 u1
  let r := condSubB 24 P_CHUNK s2 s1
  let pp := modMulBarrettB p p
  let rr := modMulBarrettB r r
  let ppp := modMulBarrettB pp p
  let q := modMulBarrettB u1 pp
  let zz3 := modMulBarrettB zz pp
  let pppq2 := add3B ppp q q
  let pppq2 := condSubModB 24 P_CHUNK pppq2
  let pppq2 := condSubModB 24 P_CHUNK pppq2
  let x3 := condSubB 24 P_CHUNK rr pppq2
  let qx3 := condSubB 24 P_CHUNK q x3
  let s1ppp := modMulBarrettB s1 ppp
  let zzz3 := modMulBarrettB zzz ppp
  let y3 := modMulBarrettB r qx3
  let y3 := condSubB 24 P_CHUNK y3 s1ppp
  [x3, y3, zz3, zzz3]

/-- `pdul_barret_xyzz` (elliptic_curve.py L110-159). -/
def pdulBarrettXyzzB (x1 y1 zz1 zzz1 : Arr2) : Arr3 :=
  let u := add2B y1 y1
  let u := condSubModB 24 P_CHUNK u
  let x1x1 := modMulBarrettB x1 x1
  let v := modMulBarrettB u u
  let w := modMulBarrettB u v
  let s := modMulBarrettB x1 v
  let s2 := add2B s s
  let s2 := condSubModB 24 P_CHUNK s2
  let m := add3B x1x1 x1x1 x1x1
  let m := condSubModB 24 P_CHUNK m
  let m := condSubModB 24 P_CHUNK m
  let mm := modMulBarrettB m m
  let wy1 := modMulBarrettB w y1
  let zz3 := modMulBarrettB v zz1
  let zzz3 := modMulBarrettB w zzz1
  let x3 := condSubB 24 P_CHUNK mm s2
  let sx3 := condSubB 24 P_CHUNK s x3
  let y3 := modMulBarrettB m sx3
  let y3 := condSubB 24 P_CHUNK y3 wy1
  [x3, y3, zz3, zzz3]

/-- `padd_lazy_xyzz` (elliptic_curve.py L216-292). -/
def paddLazyXyzzB (x1 y1 zz1 zzz1 x2 y2 zz2 zzz2 : Arr2) : Arr3 :=
  let u1 := modMulLazyB x1 zz2
  let u2 := modMulLazyB x2 zz1
  let s1 := modMulLazyB y1 zzz2
  let s2 := modMulLazyB y2 zzz1
  let zz := modMulLazyB zz1 zz2
  let zzz := modMulLazyB zzz1 zzz2
  let p := condSubB 25 P_S16_CHUNK u2 u1
  let r := condSubB 25 P_S16_CHUNK s2 s1
  let pp := modMulLazyB p p
  let rr := modMulLazyB r r
  let ppp := modMulLazyB pp p
  let q := modMulLazyB u1 pp
  let zz3 := modMulLazyB zz pp
  let pppq2 := add3B ppp q q
  let pppq2 := condSubModB 25 P_S16_CHUNK pppq2
  let pppq2 := condSubModB 25 P_S16_CHUNK pppq2
  let x3 := condSubB 25 P_S16_CHUNK rr pppq2
  let qx3 := condSubB 25 P_S16_CHUNK q x3
  let s1ppp := modMulLazyB s1 ppp
  let zzz3 := modMulLazyB zzz ppp
  let y3 := modMulLazyB r qx3
  let y3 := condSubB 25 P_S16_CHUNK y3 s1ppp
  [x3, y3, zz3, zzz3]

/-- `pdul_lazy_xyzz` (elliptic_curve.py L295-359). -/
def pdulLazyXyzzB (x1 y1 zz1 zzz1 : Arr2) : Arr3 :=
  let u := add2B y1 y1
  let u := condSubModB 25 P_S16_CHUNK u
  let x1x1 := modMulLazyB x1 x1
  let v := modMulLazyB u u
  let w := modMulLazyB u v
  let s := modMulLazyB x1 v
  let s2 := add2B s s
  let s2 := condSubModB 25 P_S16_CHUNK s2
  let m := add3B x1x1 x1x1 x1x1
  let m := condSubModB 25 P_S16_CHUNK m
  let m := condSubModB 25 P_S16_CHUNK m
  let mm := modMulLazyB m m
  let wy1 := modMulLazyB w y1
  let zz3 := modMulLazyB v zz1
  let zzz3 := modMulLazyB w zzz1
  let x3 := condSubB 25 P_S16_CHUNK mm s2
  let sx3 := condSubB 25 P_S16_CHUNK s x3
  let y3 := modMulLazyB m sx3
  let y3 := condSubB 25 P_S16_CHUNK y3 wy1
  [x3, y3, zz3, zzz3]

/-- `padd_lazy_twisted` (elliptic_curve.py L387-463); the constant `d` is broadcast to the batch (L435-436). -/
def paddLazyTwistedB (x1 y1 z1 t1 x2 y2 z2 t2 : Arr2) : Arr3 :=
  let twistedD := bcast x1.length TWIST_D_CHUNK
  let a := modMulLazyB x1 x2
  let b := modMulLazyB y1 y2
  let d := modMulLazyB z1 z2
  let c := modMulLazyB t1 t2
  let c := modMulLazyB c twistedD
  let h := add2B a b
  let h := condSubModB 25 P_S16_CHUNK h
  let e1 := add2B x1 y1
  let e1 := condSubModB 25 P_S16_CHUNK e1
  let e2 := add2B x2 y2
  let e2 := condSubModB 25 P_S16_CHUNK e2
  let e := modMulLazyB e1 e2
  let e := condSubB 25 P_S16_CHUNK e h
  let f := condSubB 25 P_S16_CHUNK d c
  let g := add2B d c
  let g := condSubModB 25 P_S16_CHUNK g
  [modMulLazyB e f, modMulLazyB g h, modMulLazyB f g, modMulLazyB e h]

/-- `pdul_lazy_twisted` (elliptic_curve.py L466-527); the one-dimensional modulus is broadcast against `h` inside
`cond_sub_2u16`. -/
def pdulLazyTwistedB (x1 y1 z1 _t1 : Arr2) : Arr3 :=
  let a := modMulLazyB x1 x1
  let b := modMulLazyB y1 y1
  let ct := modMulLazyB z1 z1
  let ct2 := add2B ct ct
  let ct2 := condSubModB 25 P_S16_CHUNK ct2
  let h := add2B a b
  let h := condSubB 25 P_S16_CHUNK (bcast h.length P_S16_CHUNK) h
  let et := add2B x1 y1
  let et := condSubModB 25 P_S16_CHUNK et
  let e := modMulLazyB et et
  let e := add2B e h
  let e := condSubModB 25 P_S16_CHUNK e
  let g := condSubB 25 P_S16_CHUNK b a
  let f := condSubB 25 P_S16_CHUNK g ct2
  [modMulLazyB e f, modMulLazyB g h, modMulLazyB f g, modMulLazyB e h]

/-- `pneg_lazy_twisted` (elliptic_curve.py L530-569). -/
def pnegLazyTwistedB (x1 y1 z1 t1 : Arr2) : Arr3 :=
  [sub2B 25 (bcast x1.length P_S16_CHUNK) x1, y1, z1, sub2B 25 (bcast t1.length P_S16_CHUNK) t1]

/-- `jax.vmap` and the element-wise operations reject two batches of different size (the first product of every
addition formula). -/
def sameBatch (p q : Arr3) (r : Arr3) : Except String Arr3 :=
  if (at0 p 0).length = (at0 q 0).length then .ok r else .error "ValueError"

/-- `padd_barrett_xyzz_pack` (elliptic_curve.py L171-184). -/
def paddBarrettXyzzPack (p q : Arr3) : Except String Arr3 :=
  sameBatch p q (paddBarrettXyzzB (at0 p 0) (at0 p 1) (at0 p 2) (at0 p 3) (at0 q 0) (at0 q 1) (at0 q 2) (at0 q 3))
/-- `pdul_barrett_xyzz_pack` (elliptic_curve.py L164-168). -/
def pdulBarrettXyzzPack (p : Arr3) : Arr3 := pdulBarrettXyzzB (at0 p 0) (at0 p 1) (at0 p 2) (at0 p 3)
/-- `padd_lazy_xyzz_pack` (elliptic_curve.py L362-373). -/
def paddLazyXyzzPack (p q : Arr3) : Except String Arr3 :=
  sameBatch p q (paddLazyXyzzB (at0 p 0) (at0 p 1) (at0 p 2) (at0 p 3) (at0 q 0) (at0 q 1) (at0 q 2) (at0 q 3))
/-- `pdul_lazy_xyzz_pack` (elliptic_curve.py L376-383). -/
def pdulLazyXyzzPack (p : Arr3) : Arr3 := pdulLazyXyzzB (at0 p 0) (at0 p 1) (at0 p 2) (at0 p 3)
/-- `padd_lazy_twisted_pack` (elliptic_curve.py L573-582). -/
def paddLazyTwistedPack (p q : Arr3) : Except String Arr3 :=
  sameBatch p q (paddLazyTwistedB (at0 p 0) (at0 p 1) (at0 p 2) (at0 p 3) (at0 q 0) (at0 q 1) (at0 q 2) (at0 q 3))
/-- `pdul_lazy_twisted_pack` (elliptic_curve.py L586-591). -/
def pdulLazyTwistedPack (p : Arr3) : Arr3 := pdulLazyTwistedB (at0 p 0) (at0 p 1) (at0 p 2) (at0 p 3)
/-- `pneg_lazy_twisted_pack` (elliptic_curve.py L595-600). -/
def pnegLazyTwistedPack (p : Arr3) : Arr3 := pnegLazyTwistedB (at0 p 0) (at0 p 1) (at0 p 2) (at0 p 3)

/-- The shape of a three-dimensional array. -/
def shape3 (p : Arr3) : Nat × Nat × Nat := (p.length, (p.getD 0 []).length, ((p.getD 0 []).getD 0 []).length)

/-- One component of a triple of axes. -/
def axis (t : Nat × Nat × Nat) : Nat → Nat
  | 0 => t.1
  | 1 => t.2.1
  | _ => t.2.2

/-- `p.transpose(t0, t1, t2)`: entry `(i0, i1, i2)` of the result is the entry of `p` whose axis `t_k` has index `i_k`;
the axes have to be a permutation. -/
def transpose3 (t : Nat × Nat × Nat) (p : Arr3) : Except String Arr3 :=
  if [t.1, t.2.1, t.2.2].Perm [0, 1, 2] then
    let s := shape3 p
    let idx (i : Nat × Nat × Nat) (a : Nat) : Nat := if t.1 = a then i.1 else if t.2.1 = a then i.2.1 else i.2.2
    .ok ((List.range (axis s t.1)).map fun i => (List.range (axis s t.2.1)).map fun j =>
      (List.range (axis s t.2.2)).map fun k =>
        ((p.getD (idx (i, j, k) 0) []).getD (idx (i, j, k) 1) []).getD (idx (i, j, k) 2) 0)
  else .error "ValueError"

/-- `pdul_barrett_xyzz_pack_batch_first` (elliptic_curve.py L187-196): the input has the batch as its first axis. -/
def pdulBarrettXyzzBatchFirst (p : Arr3) (t : Nat × Nat × Nat := (0, 1, 2)) : Except String Arr3 :=
  transpose3 t (pdulBarrettXyzzB (at1 p 0) (at1 p 1) (at1 p 2) (at1 p 3))

/-- `padd_barrett_xyzz_pack_batch_first` (elliptic_curve.py L199-212). -/
def paddBarrettXyzzBatchFirst (p q : Arr3) (t : Nat × Nat × Nat := (0, 1, 2)) : Except String Arr3 :=
  if p.length = q.length then
    transpose3 t (paddBarrettXyzzB (at1 p 0) (at1 p 1) (at1 p 2) (at1 p 3) (at1 q 0) (at1 q 1) (at1 q 2) (at1 q 3))
  else .error "ValueError"

/-! ## elliptic_curve.py on batches: residues

`mod_mul_rns_2u16`, the negations and `add_sub_rns_var` have no loop; on a two-dimensional array they act on each row
(lane-wise products and a matrix product over the last axis). -/

/-- The reduction table: stacked byte matrix and correction row. -/
abbrev Mat := List (List Nat) × List Nat

/-- `mod_mul_rns_2u16` (finite_field.py L783-806). -/
def modMulR (mat : Mat) (a b : Arr2) : Arr2 := List.zipWith (modMul mat) a b
/-- `negate_rns_for_var_add` (finite_field.py L862-887). -/
def negateR (a : Arr2) : Arr2 := a.map negate
/-- `negate_rns_for_var_add_zero_check` (finite_field.py L895-928). -/
def negateZR (a : Arr2) : Arr2 := a.map negateZ
/-- The lane-wise sum of two arrays in `add_sub_rns_var` (finite_field.py L953-957). -/
def accR (acc w : Arr2) : Arr2 := List.zipWith (fun x y => List.zipWith (fun a b => (a + b) % 2 ^ 32) y x) acc w
/-- `add_sub_rns_var` (finite_field.py L936-969) with the first operand `v`; the operand counts of the calls satisfy
its assertions. -/
def addSubR (v : Arr2) (vs : List Arr2) : Arr2 := (vs.foldl accR v).map fun r => List.zipWith foldAdd RNS_T r
/-- `add_rns_2u16`, `add_rns_3u16` (finite_field.py L809-854). -/
def add2R (a b : Arr2) : Arr2 := addSubR a [b]
@[inherit_doc add2R]
def add3R (a b c : Arr2) : Arr2 := addSubR a [b, c]

/-- `jnp.vstack` of two-dimensional arrays. -/
def vstack (l : List Arr2) : Arr2 := l.flatten

/-- `jnp.vsplit(x, k)`. -/
def vsplit (k : Nat) (x : Arr2) : Except String (List Arr2) :=
  if x.length % k = 0 then
    .ok ((List.range k).map fun i => (x.drop (i * (x.length / k))).take (x.length / k))
  else .error "ValueError"

/-- A stacked product `vsplit(mod_mul_rns_2u16(vstack(ls), vstack(rs)), k)`; the shapes of the stacks have to agree. -/
def stackMul (mat : Mat) (k : Nat) (ls rs : List Arr2) : Except String (List Arr2) :=
  if (vstack ls).length = (vstack rs).length then vsplit k (modMulR mat (vstack ls) (vstack rs))
  else .error "ValueError"

/-- `padd_rns_xyzz_pack` (elliptic_curve.py L604-685). -/
def paddRnsXyzzPack (mat : Mat) (p q : Arr3) : Except String Arr3 := do
  let o ← stackMul mat 6 (p ++ p.drop 2) (q.drop 2 ++ q.drop 2 ++ q.take 2)
  let u1 := at0 o 0
  let s1 := at0 o 1
  let zz := at0 o 2
  let zzz := at0 o 3
  let u2 := at0 o 4
  let s2 := at0 o 5
  let p := addSubR u2 [negateR u1]
  let r := addSubR s2 [negateR s1]
  let pp := modMulR mat p p
  let rr := modMulR mat r r
  let o ← stackMul mat 3 [p, u1, zz] [pp, pp, pp]
  let ppp := at0 o 0
  let q := at0 o 1
  let zz3 := at0 o 2
  let x3 := addSubR rr [negateR ppp, negateR q, negateR q]
  let qx3 := addSubR q [negateR x3]
  let o ← stackMul mat 3 [s1, zzz, r] [ppp, ppp, qx3]
  let s1ppp := at0 o 0
  let zzz3 := at0 o 1
  let rqx3 := at0 o 2
  let y3 := addSubR rqx3 [negateR s1ppp]
  pure [x3, y3, zz3, zzz3]

/-- `pdul_rns_xyzz` (elliptic_curve.py L688-755) and its pack wrapper (L758-767). -/
def pdulRnsXyzzPack (mat : Mat) (p : Arr3) : Except String Arr3 := do
  let x1 := at0 p 0
  let y1 := at0 p 1
  let zz1 := at0 p 2
  let zzz1 := at0 p 3
  let u := add2R y1 y1
  let v := modMulR mat u u
  let o ← stackMul mat 3 [x1, u, x1] [x1, v, v]
  let x1x1 := at0 o 0
  let w := at0 o 1
  let s := at0 o 2
  let m := add3R x1x1 x1x1 x1x1
  let o ← stackMul mat 4 [m, w, v, w] [m, y1, zz1, zzz1]
  let mm := at0 o 0
  let wy1 := at0 o 1
  let zz3 := at0 o 2
  let zzz3 := at0 o 3
  let x3 := addSubR mm [negateR s, negateR s]
  let sx3 := addSubR s [negateR mm, s, s]
  let msx3 := modMulR mat m sx3
  let y3 := addSubR msx3 [negateR wy1]
  pure [x3, y3, zz3, zzz3]

/-- `padd_rns_twisted_pack` (elliptic_curve.py L771-830). -/
def paddRnsTwistedPack (mat : Mat) (p q : Arr3) : Except String Arr3 := do
  let o ← stackMul mat 4 p q
  let a := at0 o 0
  let b := at0 o 1
  let d := at0 o 2
  let c := at0 o 3
  let e1 := add2R (at0 p 0) (at0 p 1)
  let e2 := add2R (at0 q 0) (at0 q 1)
  let o ← stackMul mat 2 [e1, c] [e2, bcast c.length TWIST_D_RNS]
  let e3 := at0 o 0
  let c := at0 o 1
  let e := addSubR e3 [negateZR a, negateZR b]
  let f := addSubR d [negateZR c]
  let g := add2R d c
  let h := add2R a b
  let o ← stackMul mat 4 [e, g, f, e] [f, h, g, h]
  pure [at0 o 0, at0 o 1, at0 o 2, at0 o 3]

/-- `pdul_rns_twisted` (elliptic_curve.py L833-877) and its pack wrapper (L881-889). -/
def pdulRnsTwistedPack (mat : Mat) (p : Arr3) : Except String Arr3 := do
  let x1 := at0 p 0
  let y1 := at0 p 1
  let z1 := at0 p 2
  let et := add2R x1 y1
  let o ← stackMul mat 4 [x1, y1, z1, et] [x1, y1, z1, et]
  let a := at0 o 0
  let b := at0 o 1
  let ct := at0 o 2
  let et2 := at0 o 3
  let e := addSubR et2 [negateR a, negateR b]
  let g := addSubR b [negateR a]
  let f := addSubR g [negateR ct, negateR ct]
  let h := addSubR (negateR a) [negateR b]
  let o ← stackMul mat 4 [e, g, f, e] [f, h, g, h]
  pure [at0 o 0, at0 o 1, at0 o 2, at0 o 3]

/-! ## Conversions (util.py L142-280) -/

/-- `int_to_array` (util.py L152-168) of a Python integer: the loop does not run for a negative one, which is therefore
converted to zero. -/
def intToArrayZ (base n : Nat) (x : Int) : Except String (List Nat) :=
  match intToArray base (some n) x.toNat with
  | .ok l => .ok l
  | .error _ => .error "AssertionError"

/-- `int_list_to_array` (util.py L181-186) and `int_point_to_jax_point_pack` (L189-195) for a nonempty list. -/
def intListToArray (base n : Nat) (l : List Int) : Except String Arr2 := l.mapM (intToArrayZ base n)

/-- `array_to_int_list` (util.py L171-178); `jax_point_pack_to_int_point` (L198-204) with base 16. -/
def arrayToIntList (base : Nat) (a : Arr2) : List Nat := a.map (arrayToInt base)

/-- `jnp.array(result)` of a list of two-dimensional arrays of rows of equal length: they have to have the same number
of rows.  An empty list or empty points give arrays of fewer than three dimensions, which the transposition by
`(1, 0, 2)` rejects. -/
def stack (l : List Arr2) : Except String Arr3 :=
  match l with
  | [] => .error "ValueError"
  | a :: l => if a = [] then .error "ValueError" else if l.all (fun b => b.length == a.length) then .ok (a :: l)
    else .error "ValueError"

/-- `jnp.transpose(x, (1, 0, 2))`. -/
def swap01 (x : Arr3) : Arr3 := (List.range (x.getD 0 []).length).map fun c => x.map (·.getD c [])

/-- `int_point_batch_to_jax_point_pack` (util.py L251-257). -/
def batchToPack (base n : Nat) (points : List (List Int)) : Except String Arr3 := do
  let r ← points.mapM (intListToArray base n)
  let r ← stack r
  pure (swap01 r)

/-- `jax_point_pack_to_int_point_batch` (util.py L260-265). -/
def packToBatch (base : Nat) (p : Arr3) : List (List Nat) := (swap01 p).map (arrayToIntList base)

/-- `int_to_array_rns` (util.py L208-209). -/
def intToArrayRns (x : Int) : List Nat := MODULI.map fun m : Nat => (x % (m : Int)).toNat

/-- `array_rns_to_int` (util.py L212-214). -/
def arrayRnsToInt (r : List Nat) : Except String Int := do
  let pre ← Crt.rnsPrecompute MODULI
  Crt.rnsReconstruct (r.map fun v : Nat => (v : Int)) MODULI pre

/-- `int_list_to_array_rns` (util.py L217-222), `int_point_to_jax_rns_point_pack` (L235-239). -/
def intListToArrayRns (l : List Int) : Arr2 := l.map intToArrayRns

/-- `array_rns_to_int_list` (util.py L225-232), `jax_rns_point_pack_to_int_point` (L242-248). -/
def arrayRnsToIntList (a : Arr2) : Except String (List Int) := a.mapM arrayRnsToInt

/-- `int_point_batch_to_jax_rns_point_pack` (util.py L268-272). -/
def batchToPackRns (points : List (List Int)) : Except String Arr3 := do
  let r ← stack (points.map intListToArrayRns)
  pure (swap01 r)

/-- `jax_rns_point_pack_to_int_point_batch` (util.py L275-280). -/
def packToBatchRns (p : Arr3) : Except String (List (List Int)) := (swap01 p).mapM arrayRnsToIntList

end Verif.EcBatch
