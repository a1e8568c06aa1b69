import Verif.Model.EcCurve

/-!
# Point objects of jaxite_ec/algorithm/elliptic_curve.py

`Verif.Model.EcCurve` models the formulas as functions of values.  Here the objects are modelled: a point is an object
with an attribute `coordinates` that refers to a Python list, and the list refers to `FiniteFieldElement` objects.
Lists and elements can be shared, and `clear`, `append`, item assignment and `set_value` change them in place.

A heap holds the elements, the lists and the points; a reference is a position.  An operation returns its result or
the name of the exception together with the heap that it leaves behind, so that a caught exception can be followed by
further statements.

Simplifications.  All systems are over one field `F` and element values are elements of `F` (C63 and C67 treat the
elements as integers; an integer outside `[0, p)` is not represented).  Temporaries of the formulas are not put on the
heap, only the elements that end up in a point.  The attributes `a`, `b`, `d`, `alpha`, `s`, `MA`, `MB`, `t` of a system
are constants: no method hands out a reference to these elements.  `ff_zero` and `ff_one` are elements on the heap,
since they are handed out.  Indices are not negative.
-/

namespace Verif.EcPoint

open Verif.EcCurve

/-- The four classes of coordinate systems (L204, L272, L437, L577). -/
inductive Kind where
  | affine
  | projective
  | xyzz
  | twisted
  deriving DecidableEq, Repr

/-- `CoordinateSystemType` (L22-38), without `NONE`. -/
inductive Ty where
  | affine
  | projective
  | xyzz
  deriving DecidableEq, Repr

/-- The attribute `type` set by the constructors (L214, L283, L442, L582): the twisted class has the type of the
projective one. -/
def Kind.ty : Kind → Ty
  | .affine => .affine
  | .projective => .projective
  | .xyzz => .xyzz
  | .twisted => .projective

/-- A coordinate system object (L117-201, L577-590); `zeroRef` and `oneRef` refer to the elements `ff_zero` and
`ff_one` (L131-132). -/
structure Sys (F : Type) where
  kind : Kind
  zeroRef : Nat
  oneRef : Nat
  a : F
  b : F
  tw : TwCfg F

/-- The attributes of an `ECPoint` (L44-55): the list `coordinates` (or `None`), `zero`, `coordinate_system`, `type`. -/
structure PObj (ι : Type) where
  coords : Option Nat
  zero : Bool
  sys : ι
  ty : Ty
  deriving DecidableEq

/-- The heap. -/
structure Heap (ι F : Type) where
  elems : List F
  lists : List (List Nat)
  points : List (PObj ι)

/-- What the formulas of a system read: the current values of `ff_zero` and `ff_one` and the constants. -/
structure Ctx (F : Type) where
  kind : Kind
  zero : F
  one : F
  a : F
  b : F
  tw : TwCfg F

variable {ι F : Type} [Field F] [DecidableEq F]

/-! ## The formulas on coordinate values -/

/-- `point[i]` (L57-58); `None` is not subscriptable. -/
def index (c : Option (List F)) (i : Nat) : Except String F :=
  match c with
  | none => .error "TypeError"
  | some l =>
    match l[i]? with
    | some v => .ok v
    | none => .error "IndexError"

/-- `x, y, z = point`: iteration by `__getitem__`. -/
def unpack3 (c : Option (List F)) : Except String (Triple F) :=
  match c with
  | none => .error "TypeError"
  | some [x, y, z] => .ok (x, y, z)
  | some _ => .error "ValueError"

/-- `x, y, zz, zzz = point`. -/
def unpack4 (c : Option (List F)) : Except String (Quad F) :=
  match c with
  | none => .error "TypeError"
  | some [x, y, z, w] => .ok (x, y, z, w)
  | some _ => .error "ValueError"

def list3 (p : Triple F) : List F := [p.1, p.2.1, p.2.2]
def list4 (p : Quad F) : List F := [p.1, p.2.1, p.2.2.1, p.2.2.2]

/-- `double_general` of the twisted class (L652-670), reading `ff_zero`. -/
def edDoubleC (k : Ctx F) (p : Quad F) : Quad F :=
  let (x1, y1, z1, _) := p
  let a := x1 * x1
  let b := y1 * y1
  let ct := z1 * z1
  let h := k.zero - a - b
  let et := x1 + y1
  let e := et * et + h
  let g := b - a
  let f := g - ct - ct
  (e * f, g * h, f * g, e * h)

/-- `twist` (L680-697), reading `ff_zero` and `ff_one`. -/
def twistC (k : Ctx F) (p : F × F) : Option (F × F) :=
  let (x, y) := p
  let xm := k.tw.s * (x - k.tw.alpha)
  let ym := k.tw.s * y
  if ym = k.zero then none
  else
    let xt := xm / ym
    let den := xm + k.one
    if den = k.zero then none
    else
      let yt := (xm - k.one) / den
      some (xt * k.tw.t, yt)

/-- `untwist` (L699-712), reading `ff_one`. -/
def untwistC (k : Ctx F) (p : F × F) : F × F :=
  let (xt, yt) := p
  let xt := xt / k.tw.t
  let xm := (k.one + yt) / (k.one - yt)
  let ym := (k.one + yt) / ((k.one - yt) * xt)
  let x := xm / k.tw.mb + k.tw.ma / (3 * k.tw.mb)
  let y := ym / k.tw.mb
  (x, y)

/-- `double_general` (L222-228, L360-380, L498-522, L652-670).  The affine one multiplies an element by the integer 3,
which has no attribute `prime`. -/
def doubleVals (k : Ctx F) (p : Option (List F)) : Except String (List F) :=
  match k.kind with
  | .affine => do
    let _ ← index p 0
    let _ ← index p 1
    .error "AttributeError"
  | .projective => do
    let u ← unpack3 p
    .ok (list3 (projDouble k.a u))
  | .xyzz => do
    let u ← unpack4 p
    .ok (list4 (xyzzDouble k.a u))
  | .twisted => do
    let u ← unpack4 p
    .ok (list4 (edDoubleC k u))

/-- `add_z2_eq_1` of the projective class (L293-313). -/
def addZ1Vals (k : Ctx F) (p q : Option (List F)) : Except String (List F) := do
  let zb ← index q 2
  if zb = k.one then
    let u ← unpack3 p
    let v ← unpack3 q
    .ok (list3 (projMadd u v.1 v.2.1))
  else
    let za ← index p 2
    if za = k.one then
      let u ← unpack3 q
      let v ← unpack3 p
      .ok (list3 (projMadd u v.1 v.2.1))
    else .error "NotImplementedError"

/-- `point_add` after the tests of the zero flags (L236-241, L390-396, L532-536, L630-650). -/
def addVals (k : Ctx F) (p q : Option (List F)) : Except String (List F) :=
  match k.kind with
  | .affine =>
    if p = q then doubleVals k p
    else do
      let y2 ← index q 1
      let y1 ← index p 1
      let x2 ← index q 0
      let x1 ← index p 0
      let r := affineAddCoords x1 y1 x2 y2
      .ok [r.1, r.2]
  | .projective =>
    if p = q then doubleVals k p
    else do
      let za ← index p 2
      if za = k.one then addZ1Vals k p q
      else
        let zb ← index q 2
        if zb = k.one then addZ1Vals k p q
        else
          let u ← unpack3 p
          let v ← unpack3 q
          .ok (list3 (projAdd k.a k.b u v))
  | .xyzz =>
    if p = q then doubleVals k p
    else do
      let u ← unpack4 p
      let v ← unpack4 q
      .ok (list4 (xyzzAdd u v))
  | .twisted => do
    let u ← unpack4 p
    let v ← unpack4 q
    .ok (list4 (edAdd k.tw.d u v))

/-- The first two coordinates that `convert_to_affine` computes in the projective class (L427-429), the XYZZ class
(L563-567) and in `convert_to_twisted_edwards_affine` (L724-727). -/
def affineVals (k : Ctx F) (p : Option (List F)) : Except String (F × F) :=
  match k.kind with
  | .affine => .error "AttributeError"
  | .projective => do
    let z ← index p 2
    let zi := k.one / z
    let x ← index p 0
    let y ← index p 1
    .ok (x * zi, y * zi)
  | .xyzz => do
    let zzz ← index p 3
    let a := k.one / zzz
    let zz ← index p 2
    let b := zz * a
    let bsq := b * b
    let x ← index p 0
    let y ← index p 1
    .ok (x * bsq, y * a)
  | .twisted => do
    let u ← unpack3 (p.map (List.take 3))
    let zi := k.one / u.2.2
    .ok (u.1 * zi, u.2.1 * zi)

/-! ## The heap -/

/-- The value of an element. -/
def Heap.elem (h : Heap ι F) (r : Nat) : F := h.elems.getD r 0

/-- The elements of a list. -/
def Heap.list (h : Heap ι F) (l : Nat) : List Nat := h.lists.getD l []

/-- The coordinate values of a point. -/
def Heap.vals (h : Heap ι F) (p : PObj ι) : Option (List F) := p.coords.map fun l => (h.list l).map h.elem

/-- What a system reads in the present heap. -/
def ctx (S : ι → Sys F) (h : Heap ι F) (i : ι) : Ctx F where
  kind := (S i).kind
  zero := h.elem (S i).zeroRef
  one := h.elem (S i).oneRef
  a := (S i).a
  b := (S i).b
  tw := (S i).tw

/-- A new element: the result of an arithmetic operator or of `FiniteFieldElement.copy` (finite_field.py L46-97). -/
def Heap.newElem (h : Heap ι F) (v : F) : Nat × Heap ι F := (h.elems.length, { h with elems := h.elems ++ [v] })

/-- New elements, one for each value. -/
def Heap.newElems (h : Heap ι F) (vs : List F) : List Nat × Heap ι F :=
  (List.range' h.elems.length vs.length, { h with elems := h.elems ++ vs })

/-- A new list. -/
def Heap.newList (h : Heap ι F) (rs : List Nat) : Nat × Heap ι F := (h.lists.length, { h with lists := h.lists ++ [rs] })

/-- A new point object. -/
def Heap.newObj (h : Heap ι F) (p : PObj ι) : Nat × Heap ι F := (h.points.length, { h with points := h.points ++ [p] })

/-- A list is changed in place. -/
def Heap.setList (h : Heap ι F) (l : Nat) (rs : List Nat) : Heap ι F := { h with lists := h.lists.set l rs }

/-- An element is changed in place (finite_field.py L28-38). -/
def Heap.setElem (h : Heap ι F) (r : Nat) (v : F) : Heap ι F := { h with elems := h.elems.set r v }

/-- The attributes of a point are changed. -/
def Heap.setObj (h : Heap ι F) (j : Nat) (p : PObj ι) : Heap ι F := { h with points := h.points.set j p }

/-- An argument in a list of coordinates: an element or an integer. -/
inductive Item (F : Type) where
  | ref (r : Nat)
  | int (v : F)

/-- The loop `if isinstance(coordinate, FieldEle) … else self.ff_zero.copy(coordinate)` (L196-200, L261-266, L451-455,
L599-603, L617-621).  `copy` takes `0` for a missing argument and copies the value of `ff_zero` (finite_field.py
L62-65). -/
def toElems (z : F) (h : Heap ι F) : List (Item F) → List Nat × Heap ι F
  | [] => ([], h)
  | .ref r :: t =>
    let u := toElems z h t
    (r :: u.1, u.2)
  | .int v :: t =>
    let a := h.newElem (if v = 0 then z else v)
    let u := toElems z a.2 t
    (a.1 :: u.1, u.2)

/-- `generate_formal_coordinates` (L190-201 inherited by the projective class, L254-269, L444-461, L608-628).  The last
assertion of the XYZZ version (four entries) cannot fail. -/
def formal (S : ι → Sys F) (h : Heap ι F) (i : ι) (c : Option (List (Item F))) (zero : Bool) :
    Except String (Option (List Nat)) × Heap ι F :=
  let s := S i
  if zero = true ∧ s.kind ≠ .twisted then (.ok none, h)
  else
    let c := if zero then some [.ref s.zeroRef, .ref s.oneRef, .ref s.oneRef, .ref s.zeroRef] else c
    match c with
    | none => (.error "TypeError", h)
    | some items =>
      let z := h.elem s.zeroRef
      let o := h.elem s.oneRef
      match s.kind with
      | .projective =>
        let u := toElems z h items
        (.ok (some u.1), u.2)
      | .affine =>
        if items.length = 2 ∨ items.length = 3 then
          let u := toElems z h items
          if items.length = 2 then (.error "AssertionError", u.2) else (.ok (some u.1), u.2)
        else (.error "AssertionError", h)
      | .xyzz =>
        if items.length = 2 ∨ items.length = 4 then
          let u := toElems z h items
          if items.length = 2 then
            let w := u.2.newElems [o, o]
            (.ok (some (u.1 ++ w.1)), w.2)
          else (.ok (some u.1), u.2)
        else (.error "AssertionError", h)
      | .twisted =>
        if items.length = 2 ∨ items.length = 4 then
          let u := toElems z h items
          if items.length = 2 then
            let w := u.2.newElems [o, u.2.elem (u.1.getD 0 0) * u.2.elem (u.1.getD 1 0)]
            (.ok (some (u.1 ++ w.1)), w.2)
          else (.ok (some u.1), u.2)
        else (.error "AssertionError", h)

/-- `ECPoint(coordinates, system, zero)` (L44-55). -/
def newPoint (S : ι → Sys F) (h : Heap ι F) (i : ι) (c : Option (List (Item F))) (zero : Bool) :
    Except String Nat × Heap ι F :=
  match formal S h i c zero with
  | (.error e, h) => (.error e, h)
  | (.ok none, h) =>
    let u := h.newObj ⟨none, zero, i, (S i).kind.ty⟩
    (.ok u.1, u.2)
  | (.ok (some rs), h) =>
    let l := h.newList rs
    let u := l.2.newObj ⟨some l.1, zero, i, (S i).kind.ty⟩
    (.ok u.1, u.2)

/-- `ECPoint([x3, …], self)` with results of arithmetic. -/
def newPointVals (S : ι → Sys F) (h : Heap ι F) (i : ι) (r : Except String (List F)) : Except String Nat × Heap ι F :=
  match r with
  | .error e => (.error e, h)
  | .ok vs =>
    let u := h.newElems vs
    newPoint S u.2 i (some (u.1.map .ref)) false

/-- `ECPoint.copy` (L98-104): a shallow copy; unless the point is flagged zero, `coordinates` becomes a new list with
the same elements. -/
def copyPoint (S : ι → Sys F) (h : Heap ι F) (j : Nat) : Except String Nat × Heap ι F :=
  match h.points[j]? with
  | none => (.error "NameError", h)
  | some p =>
    if p.zero then
      let u := h.newObj p
      (.ok u.1, u.2)
    else
      match formal S h p.sys (p.coords.map fun l => (h.list l).map .ref) false with
      | (.error e, h) => (.error e, h)
      | (.ok none, h) =>
        let u := h.newObj { p with coords := none }
        (.ok u.1, u.2)
      | (.ok (some rs), h) =>
        let l := h.newList rs
        let u := l.2.newObj { p with coords := some l.1 }
        (.ok u.1, u.2)

/-- `a + b` (L71-72, L230-241, L382-396, L524-536, L630-650).  The twisted class does not look at the flags. -/
def addPoint (S : ι → Sys F) (h : Heap ι F) (j k : Nat) : Except String Nat × Heap ι F :=
  match h.points[j]?, h.points[k]? with
  | some p, some q =>
    if (S p.sys).kind ≠ .twisted ∧ q.zero = true then copyPoint S h j
    else if (S p.sys).kind ≠ .twisted ∧ p.zero = true then copyPoint S h k
    else newPointVals S h p.sys (addVals (ctx S h p.sys) (h.vals p) (h.vals q))
  | _, _ => (.error "NameError", h)

/-- `double_general` of the system `i` (L222-228, L360-380, L498-522, L652-670). -/
def doublePoint (S : ι → Sys F) (h : Heap ι F) (i : ι) (j : Nat) : Except String Nat × Heap ι F :=
  match h.points[j]? with
  | none => (.error "NameError", h)
  | some p => newPointVals S h i (doubleVals (ctx S h i) (h.vals p))

/-- `for _ in range(shift): point = self.double_general(point)` (L247-249, L402-404, L542-544, L676-678). -/
def shiftLoop (S : ι → Sys F) (i : ι) : Nat → Heap ι F → Nat → Except String Nat × Heap ι F
  | 0, h, j => (.ok j, h)
  | n + 1, h, j =>
    match doublePoint S h i j with
    | (.error e, h) => (.error e, h)
    | (.ok k, h) => shiftLoop S i n h k

/-- `a << shift` (L74-77, L243-249, L398-404, L538-544, L672-678).  A shift by zero (or a negative one) returns the
operand itself. -/
def shiftPoint (S : ι → Sys F) (h : Heap ι F) (j : Nat) (n : Int) : Except String Nat × Heap ι F :=
  match h.points[j]? with
  | none => (.error "NameError", h)
  | some p => if p.zero then copyPoint S h j else shiftLoop S p.sys n.toNat h j

/-- The common part of the conversions (L407-420, L422-434, L559-574, L718-732): copy the operand `j`, clear the list of
the copy, compute two coordinates from the operand and append them and `ones` times the element `ff_one` itself; the
copy gets the type `ty` if one is given.  `convert_to_twisted_edwards_affine` does not set a type. -/
def convertWith (S : ι → Sys F) (h : Heap ι F) (i : ι) (j : Nat) (ones : Nat) (ty : Option Ty) :
    Except String Nat × Heap ι F :=
  match h.points[j]? with
  | none => (.error "NameError", h)
  | some p =>
    match copyPoint S h j with
    | (.error e, h) => (.error e, h)
    | (.ok k, h) =>
      match h.points[k]? with
      | none => (.error "NameError", h)
      | some q =>
        match q.coords with
        | none => (.ok k, h)
        | some l =>
          let h := h.setList l []
          match affineVals (ctx S h i) (h.vals p) with
          | .error e => (.error e, h)
          | .ok (x, y) =>
            let u := h.newElems [x, y]
            let h := u.2.setList l (u.1 ++ List.replicate ones (S i).oneRef)
            (.ok k, h.setObj k { q with ty := ty.getD q.ty })

/-- `convert_to_twisted_edwards_affine` (L718-732). -/
def toEdAffine (S : ι → Sys F) (h : Heap ι F) (i : ι) (j : Nat) : Except String Nat × Heap ι F :=
  convertWith S h i j 2 none

/-- The assignment `new_point[:2] = self.untwist(new_point[:2])` (L736-737). -/
def untwistPoint (S : ι → Sys F) (h : Heap ι F) (i : ι) (k : Nat) : Except String Nat × Heap ι F :=
  match h.points[k]? with
  | none => (.error "NameError", h)
  | some q =>
    match q.coords with
    | none => (.error "TypeError", h)
    | some l =>
      match (h.list l).take 2 with
      | [a, b] =>
        let r := untwistC (ctx S h i) (h.elem a, h.elem b)
        let u := h.newElems [r.1, r.2]
        (.ok k, u.2.setList l (u.1 ++ (h.list l).drop 2))
      | _ => (.error "ValueError", h)

/-- `convert_to_affine` of the system `i` (L251-252, L422-434, L559-574, L734-738), called by `ECPoint.convert_to_affine`
(L106-107). -/
def toAffine (S : ι → Sys F) (h : Heap ι F) (i : ι) (j : Nat) : Except String Nat × Heap ι F :=
  match h.points[j]? with
  | none => (.error "NameError", h)
  | some p =>
    match (S i).kind with
    | .affine => (.ok j, h)
    | .projective => if p.ty = .projective then convertWith S h i j 1 (some .affine) else (.error "AssertionError", h)
    | .xyzz => if p.ty = .xyzz then convertWith S h i j 2 (some .affine) else (.error "AssertionError", h)
    | .twisted =>
      match toEdAffine S h i j with
      | (.error e, h) => (.error e, h)
      | (.ok k, h) => untwistPoint S h i k

/-- `system.convert_from_affine(point)` (L406-420, L546-557, L714-716).  In the projective class it is the same text as
`convert_to_affine`.  The affine class has no such method; the twisted one returns the class `NotImplementedError`, which
is not a point (written as an error here). -/
def fromAffine (S : ι → Sys F) (h : Heap ι F) (i : ι) (j : Nat) : Except String Nat × Heap ι F :=
  match h.points[j]? with
  | none => (.error "NameError", h)
  | some p =>
    match (S i).kind with
    | .affine => (.error "AttributeError", h)
    | .projective => if p.ty = .projective then convertWith S h i j 1 (some .affine) else (.error "AssertionError", h)
    | .xyzz =>
      if (S p.sys).kind.ty = .affine then
        match copyPoint S h j with
        | (.error e, h) => (.error e, h)
        | (.ok k, h) =>
          match h.points[k]? with
          | none => (.error "NameError", h)
          | some q =>
            match q.coords with
            | none => (.error "AssertionError", h)
            | some l =>
              let h := h.setList l (h.list l ++ [(S i).oneRef, (S i).oneRef])
              (.ok k, h.setObj k { q with sys := i, ty := .xyzz })
      else (.error "AssertionError", h)
    | .twisted => (.error "returns NotImplementedError", h)

/-- `generate_point` (L143-148; L592-606 with `twist`). -/
def genPoint (S : ι → Sys F) (h : Heap ι F) (i : ι) (c : Option (List (Item F))) (zero tw : Bool) :
    Except String Nat × Heap ι F :=
  if (S i).kind = .twisted ∧ tw = true then
    match c with
    | none => (.error "TypeError", h)
    | some items =>
      let u := toElems (h.elem (S i).zeroRef) h items
      match u.1 with
      | [a, b] =>
        match twistC (ctx S u.2 i) (u.2.elem a, u.2.elem b) with
        | none => newPoint S u.2 i none zero
        | some r =>
          let w := u.2.newElems [r.1, r.2]
          newPoint S w.2 i (some (w.1.map .ref)) zero
      | _ => (.error "ValueError", u.2)
  else newPoint S h i c zero

/-! ## Programs -/

/-- A coordinate in a statement: an integer, or the element `v[i]` of the point in variable `v`. -/
inductive Arg (F : Type) where
  | int (v : F)
  | coord (v i : Nat)

/-- Statements.  The first group binds a new variable to its result. -/
inductive Cmd (ι F : Type) where
  /-- `S.generate_point(c, zero)`, for the twisted class with `twist=tw` -/
  | gen (i : ι) (c : Option (List (Arg F))) (zero tw : Bool)
  | add (a b : Nat)
  | shift (a : Nat) (n : Int)
  | copy (a : Nat)
  /-- `a.convert_to_affine()` -/
  | toAffine (a : Nat)
  /-- `a.coordinate_system.convert_to_twisted_edwards_affine(a)` -/
  | toEdAffine (a : Nat)
  /-- `S.convert_from_affine(a)` -/
  | fromAffine (i : ι) (a : Nat)
  /-- `b = a` -/
  | same (a : Nat)
  /-- `a[i] = e` (L60-63) -/
  | setItem (a i : Nat) (e : Arg F)
  /-- `a.append(e)` (L94-96) -/
  | append (a : Nat) (e : Arg F)
  /-- `a[i].set_value(v)` (finite_field.py L28-38) -/
  | setValue (a i : Nat) (v : F)

/-- Heap, variables (references to points) and, for each statement executed, the exception if there was one. -/
structure St (ι F : Type) where
  heap : Heap ι F
  env : List Nat
  log : List (Option String)

/-- The point in a variable. -/
def St.obj (s : St ι F) (v : Nat) : Except String (PObj ι) :=
  match s.env[v]? with
  | none => .error "NameError"
  | some j =>
    match s.heap.points[j]? with
    | none => .error "NameError"
    | some p => .ok p

/-- The element `v[i]`. -/
def St.elemRef (s : St ι F) (v i : Nat) : Except String Nat := do
  let p ← s.obj v
  match p.coords with
  | none => .error "TypeError"
  | some l =>
    match (s.heap.list l)[i]? with
    | none => .error "IndexError"
    | some r => .ok r

/-- Evaluation of a coordinate. -/
def St.item (s : St ι F) : Arg F → Except String (Item F)
  | .int v => .ok (.int v)
  | .coord v i => do
    let r ← s.elemRef v i
    .ok (.ref r)

/-- Evaluation of the coordinates, from left to right. -/
def St.items (s : St ι F) : List (Arg F) → Except String (List (Item F))
  | [] => .ok []
  | a :: t => do
    let u ← s.item a
    let v ← s.items t
    .ok (u :: v)

/-- An element for an item assignment or `append`: the element named, or a new one with the value given. -/
def St.elemArg (s : St ι F) : Arg F → Except String (Nat × Heap ι F)
  | .int v => .ok (s.heap.newElem v)
  | .coord v i => do
    let r ← s.elemRef v i
    .ok (r, s.heap)

/-- The result of an expression goes to a new variable. -/
def assigned (r : Except String Nat × Heap ι F) : Except String (Option Nat) × Heap ι F :=
  match r with
  | (.error e, h) => (.error e, h)
  | (.ok k, h) => (.ok (some k), h)

/-- Apply an operation to the point in a variable. -/
def St.app (s : St ι F) (v : Nat) (f : Nat → Except String Nat × Heap ι F) : Except String (Option Nat) × Heap ι F :=
  match s.env[v]? with
  | none => (.error "NameError", s.heap)
  | some j => assigned (f j)

/-- A statement: the point for the new variable, if any. -/
def eval (S : ι → Sys F) (s : St ι F) : Cmd ι F → Except String (Option Nat) × Heap ι F
  | .gen i c zero tw =>
    match c with
    | none => assigned (genPoint S s.heap i none zero tw)
    | some args =>
      match s.items args with
      | .error e => (.error e, s.heap)
      | .ok items => assigned (genPoint S s.heap i (some items) zero tw)
  | .add a b => s.app a fun j =>
    match s.env[b]? with
    | none => (.error "NameError", s.heap)
    | some k => addPoint S s.heap j k
  | .shift a n => s.app a fun j => shiftPoint S s.heap j n
  | .copy a => s.app a fun j => copyPoint S s.heap j
  | .toAffine a => s.app a fun j =>
    match s.heap.points[j]? with
    | none => (.error "NameError", s.heap)
    | some p => EcPoint.toAffine S s.heap p.sys j
  | .toEdAffine a => s.app a fun j =>
    match s.heap.points[j]? with
    | none => (.error "NameError", s.heap)
    | some p =>
      if (S p.sys).kind = .twisted then EcPoint.toEdAffine S s.heap p.sys j else (.error "AttributeError", s.heap)
  | .fromAffine i a => s.app a fun j => EcPoint.fromAffine S s.heap i j
  | .same a => s.app a fun j => (.ok j, s.heap)
  | .setItem a i e =>
    match s.elemArg e with
    | .error x => (.error x, s.heap)
    | .ok (r, h) =>
      match s.obj a with
      | .error x => (.error x, h)
      | .ok p =>
        match p.coords with
        | none => (.error "TypeError", h)
        | some l =>
          if i < (h.list l).length then (.ok none, h.setList l ((h.list l).set i r)) else (.error "IndexError", h)
  | .append a e =>
    match s.obj a with
    | .error x => (.error x, s.heap)
    | .ok p =>
      match s.elemArg e with
      | .error x => (.error x, s.heap)
      | .ok (r, h) =>
        match p.coords with
        | none => (.error "AssertionError", h)
        | some l => (.ok none, h.setList l (h.list l ++ [r]))
  | .setValue a i v =>
    match s.elemRef a i with
    | .error x => (.error x, s.heap)
    | .ok r => (.ok none, s.heap.setElem r v)

/-- Execute a statement; an exception is caught. -/
def step (S : ι → Sys F) (s : St ι F) (c : Cmd ι F) : St ι F :=
  match eval S s c with
  | (.ok (some k), h) => ⟨h, s.env ++ [k], s.log ++ [none]⟩
  | (.ok none, h) => ⟨h, s.env, s.log ++ [none]⟩
  | (.error e, h) => ⟨h, s.env, s.log ++ [some e]⟩

/-- Execute a program. -/
def run (S : ι → Sys F) (s : St ι F) (p : List (Cmd ι F)) : St ι F := p.foldl (step S) s

end Verif.EcPoint
