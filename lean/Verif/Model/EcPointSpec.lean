import Verif.Model.EcPoint

/-!
# Points as values

The specification for C84: the same statements on points without identity.  A variable holds a value; nothing is shared
and no statement changes a variable that exists.  `k.zero` and `k.one` are the constants of the field.
-/

namespace Verif.EcPoint

open Verif.EcCurve

/-- A point as a value. -/
structure PVal (ι F : Type) where
  coords : Option (List F)
  zero : Bool
  sys : ι
  ty : Ty
  deriving DecidableEq

variable {ι F : Type} [Field F] [DecidableEq F]

/-- The value of a point object. -/
def Heap.val (h : Heap ι F) (p : PObj ι) : PVal ι F := ⟨h.vals p, p.zero, p.sys, p.ty⟩

/-- The coordinates that a system makes of given ones. -/
def vFormal (k : Ctx F) (c : Option (List F)) (zero : Bool) : Except String (Option (List F)) :=
  if zero = true ∧ k.kind ≠ .twisted then .ok none
  else
    match (if zero then some [k.zero, k.one, k.one, k.zero] else c) with
    | none => .error "TypeError"
    | some vs =>
      match k.kind with
      | .projective => .ok (some vs)
      | .affine => if vs.length = 3 then .ok (some vs) else .error "AssertionError"
      | .xyzz =>
        if vs.length = 2 then .ok (some (vs ++ [k.one, k.one]))
        else if vs.length = 4 then .ok (some vs) else .error "AssertionError"
      | .twisted =>
        if vs.length = 2 then .ok (some (vs ++ [k.one, vs.getD 0 0 * vs.getD 1 0]))
        else if vs.length = 4 then .ok (some vs) else .error "AssertionError"

/-- A point of the system `i`. -/
def vNew (C : ι → Ctx F) (i : ι) (c : Option (List F)) (zero : Bool) : Except String (PVal ι F) :=
  match vFormal (C i) c zero with
  | .error e => .error e
  | .ok d => .ok ⟨d, zero, i, (C i).kind.ty⟩

/-- A copy: for a point with a legitimate number of coordinates the point itself. -/
def vCopy (C : ι → Ctx F) (p : PVal ι F) : Except String (PVal ι F) :=
  if p.zero then .ok p
  else
    match vFormal (C p.sys) p.coords false with
    | .error e => .error e
    | .ok d => .ok { p with coords := d }

/-- The point with the computed coordinates. -/
def vVals (C : ι → Ctx F) (i : ι) (r : Except String (List F)) : Except String (PVal ι F) :=
  match r with
  | .error e => .error e
  | .ok vs => vNew C i (some vs) false

/-- Sum. -/
def vAdd (C : ι → Ctx F) (p q : PVal ι F) : Except String (PVal ι F) :=
  if (C p.sys).kind ≠ .twisted ∧ q.zero = true then vCopy C p
  else if (C p.sys).kind ≠ .twisted ∧ p.zero = true then vCopy C q
  else vVals C p.sys (addVals (C p.sys) p.coords q.coords)

/-- `n` doublings. -/
def vDoubles (C : ι → Ctx F) (i : ι) : Nat → PVal ι F → Except String (PVal ι F)
  | 0, p => .ok p
  | n + 1, p =>
    match vVals C i (doubleVals (C i) p.coords) with
    | .error e => .error e
    | .ok q => vDoubles C i n q

/-- Left shift. -/
def vShift (C : ι → Ctx F) (p : PVal ι F) (n : Int) : Except String (PVal ι F) :=
  if p.zero then vCopy C p else vDoubles C p.sys n.toNat p

/-- Conversion; a point flagged zero that has coordinates is refused. -/
def vConvert (C : ι → Ctx F) (i : ι) (p : PVal ι F) (ones : Nat) (ty : Option Ty) : Except String (PVal ι F) :=
  match vCopy C p with
  | .error e => .error e
  | .ok q =>
    if q.coords = none then .ok q
    else
      match affineVals (C i) (if p.zero then some [] else p.coords) with
      | .error e => .error e
      | .ok (x, y) =>
        .ok { q with
          coords := some ([x, y] ++ List.replicate ones (C i).one)
          ty := ty.getD q.ty }

/-- The first two coordinates replaced by the untwisted ones. -/
def vUntwist (C : ι → Ctx F) (i : ι) (p : PVal ι F) : Except String (PVal ι F) :=
  match p.coords with
  | none => .error "TypeError"
  | some (a :: b :: t) =>
    let r := untwistC (C i) (a, b)
    .ok { p with coords := some (r.1 :: r.2 :: t) }
  | some _ => .error "ValueError"

/-- Conversion to affine coordinates. -/
def vToAffine (C : ι → Ctx F) (i : ι) (p : PVal ι F) : Except String (PVal ι F) :=
  match (C i).kind with
  | .affine => .ok p
  | .projective => if p.ty = .projective then vConvert C i p 1 (some .affine) else .error "AssertionError"
  | .xyzz => if p.ty = .xyzz then vConvert C i p 2 (some .affine) else .error "AssertionError"
  | .twisted =>
    match vConvert C i p 2 none with
    | .error e => .error e
    | .ok q => vUntwist C i q

/-- Conversion from affine coordinates. -/
def vFromAffine (C : ι → Ctx F) (i : ι) (p : PVal ι F) : Except String (PVal ι F) :=
  match (C i).kind with
  | .affine => .error "AttributeError"
  | .projective => if p.ty = .projective then vConvert C i p 1 (some .affine) else .error "AssertionError"
  | .xyzz =>
    if (C p.sys).kind.ty = .affine then
      match vCopy C p with
      | .error e => .error e
      | .ok q =>
        match q.coords with
        | none => .error "AssertionError"
        | some vs => .ok { q with
            coords := some (vs ++ [(C i).one, (C i).one])
            sys := i
            ty := .xyzz }
    else .error "AssertionError"
  | .twisted => .error "returns NotImplementedError"

/-- `generate_point`. -/
def vGen (C : ι → Ctx F) (i : ι) (c : Option (List F)) (zero tw : Bool) : Except String (PVal ι F) :=
  if (C i).kind = .twisted ∧ tw = true then
    match c with
    | none => .error "TypeError"
    | some [x, y] => vNew C i ((twistC (C i) (x, y)).map fun r => [r.1, r.2]) zero
    | some _ => .error "ValueError"
  else vNew C i c zero

/-- Values of the variables, and the exceptions so far. -/
structure VSt (ι F : Type) where
  env : List (PVal ι F)
  log : List (Option String)

/-- A variable. -/
def VSt.get (s : VSt ι F) (v : Nat) : Except String (PVal ι F) :=
  match s.env[v]? with
  | none => .error "NameError"
  | some p => .ok p

/-- A coordinate. -/
def VSt.arg (s : VSt ι F) : Arg F → Except String F
  | .int v => .ok v
  | .coord v i => do
    let p ← s.get v
    index p.coords i

/-- Coordinates. -/
def VSt.args (s : VSt ι F) : List (Arg F) → Except String (List F)
  | [] => .ok []
  | a :: t => do
    let u ← s.arg a
    let v ← s.args t
    .ok (u :: v)

/-- A statement without in-place change: the value of the new variable. -/
def vEval (C : ι → Ctx F) (s : VSt ι F) : Cmd ι F → Except String (PVal ι F)
  | .gen i none zero tw => vGen C i none zero tw
  | .gen i (some args) zero tw => do
    let vs ← s.args args
    vGen C i (some vs) zero tw
  | .add a b => do
    let p ← s.get a
    let q ← s.get b
    vAdd C p q
  | .shift a n => do
    let p ← s.get a
    vShift C p n
  | .copy a => do
    let p ← s.get a
    vCopy C p
  | .toAffine a => do
    let p ← s.get a
    vToAffine C p.sys p
  | .toEdAffine a => do
    let p ← s.get a
    if (C p.sys).kind = .twisted then vConvert C p.sys p 2 none else .error "AttributeError"
  | .fromAffine i a => do
    let p ← s.get a
    vFromAffine C i p
  | .same a => s.get a
  | _ => .error "in-place change"

/-- The statements without in-place change. -/
def Cmd.pure : Cmd ι F → Bool
  | .setItem .. => false
  | .append .. => false
  | .setValue .. => false
  | _ => true

/-- Execute a statement on values. -/
def vStep (C : ι → Ctx F) (s : VSt ι F) (c : Cmd ι F) : VSt ι F :=
  match vEval C s c with
  | .ok p => ⟨s.env ++ [p], s.log ++ [none]⟩
  | .error e => ⟨s.env, s.log ++ [some e]⟩

/-- Execute a program on values. -/
def vRun (C : ι → Ctx F) (s : VSt ι F) (p : List (Cmd ι F)) : VSt ι F := p.foldl (vStep C) s

/-- The statement does not convert a point of the twisted class that is flagged zero. -/
def VSt.safe (s : VSt ι F) : Cmd ι F → Bool
  | .toAffine a | .toEdAffine a | .fromAffine _ a =>
    match s.env[a]? with
    | none => true
    | some p => !(p.zero && p.coords.isSome)
  | _ => true

/-- No statement of the program does. -/
def safeRun (C : ι → Ctx F) : VSt ι F → List (Cmd ι F) → Bool
  | _, [] => true
  | s, c :: t => s.safe c && safeRun C (vStep C s c) t

end Verif.EcPoint
