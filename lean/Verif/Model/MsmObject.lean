import Verif.Model.Pippenger

/-!
# The MSM classes of jaxite_ec/pippenger.py and jaxite_ec/pippenger_rns.py as objects with state

`Verif.Model.Pippenger` models one complete run on a fresh object.  Here the methods act one at a time on the attributes
that they read and write, so that objects can be used more than once.  The function arguments of the methods are the
compiled algorithms of the same file, compiled for the shapes of the object (as in msm_test.py); a call with other
shapes raises `TypeError`.  A history ends at the first call that raises.
-/

namespace Verif.Pippenger

variable {α ι : Type}

/-- The attributes that the methods of a class change: `all_buckets`, the arrays set by `initialize`, `window_sum` and
`result`; `none` is an attribute without a value. -/
structure MsmState (α ι : Type) where
  buckets : List (List α)
  input : Option ι
  windowSum : Option (List α)
  result : Option α

/-- Method calls. -/
inductive MsmCall (α : Type) where
  /-- `initialize` -/
  | init (scalars : List Int) (points : List α)
  | accumulate
  | reduce
  | batch
  | merge

/-! ## MSMPippengerTwisted and MSMPippengerTwistedSigned -/

/-- What distinguishes the two classes. -/
structure TwClass (α ι : Type) where
  /-- `bucket_num_per_window` -/
  bucketNum : Nat → Nat
  /-- the arrays that `initialize` computes -/
  prepare : Nat → Nat → List Int → List α → Except String ι
  /-- the compiled bucket accumulation -/
  accum : Nat → Nat → ι → List (List α) → List (List α)
  /-- `initialize` sets `window_sum` to blank points (L974-997); the signed class does not. -/
  setsWindowSum : Bool

/-- `MSMPippengerTwisted` (pippenger.py L858-1060; pippenger_rns.py L854-1057): the selection arrays of
`initialize` (L935-973) and `bucket_accumulation` (L999-1004). -/
def twPlain (o : Ops α) : TwClass α (List α × List (List Nat)) where
  bucketNum k := 2 ^ k - 1
  prepare k par scalars points :=
    if shapesOk par points.length scalars.length then
      .ok (points, (baSelection k scalars).map fun r => r.map toU32)
    else .error "ValueError"
  accum k par i b := bucketAccumulation o (windowNum k) par (i.1.length / par) b i.1 i.2
  setsWindowSum := true

/-- `MSMPippengerTwistedSigned` (pippenger.py L1117-1319): `initialize` (L1194-1234), `bucket_accumulation` (L1236-1245). -/
def twSigned (o : Ops α) : TwClass α (List α × List (List Nat) × List (List Int)) where
  bucketNum k := 2 ^ (k - 1)
  prepare k par scalars points := do
    let ss ← baSelectionSigned k scalars
    if shapesOk par points.length scalars.length then
      .ok (points, ss.map (fun r => r.1.map toU32), ss.map (·.2))
    else .error "ValueError"
  accum k par i b := bucketAccumulationSigned o (windowNum k) par (i.1.length / par) b i.1 i.2.1 i.2.2
  setsWindowSum := false

/-- `__init__` (L886-932, L1148-1192). -/
def twNew (o : Ops α) (c : TwClass α ι) (k par : Nat) : MsmState α ι where
  buckets := List.replicate (windowNum k * par) (List.replicate (c.bucketNum k) o.blank)
  input := none
  windowSum := none
  result := none

/-- One method call.  `initialize` does not touch `all_buckets` (L934-997, L1194-1234). -/
def twStep (o : Ops α) (c : TwClass α ι) (k par : Nat) (s : MsmState α ι) : MsmCall α → Except String (MsmState α ι)
  | .init scalars points => do
    let i ← c.prepare k par scalars points
    .ok { s with
      input := some i
      windowSum := if c.setsWindowSum then some (List.replicate (windowNum k * par) o.blank) else s.windowSum }
  | .accumulate =>
    match s.input with
    | none => .error "AttributeError"
    | some i => .ok { s with buckets := c.accum k par i s.buckets }
  | .reduce => .ok { s with windowSum := some (s.buckets.map (bucketReduce o)) }
  | .batch =>
    match s.windowSum with
    | none => .error "AttributeError"
    | some l =>
      if l.length = windowNum k * par then .ok { s with windowSum := some (batchSum o (windowNum k) par l) }
      else .error "TypeError"
  | .merge =>
    match s.windowSum with
    | none => .error "AttributeError"
    | some l => if l.length = windowNum k then .ok { s with result := some (windowMerge o k l) } else .error "TypeError"

/-- A history of calls. -/
def twRun (o : Ops α) (c : TwClass α ι) (k par : Nat) (s : MsmState α ι) (cs : List (MsmCall α)) :
    Except String (MsmState α ι) := cs.foldlM (twStep o c k par) s

/-- `initialize` packs the integer coordinates of the points (L948-951, L1208-1211). -/
def packCall : MsmCall (Verif.EcCurve.Quad Nat) → Except String (MsmCall (Verif.EcCurve.Quad (List Nat)))
  | .init scalars points => do
    let pts ← points.mapM packPoint
    .ok (.init scalars pts)
  | .accumulate => .ok .accumulate
  | .reduce => .ok .reduce
  | .batch => .ok .batch
  | .merge => .ok .merge

/-- A history of calls with integer coordinates. -/
def twRunInts (c : TwClass (Verif.EcCurve.Quad (List Nat)) ι) (k par : Nat)
    (s : MsmState (Verif.EcCurve.Quad (List Nat)) ι) (cs : List (MsmCall (Verif.EcCurve.Quad Nat))) :
    Except String (MsmState (Verif.EcCurve.Quad (List Nat)) ι) :=
  cs.foldlM (fun s call => do
    let call ← packCall call
    twStep lazyTwisted c k par s call) s

/-! ## MSMPippenger -/

/-- The arrays set by `MSMPippenger.initialize` (L546-596): points, selected buckets, zero flags before each step, and
the flags of the reduction for each window. -/
structure XInput (α : Type) where
  points : List α
  sel : List (List Nat)
  zero : List (List (List Bool))
  br : List (List Bool × List Bool × List Bool)

/-- `MSMPippenger.initialize` (L546-596). -/
def xPrepare (k : Nat) (scalars : List Int) (points : List α) : Except String (XInput α) :=
  if shapesOk 1 points.length scalars.length then
    let z := zeroStates k scalars
    .ok ⟨points, xyzzSelection k scalars, z.take points.length, (z.getD (z.length - 1) []).map brZero⟩
  else .error "ValueError"

/-- `MSMPippenger.__init__` (L505-544). -/
def xNew (o : Ops α) (k : Nat) : MsmState α (XInput α) where
  buckets := List.replicate (windowNum k) (List.replicate (2 ^ k) o.blank)
  input := none
  windowSum := none
  result := none

/-- One method call of `MSMPippenger` (L546-647); there is no `batch_window_summation`. -/
def xCall (o : Ops α) (k : Nat) (s : MsmState α (XInput α)) : MsmCall α → Except String (MsmState α (XInput α))
  | .init scalars points => do
    let i ← xPrepare k scalars points
    .ok { s with input := some i }
  | .accumulate =>
    match s.input with
    | none => .error "AttributeError"
    | some i => .ok { s with buckets := xAccumulate o s.buckets i.points i.sel i.zero }
  | .reduce =>
    match s.input with
    | none => .error "AttributeError"
    | some i => .ok { s with windowSum := some ((List.range s.buckets.length).map fun w =>
        xReduce o (s.buckets.getD w []) (i.br.getD w ([], [], []))) }
  | .batch => .error "AttributeError"
  | .merge =>
    match s.windowSum with
    | none => .error "AttributeError"
    | some l => .ok { s with result := some (windowMerge o k l) }

/-- A history of calls. -/
def xRun (o : Ops α) (k : Nat) (s : MsmState α (XInput α)) (cs : List (MsmCall α)) :
    Except String (MsmState α (XInput α)) := cs.foldlM (xCall o k) s

end Verif.Pippenger
