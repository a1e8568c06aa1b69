import Verif.Lemmas.EcGenerator
import Verif.Lemmas.EcCurveOps
import Verif.Props.EcXyzz

/-!
# C59: twisted Edwards addition; C65: twist and untwist

Specification: the group of points of `y² = x³ + 1` as defined in Mathlib, with `EdXY c A u e` ("the twisted Edwards
coordinates of `A` are `(u, e)`", with the birational map written out) and `ERep c (X, Y, Z, T) A` (`Z ≠ 0`,
`T Z = X Y`, and `(X / Z, Y / Z)` are the Edwards coordinates of `A`).

The constant `d` of the configured curve is a square, so the addition law is not complete on the whole curve
(`C59_incomplete`); it is complete on the points of odd order, which include the subgroup of prime order `ORDER`
generated by the configured generator (`C59_subgroup`).
-/

namespace Verif.Props

open Verif.EcCurve Verif.EcChunks

variable {F : Type*} [Field F] [DecidableEq F]

/-- The configured constants satisfy the relations required by the formulas. -/
theorem C59_constants : TwOk (blsTwist : TwCfg (ZMod P)) where
  two := by decide +kernel
  alpha := rfl
  s := by decide +kernel
  mb := rfl
  ma := by decide +kernel
  t := by decide +kernel
  ts := by decide +kernel
  ds := by decide +kernel

/-- `point_add` represents the group sum of any two points of odd order, for all representatives: equal points,
inverse points and the neutral element included.  In particular `Z3 ≠ 0` and `T3 Z3 = X3 Y3`. -/
theorem C59_add (c : TwCfg F) (hc : TwOk c) (p q : Quad F) (A B : (W1 : WeierstrassCurve.Affine F).Point)
    (hA : OddPt A) (hB : OddPt B) (hp : ERep c p A) (hq : ERep c q B) : ERep c (edAdd c.d p q) (A + B) :=
  edAdd_rep hc p q A B hA hB hp hq

/-- `double_general`. -/
theorem C59_double (c : TwCfg F) (hc : TwOk c) (p : Quad F) (A : (W1 : WeierstrassCurve.Affine F).Point)
    (hA : OddPt A) (hp : ERep c p A) : ERep c (edDouble p) (A + A) :=
  edDouble_rep hc p A hA hp

/-- Doubling agrees with adding a point to itself (as points: the representatives differ by a factor). -/
theorem C59_double_eq_add (c : TwCfg F) (hc : TwOk c) (p : Quad F) (A : (W1 : WeierstrassCurve.Affine F).Point)
    (hA : OddPt A) (hp : ERep c p A) :
    (edDouble p).1 / (edDouble p).2.2.1 = (edAdd c.d p p).1 / (edAdd c.d p p).2.2.1 ∧
      (edDouble p).2.1 / (edDouble p).2.2.1 = (edAdd c.d p p).2.1 / (edAdd c.d p p).2.2.1 :=
  (C59_double c hc p A hA hp).2.2.unique (C59_add c hc p p A A hA hA hp hp).2.2

/-- `zero` represents the neutral element. -/
theorem C59_zero (c : TwCfg F) : ERep c edZero 0 := by
  refine ⟨one_ne_zero, by simp [edZero], Or.inl ⟨rfl, by simp [edZero], by simp [edZero]⟩⟩

/-- `point_lshift`. -/
theorem C59_shift (c : TwCfg F) (hc : TwOk c) (p : Quad F) (A : (W1 : WeierstrassCurve.Affine F).Point) (n : Nat)
    (hA : OddPt A) (hp : ERep c p A) : ERep c (edShift p n) (2 ^ n • A) := by
  induction n with
  | zero => simpa [edShift] using hp
  | succ n ih =>
    simp only [edShift, Function.iterate_succ_apply'] at ih ⊢
    have e : 2 ^ (n + 1) • A = 2 ^ n • A + 2 ^ n • A := by rw [pow_succ, mul_two, add_nsmul]
    rw [e]
    exact C59_double c hc _ _ (hA.nsmul _) ih

/-- Equal coordinates mean equal points: distinct points of odd order are never confused. -/
theorem C59_faithful (c : TwCfg F) (hc : TwOk c) (p q : Quad F) (A B : (W1 : WeierstrassCurve.Affine F).Point)
    (hA : OddPt A) (hB : OddPt B) (hp : ERep c p A) (hq : ERep c q B)
    (h1 : p.1 / p.2.2.1 = q.1 / q.2.2.1) (h2 : p.2.1 / p.2.2.1 = q.2.1 / q.2.2.1) : A = B := by
  have e1 := hp.2.2
  have e2 := hq.2.2
  rw [h1, h2] at e1
  obtain ⟨uD, eD, hD⟩ := (hA.add hB.neg).exists_ed hc
  obtain ⟨l1, l2⟩ := ed_law hc e1 e2.neg hD
  obtain ⟨n1, n2⟩ := ed_complete hc hA hB.neg e1 e2.neg
  have hcv := e2.eqn hc
  obtain ⟨u, hu⟩ : ∃ u, u = q.1 / q.2.2.1 := ⟨_, rfl⟩
  obtain ⟨e, he⟩ : ∃ e, e = q.2.1 / q.2.2.1 := ⟨_, rfl⟩
  rw [← hu, ← he] at l1 l2 n1 n2 hcv
  have hu0 : uD = 0 := mul_right_cancel₀ n1 (by rw [l1]; ring)
  have he1 : eD = 1 := mul_right_cancel₀ n2 (by rw [l2]; linear_combination hcv)
  rw [← sub_eq_zero, sub_eq_add_neg]
  rcases hD with ⟨h, _⟩ | ⟨x, y, hxy, hy, hx, _, h⟩
  · exact h
  · exfalso
    rw [he1, eq_div_iff hx] at h
    apply hc.two
    linear_combination h

/-! ## The array functions -/

/-- `padd_lazy_twisted` on 25-chunk coordinates at most `p << 16`. -/
theorem C59_lazy_add (p q : Quad (List Nat)) (u v : Quad (ZMod P)) (A B : (W1 : WeierstrassCurve.Affine (ZMod P)).Point)
    (hp : LRep4 p u) (hq : LRep4 q v) (hA : OddPt A) (hB : OddPt B) (hu : ERep blsTwist u A) (hv : ERep blsTwist v B) :
    ∃ w, LRep4 (paddLazyTwisted p q) w ∧ ERep blsTwist w (A + B) :=
  ⟨_, paddLazyTwisted_rep hp hq, C59_add blsTwist C59_constants u v A B hA hB hu hv⟩

/-- `pdul_lazy_twisted`. -/
theorem C59_lazy_double (p : Quad (List Nat)) (u : Quad (ZMod P)) (A : (W1 : WeierstrassCurve.Affine (ZMod P)).Point)
    (hp : LRep4 p u) (hA : OddPt A) (hu : ERep blsTwist u A) :
    ∃ w, LRep4 (pdulLazyTwisted p) w ∧ ERep blsTwist w (A + A) :=
  ⟨_, pdulLazyTwisted_rep hp, C59_double blsTwist C59_constants u A hA hu⟩

/-- `pneg_lazy_twisted`. -/
theorem C59_lazy_neg (p : Quad (List Nat)) (u : Quad (ZMod P)) (A : (W1 : WeierstrassCurve.Affine (ZMod P)).Point)
    (hp : LRep4 p u) (hu : ERep blsTwist u A) :
    ∃ w, LRep4 (pnegLazyTwisted p) w ∧ ERep blsTwist w (-A) := by
  obtain ⟨x, y, z, t⟩ := u
  exact ⟨_, pnegLazyTwisted_rep hp, hu.neg⟩

/-! ## Scope -/

/-- The subgroup the code works in: the configured generator lies on the curve and is killed by the (odd) configured
order, and so is every multiple and every sum of multiples. -/
theorem C59_subgroup : ∃ G : (W1 : WeierstrassCurve.Affine (ZMod P)).Point,
    IsXY G (GEN_X : ZMod P) (GEN_Y : ZMod P) ∧ ORDER • G = 0 ∧ ∀ k : Nat, OddPt (k • G) := by
  obtain ⟨G, hG⟩ : ∃ A : (shortW (0 : ZMod P) 1).Point, IsXY A (GEN_X : ZMod P) (GEN_Y : ZMod P) :=
    exists_isXY (by decide +kernel) (by decide +kernel) (by decide +kernel)
  have h := order_generator hG
  exact ⟨G, hG, h, fun k => OddPt.nsmul ⟨ORDER, ORDER_odd, h⟩ k⟩

/-- The coordinates of `(0, 1) + T` where `T` is a point of order two other than `(-1, 0)`. -/
def EXC_X : Nat := 161899296529825438817116726281274954529690589441420998956274574525425071876602923759626918821890
@[inherit_doc EXC_X]
def EXC_Y : Nat := 258664426012969094010652733694893533536393512754914660539884262666720468348340822774968888139573360124440321458174
/-- Its twisted Edwards coordinates. -/
def EXC_U : Nat := 64117461244856009408279880285091043842879386385819703389035378773258747136365436530001114474446623223634009856401
@[inherit_doc EXC_U]
def EXC_E : Nat := 42198664672744474621281227892288285906241943207628877683080515507620245292955241189266486323192680957485559243678
/-- The twisted Edwards coordinates of `(0, 1)`. -/
def THREE_U : Nat := 23560188534917577818843641916571445935985386319233886518929971599490231428764380923487987729215299304184915158756
@[inherit_doc THREE_U]
def THREE_E : Nat := 30567070899668889872121584789658882274245471728719284894883538395508419196346447682510590835309008936731240225791

theorem exists_bls {x y : ZMod P} (h : y ^ 2 = x ^ 3 + 0 * x + 1) :
    ∃ A : (W1 : WeierstrassCurve.Affine (ZMod P)).Point, IsXY A x y :=
  exists_isXY (by decide +kernel) (by decide +kernel) h

theorem three_ed {A : (W1 : WeierstrassCurve.Affine (ZMod P)).Point} (hA : IsXY A 0 1) :
    EdXY blsTwist A (THREE_U : ZMod P) (THREE_E : ZMod P) := by
  refine Or.inr ⟨0, 1, hA, one_ne_zero, by decide +kernel, ?_, ?_⟩
  · rw [eq_div_iff one_ne_zero]
    decide +kernel
  · rw [eq_div_iff (by decide +kernel)]
    decide +kernel

theorem exc_ed {A : (W1 : WeierstrassCurve.Affine (ZMod P)).Point} (hA : IsXY A (EXC_X : ZMod P) (EXC_Y : ZMod P)) :
    EdXY blsTwist A (EXC_U : ZMod P) (EXC_E : ZMod P) := by
  refine Or.inr ⟨_, _, hA, by decide +kernel, by decide +kernel, ?_, ?_⟩
  · rw [eq_div_iff (by decide +kernel)]
    decide +kernel
  · rw [eq_div_iff (by decide +kernel)]
    decide +kernel

/-- Completeness fails outside the points of odd order: for the point `A = (0, 1)` (of order three) and a point `B` of
order six, both with valid extended coordinates, `point_add` returns `Z3 = 0`, which represents no point. -/
theorem C59_incomplete : ∃ (A B : (W1 : WeierstrassCurve.Affine (ZMod P)).Point) (p q : Quad (ZMod P)),
    ERep blsTwist p A ∧ ERep blsTwist q B ∧ OddPt A ∧ (edAdd (blsTwist : TwCfg (ZMod P)).d p q).2.2.1 = 0 := by
  obtain ⟨A, hA⟩ := exists_bls (x := 0) (y := 1) (by ring)
  obtain ⟨B, hB⟩ := exists_bls (x := (EXC_X : ZMod P)) (y := (EXC_Y : ZMod P)) (by decide +kernel)
  refine ⟨A, B, ((THREE_U : ZMod P), (THREE_E : ZMod P), 1, (THREE_U : ZMod P) * (THREE_E : ZMod P)),
    ((EXC_U : ZMod P), (EXC_E : ZMod P), 1, (EXC_U : ZMod P) * (EXC_E : ZMod P)),
    ⟨one_ne_zero, by ring, ?_⟩, ⟨one_ne_zero, by ring, ?_⟩, ⟨3, by decide, ?_⟩, by decide +kernel⟩
  · rw [div_one, div_one]
    exact three_ed hA
  · rw [div_one, div_one]
    exact exc_ed hB
  · have h2 := hA.double (by decide +kernel)
    have e : ((3 * (0 : ZMod P) ^ 2 + 0) / (1 + 1)) = 0 := by simp
    rw [e] at h2
    have h3 : IsXY (A + A) 0 (-1) := by
      convert h2 using 1 <;> ring
    rw [show (3 : Nat) = 2 + 1 from rfl, add_nsmul, one_nsmul, two_nsmul, add_comm]
    exact hA.add_neg h3

/-- The hypotheses of `C59_add` are satisfiable by two different nonzero points. -/
example : ∃ (A B : (W1 : WeierstrassCurve.Affine (ZMod P)).Point) (p q : Quad (ZMod P)),
    OddPt A ∧ OddPt B ∧ A ≠ B ∧ A ≠ 0 ∧ ERep blsTwist p A ∧ ERep blsTwist q B := by
  obtain ⟨G, hG, h0, h⟩ := C59_subgroup
  have h1 := h 1
  have h2 := h 2
  rw [one_nsmul] at h1
  rw [two_nsmul] at h2
  obtain ⟨u1, e1, r1⟩ := h1.exists_ed C59_constants
  obtain ⟨u2, e2, r2⟩ := h2.exists_ed C59_constants
  refine ⟨G, G + G, (u1, e1, 1, u1 * e1), (u2, e2, 1, u2 * e2), h1, h2, ?_, hG.ne_zero,
    ⟨one_ne_zero, by ring, by simpa using r1⟩, ⟨one_ne_zero, by ring, by simpa using r2⟩⟩
  intro e
  exact hG.ne_zero (by simpa using e)

/-- The generator meets the hypotheses of `C59_double`, `C59_double_eq_add`, `C59_shift` and, with its double in the
representations that `C59_double` and `C59_add` return, of `C59_faithful`; in chunks those of `C59_lazy_add`,
`C59_lazy_double` and `C59_lazy_neg`. -/
example : ∃ (G : (W1 : WeierstrassCurve.Affine (ZMod P)).Point) (p : Quad (ZMod P)) (l : Quad (List Nat)), G ≠ 0 ∧ ERep blsTwist p G ∧
    ERep blsTwist (edDouble p) (G + G) ∧ ERep blsTwist (edShift p 7) (2 ^ 7 • G) ∧
    (edDouble p).1 / (edDouble p).2.2.1 = (edAdd (blsTwist : TwCfg (ZMod P)).d p p).1 / (edAdd (blsTwist : TwCfg (ZMod P)).d p p).2.2.1 ∧
    (∃ w, LRep4 (paddLazyTwisted l l) w ∧ ERep blsTwist w (G + G)) ∧ (∃ w, LRep4 (pdulLazyTwisted l) w ∧ ERep blsTwist w (G + G)) ∧
    ∃ w, LRep4 (pnegLazyTwisted l) w ∧ ERep blsTwist w (-G) := by
  obtain ⟨G, hG, h0, h⟩ := C59_subgroup
  have h1 := h 1
  rw [one_nsmul] at h1
  have h2 := h 2
  rw [two_nsmul] at h2
  obtain ⟨u, e, r⟩ := h1.exists_ed C59_constants
  have hp : ERep blsTwist (u, e, 1, u * e) G := ⟨one_ne_zero, by ring, by simpa using r⟩
  obtain ⟨l, hl⟩ := exists_LRep4 (u, e, 1, u * e)
  have heq := C59_double_eq_add blsTwist C59_constants _ G h1 hp
  have : G + G = G + G := C59_faithful blsTwist C59_constants _ _ (G + G) (G + G) h2 h2
    (C59_double blsTwist C59_constants _ G h1 hp) (C59_add blsTwist C59_constants _ _ G G h1 h1 hp hp) heq.1 heq.2
  exact ⟨G, (u, e, 1, u * e), l, hG.ne_zero, hp, C59_double blsTwist C59_constants _ G h1 hp,
    C59_shift blsTwist C59_constants _ G 7 h1 hp, heq.1, C59_lazy_add l l _ _ G G hl hl h1 h1 hp hp,
    C59_lazy_double l _ G hl h1 hp, C59_lazy_neg l _ G hl hp⟩

/-! ## C65: twist and untwist -/

/-- `twist` of an affine point of the curve: it returns the Edwards coordinates of the point, or `None` exactly when
`y = 0` or the denominator `s (x + 1) + 1` vanishes. -/
theorem C65_twist (c : TwCfg F) (hc : TwOk c) (x y : F) (A : (W1 : WeierstrassCurve.Affine F).Point) (hA : IsXY A x y) :
    (twist c (x, y) = none ↔ y = 0 ∨ c.s * (x + 1) + 1 = 0) ∧
      ∀ q, twist c (x, y) = some q → EdXY c A q.1 q.2 := by
  have hs := hc.s_ne
  have hx : x - c.alpha = x + 1 := by rw [hc.alpha]; ring
  simp only [twist, hx]
  constructor
  · split_ifs with h1 h2
    · simp only [true_iff]
      exact Or.inl ((mul_eq_zero.1 h1).resolve_left hs)
    · simp [h2]
    · simp only [reduceCtorEq, false_iff, not_or]
      exact ⟨fun h => h1 (by rw [h, mul_zero]), h2⟩
  · intro q hq
    split_ifs at hq with h1 h2
    injection hq with hq
    subst hq
    have hy : y ≠ 0 := fun h => h1 (by rw [h, mul_zero])
    refine Or.inr ⟨x, y, hA, hy, h2, ?_, rfl⟩
    dsimp only
    rw [mul_div_mul_left _ _ hs]
    ring

/-- For points of odd order other than the neutral element `twist` always succeeds. -/
theorem C65_twist_total (c : TwCfg F) (hc : TwOk c) (x y : F) (A : (W1 : WeierstrassCurve.Affine F).Point)
    (hA : IsXY A x y) (ho : OddPt A) : ∃ q, twist c (x, y) = some q ∧ EdXY c A q.1 q.2 := by
  obtain ⟨h1, h2⟩ := C65_twist c hc x y A hA
  obtain ⟨u, e, h⟩ := ho.exists_ed hc
  rcases h with ⟨h0, _⟩ | ⟨x', y', hA', hy, hx, _, _⟩
  · exact absurd h0 hA.ne_zero
  · obtain ⟨rfl, rfl⟩ := hA.unique hA'
    match hq : twist c (x, y) with
    | none => exact absurd (h1.1 hq) (by simp [hy, hx])
    | some q => exact ⟨q, rfl, h2 q hq⟩

/-- `twist` sends points of the Weierstrass curve to points of the twisted Edwards curve. -/
theorem C65_twist_on_curve (c : TwCfg F) (hc : TwOk c) (x y : F) (q : F × F)
    (A : (W1 : WeierstrassCurve.Affine F).Point) (hA : IsXY A x y) (hq : twist c (x, y) = some q) :
    -q.1 ^ 2 + q.2 ^ 2 = 1 + c.d * q.1 ^ 2 * q.2 ^ 2 := by
  have := ((C65_twist c hc x y A hA).2 q hq).eqn hc
  linear_combination this

/-- `untwist` of the Edwards coordinates of an affine point returns its Weierstrass coordinates. -/
theorem C65_untwist (c : TwCfg F) (hc : TwOk c) (u e x y : F) (A : (W1 : WeierstrassCurve.Affine F).Point)
    (hA : IsXY A x y) (h : EdXY c A u e) : untwist c (u, e) = (x, y) := by
  rcases h with ⟨h0, _⟩ | ⟨x', y', hA', hy, hx, rfl, rfl⟩
  · exact absurd h0 hA.ne_zero
  obtain ⟨rfl, rfl⟩ := hA.unique hA'
  have hs := hc.s_ne
  have ht := hc.t
  have h2 := hc.two
  have h3 : (3 : F) ≠ 0 := by
    intro h
    have := hc.s
    rw [h, zero_mul] at this
    exact zero_ne_one this
  have hx1 : x + 1 ≠ 0 := by
    intro h
    have he := hA.eqn
    have hx' : x = -1 := by linear_combination h
    rw [hx'] at he
    exact pow_ne_zero 2 hy (by rw [he]; ring)
  have e1 : 1 + (c.s * (x + 1) - 1) / (c.s * (x + 1) + 1) = 2 * (c.s * (x + 1)) / (c.s * (x + 1) + 1) := by
    rw [one_add_div hx]; ring
  have e2 : 1 - (c.s * (x + 1) - 1) / (c.s * (x + 1) + 1) = 2 / (c.s * (x + 1) + 1) := by
    rw [one_sub_div hx]; ring
  have e3 : c.t * (x + 1) / y / c.t = (x + 1) / y := by field_simp
  simp only [untwist, e1, e2, e3, hc.mb, hc.ma]
  refine Prod.ext ?_ ?_
  · dsimp only
    field_simp
    ring
  · dsimp only
    field_simp

/-- `untwist (twist P) = P` wherever `twist` is defined. -/
theorem C65_untwist_twist (c : TwCfg F) (hc : TwOk c) (x y : F) (q : F × F)
    (A : (W1 : WeierstrassCurve.Affine F).Point) (hA : IsXY A x y) (hq : twist c (x, y) = some q) :
    untwist c q = (x, y) :=
  C65_untwist c hc q.1 q.2 x y A hA ((C65_twist c hc x y A hA).2 q hq)

/-- `generate_point` with two Weierstrass coordinates. -/
theorem C65_generate_point (c : TwCfg F) (hc : TwOk c) (x y : F) (A : (W1 : WeierstrassCurve.Affine F).Point)
    (hA : IsXY A x y) (ho : OddPt A) : ∃ p, edGenerate c (x, y) = .ok p ∧ ERep c p A := by
  obtain ⟨q, hq, h⟩ := C65_twist_total c hc x y A hA ho
  refine ⟨edFormal q, by simp only [edGenerate, hq], one_ne_zero, ?_, ?_⟩
  · simp [edFormal]
  · simpa [edFormal] using h

/-- `twist_int_coordinates` of a point of odd order. -/
theorem C65_twist_int_coordinates (c : TwCfg F) (hc : TwOk c) (x y : F) (A : (W1 : WeierstrassCurve.Affine F).Point)
    (hA : IsXY A x y) (ho : OddPt A) : ERep c (twistIntCoordinates c (x, y)) A := by
  obtain ⟨q, hq, h⟩ := C65_twist_total c hc x y A hA ho
  simp only [twistIntCoordinates, hq]
  refine ⟨one_ne_zero, ?_, ?_⟩
  · simp [edFormal]
  · simpa [edFormal] using h

/-- `convert_to_affine` returns the Weierstrass coordinates of the represented point if it is not the neutral
element. -/
theorem C65_convert_to_affine (c : TwCfg F) (hc : TwOk c) (p : Quad F) (x y : F)
    (A : (W1 : WeierstrassCurve.Affine F).Point) (hA : IsXY A x y) (hp : ERep c p A) : edToAffine c p = (x, y) := by
  obtain ⟨X, Y, Z, T⟩ := p
  have h := C65_untwist c hc _ _ x y A hA hp.2.2
  simp only [edToAffine, edToEdAffine]
  rw [mul_one_div, mul_one_div]
  exact h

/-- For the neutral element it returns `(-1, 0)`: the coordinates of a different point, one of order two. -/
theorem C65_convert_to_affine_neutral (c : TwCfg F) (hc : TwOk c) (p : Quad F) (hp : ERep c p 0) :
    edToAffine c p = (-1, 0) ∧ ∀ A : (W1 : WeierstrassCurve.Affine F).Point, IsXY A (-1) 0 → A ≠ 0 ∧ A + A = 0 := by
  obtain ⟨X, Y, Z, T⟩ := p
  constructor
  · have h := hp.2.2
    obtain ⟨h1, h2⟩ := h.unique (Or.inl ⟨rfl, rfl, rfl⟩)
    dsimp only at h1 h2
    simp only [edToAffine, edToEdAffine]
    rw [mul_one_div, mul_one_div, h1, h2]
    have hs := hc.s_ne
    have h3 : (3 : F) ≠ 0 := by
      intro h
      have := hc.s
      rw [h, zero_mul] at this
      exact zero_ne_one this
    simp only [untwist, hc.mb, hc.ma, sub_self, div_zero, zero_mul, zero_div, zero_add]
    rw [neg_div, div_self (mul_ne_zero h3 hs)]
  · intro A hA
    exact ⟨hA.ne_zero, hA.double_zero (by simp)⟩

/-- `twist_projective` is right for `z = 1`: the result is a projective form of `twist`. -/
theorem C65_twist_projective_partial (c : TwCfg F) (x y : F) (q : F × F) (hq : twist c (x, y) = some q) :
    let r := twistProjective c (x, y, 1)
    r.2.2 ≠ 0 ∧ r.1 / r.2.2 = q.1 ∧ r.2.1 / r.2.2 = q.2 := by
  simp only [twist] at hq
  split_ifs at hq with h1 h2
  injection hq with hq
  subst hq
  simp only [twistProjective, one_mul]
  refine ⟨mul_ne_zero h1 h2, ?_, ?_⟩
  · rw [div_mul_eq_mul_div, div_eq_div_iff (mul_ne_zero h1 h2) h1]
    ring
  · rw [div_eq_div_iff (mul_ne_zero h1 h2) h2]
    ring

/-- It is wrong for other `z`: `(4 : 6 : 2)` and `(2 : 3 : 1)` are the same projective point, with different
results. -/
theorem C65_twist_projective_false :
    let r := twistProjective (blsTwist : TwCfg (ZMod P)) (4, 6, 2)
    let r' := twistProjective (blsTwist : TwCfg (ZMod P)) (2, 3, 1)
    r.1 * r'.2.2 ≠ r'.1 * r.2.2 := by
  decide +kernel

/-- Non-vacuity: `twist` is defined at the configured generator. -/
example : ∃ A : (W1 : WeierstrassCurve.Affine (ZMod P)).Point, ∃ q,
    IsXY A (GEN_X : ZMod P) (GEN_Y : ZMod P) ∧ twist blsTwist ((GEN_X : ZMod P), (GEN_Y : ZMod P)) = some q := by
  obtain ⟨G, hG, _, h⟩ := C59_subgroup
  have h1 := h 1
  rw [one_nsmul] at h1
  obtain ⟨q, hq, _⟩ := C65_twist_total blsTwist C59_constants _ _ G hG h1
  exact ⟨G, q, hG, hq⟩

/-- The generator again, for the conversions: hypotheses of `C65_twist`, `C65_twist_on_curve`, `C65_untwist`,
`C65_untwist_twist`, `C65_generate_point`, `C65_twist_int_coordinates`, `C65_convert_to_affine` and
`C65_twist_projective_partial`. -/
example : ∃ (q : ZMod P × ZMod P) (p : Quad (ZMod P)), twist blsTwist ((GEN_X : ZMod P), (GEN_Y : ZMod P)) = some q ∧
    -q.1 ^ 2 + q.2 ^ 2 = 1 + (blsTwist : TwCfg (ZMod P)).d * q.1 ^ 2 * q.2 ^ 2 ∧
    untwist blsTwist q = ((GEN_X : ZMod P), (GEN_Y : ZMod P)) ∧
    edGenerate blsTwist ((GEN_X : ZMod P), (GEN_Y : ZMod P)) = .ok p ∧ edToAffine blsTwist p = ((GEN_X : ZMod P), (GEN_Y : ZMod P)) ∧
    edToAffine blsTwist (twistIntCoordinates blsTwist ((GEN_X : ZMod P), (GEN_Y : ZMod P))) = ((GEN_X : ZMod P), (GEN_Y : ZMod P)) ∧
    (twistProjective blsTwist ((GEN_X : ZMod P), (GEN_Y : ZMod P), 1)).2.2 ≠ 0 := by
  obtain ⟨G, hG, _, h⟩ := C59_subgroup
  have h1 := h 1
  rw [one_nsmul] at h1
  obtain ⟨q, hq, _⟩ := C65_twist_total blsTwist C59_constants _ _ G hG h1
  have hx := (C65_twist blsTwist C59_constants _ _ G hG).2 q hq
  have hu : untwist blsTwist (q.1, q.2) = _ := C65_untwist blsTwist C59_constants _ _ _ _ G hG hx
  obtain ⟨p, hp, hr⟩ := C65_generate_point blsTwist C59_constants _ _ G hG h1
  exact ⟨q, p, hq, C65_twist_on_curve blsTwist C59_constants _ _ q G hG hq,
    (C65_untwist_twist blsTwist C59_constants _ _ q G hG hq).trans rfl, hp,
    C65_convert_to_affine blsTwist C59_constants _ _ _ G hG hr,
    C65_convert_to_affine blsTwist C59_constants _ _ _ G hG (C65_twist_int_coordinates blsTwist C59_constants _ _ G hG h1),
    (C65_twist_projective_partial blsTwist _ _ q hq).1⟩

/-- The neutral element meets the hypotheses of `C65_convert_to_affine_neutral`. -/
example := C65_convert_to_affine_neutral (blsTwist : TwCfg (ZMod P)) C59_constants _ (C59_zero blsTwist)

end Verif.Props
