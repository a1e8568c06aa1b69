import Verif.Model.EcCurve
import Mathlib.AlgebraicGeometry.EllipticCurve.Affine.Point
import Mathlib.Tactic.FieldSimp
import Mathlib.Tactic.LinearCombination

/-!
# Short Weierstrass curves, their group and coordinate representations of points
-/

namespace Verif.EcCurve

open WeierstrassCurve.Affine

variable {F : Type*} [Field F]

/-- The curve `y² = x³ + a x + b`; its points with Mathlib's group law are the specification. -/
def shortW (a b : F) : WeierstrassCurve.Affine F where
  a₁ := 0
  a₂ := 0
  a₃ := 0
  a₄ := a
  a₆ := b

/-- The point `A` is the affine point `(x, y)`. -/
def IsXY {a b : F} (A : (shortW a b).Point) (x y : F) : Prop := ∃ h, A = .some x y h

theorem IsXY.eqn {a b x y : F} {A : (shortW a b).Point} (h : IsXY A x y) : y ^ 2 = x ^ 3 + a * x + b := by
  obtain ⟨h, _⟩ := h
  have := (equation_iff _ _).1 h.1
  simp only [shortW] at this
  linear_combination this

theorem IsXY.ne_zero {a b x y : F} {A : (shortW a b).Point} (h : IsXY A x y) : A ≠ 0 := by
  obtain ⟨h, rfl⟩ := h
  exact Point.some_ne_zero h

theorem isXY_or_zero {a b : F} (A : (shortW a b).Point) : A = 0 ∨ ∃ x y, IsXY A x y := by
  rcases A with _ | ⟨x, y, h⟩
  · exact Or.inl rfl
  · exact Or.inr ⟨x, y, h, rfl⟩

theorem IsXY.unique {a b x y x' y' : F} {A : (shortW a b).Point} (h : IsXY A x y) (h' : IsXY A x' y') :
    x = x' ∧ y = y' := by
  obtain ⟨h, rfl⟩ := h
  obtain ⟨h', e⟩ := h'
  injection e with e1 e2
  exact ⟨e1, e2⟩

theorem IsXY.neg {a b x y : F} {A : (shortW a b).Point} (h : IsXY A x y) : IsXY (-A) x (-y) := by
  obtain ⟨h, rfl⟩ := h
  have e : (shortW a b).negY x y = -y := by simp [negY, shortW]
  rw [Point.neg_some]
  have h' := (nonsingular_neg x y).mpr h
  rw [e] at h'
  refine ⟨h', ?_⟩
  congr 1

/-- Nonsingularity of the affine points of a curve with nonzero discriminant. -/
theorem exists_isXY {a b x y : F} (hΔ : 4 * a ^ 3 + 27 * b ^ 2 ≠ 0) (h2 : (2 : F) ≠ 0)
    (h : y ^ 2 = x ^ 3 + a * x + b) : ∃ A : (shortW a b).Point, IsXY A x y := by
  have hd : (shortW a b).Δ ≠ 0 := by
    have e : (shortW a b).Δ = -(2 * 2 * 2 * 2) * (4 * a ^ 3 + 27 * b ^ 2) := by
      simp only [WeierstrassCurve.Δ, WeierstrassCurve.b₂, WeierstrassCurve.b₄, WeierstrassCurve.b₆,
        WeierstrassCurve.b₈, shortW]
      ring
    rw [e]
    simp only [ne_eq, mul_eq_zero, neg_eq_zero, not_or]
    exact ⟨⟨⟨⟨h2, h2⟩, h2⟩, h2⟩, hΔ⟩
  have heq : (shortW a b).Equation x y := by
    rw [equation_iff]
    simp only [shortW]
    linear_combination h
  exact ⟨.some x y ((equation_iff_nonsingular_of_Δ_ne_zero hd).1 heq), _, rfl⟩

variable [DecidableEq F]

theorem IsXY.same_x {a b x y y' : F} {A B : (shortW a b).Point} (hA : IsXY A x y) (hB : IsXY B x y') :
    A = B ∨ A = -B := by
  obtain ⟨h, rfl⟩ := hA
  obtain ⟨h', rfl⟩ := hB
  exact Point.X_eq_iff.1 rfl

/-- The chord rule. -/
theorem IsXY.add {a b x1 y1 x2 y2 : F} {A B : (shortW a b).Point} (hA : IsXY A x1 y1) (hB : IsXY B x2 y2)
    (hx : x1 ≠ x2) : IsXY (A + B) (((y2 - y1) / (x2 - x1)) ^ 2 - x1 - x2)
      ((y2 - y1) / (x2 - x1) * (x1 - (((y2 - y1) / (x2 - x1)) ^ 2 - x1 - x2)) - y1) := by
  obtain ⟨h1, rfl⟩ := hA
  obtain ⟨h2, rfl⟩ := hB
  have e := Point.add_of_X_ne (h₁ := h1) (h₂ := h2) hx
  have h3 := nonsingular_add h1 h2 (fun hxy => hx hxy.left)
  have es : (y1 - y2) / (x1 - x2) = (y2 - y1) / (x2 - x1) := by
    rw [← neg_sub y2, ← neg_sub x2, neg_div_neg_eq]
  have ex : (shortW a b).addX x1 x2 ((shortW a b).slope x1 x2 y1 y2) = ((y2 - y1) / (x2 - x1)) ^ 2 - x1 - x2 := by
    rw [slope_of_X_ne hx, es]
    simp [shortW]
  have ey : (shortW a b).addY x1 x2 y1 ((shortW a b).slope x1 x2 y1 y2) =
      (y2 - y1) / (x2 - x1) * (x1 - (((y2 - y1) / (x2 - x1)) ^ 2 - x1 - x2)) - y1 := by
    rw [slope_of_X_ne hx, es]
    simp only [addY, negY, negAddY, addX, shortW]
    ring
  rw [← ey, ← ex]
  exact ⟨h3, e⟩

/-- The tangent rule. -/
theorem IsXY.double {a b x y : F} {A : (shortW a b).Point} (hA : IsXY A x y) (hy : y + y ≠ 0) :
    IsXY (A + A) (((3 * x ^ 2 + a) / (y + y)) ^ 2 - x - x)
      ((3 * x ^ 2 + a) / (y + y) * (x - (((3 * x ^ 2 + a) / (y + y)) ^ 2 - x - x)) - y) := by
  obtain ⟨h1, rfl⟩ := hA
  have hn : y ≠ (shortW a b).negY x y := by
    simp only [negY, shortW]
    intro h
    apply hy
    linear_combination h
  have e := Point.add_self_of_Y_ne (h₁ := h1) hn
  have h3 := nonsingular_add h1 h1 (fun hxy => hn hxy.right)
  have es : (shortW a b).slope x x y y = (3 * x ^ 2 + a) / (y + y) := by
    rw [slope_of_Y_ne rfl hn]
    simp only [negY, shortW]
    congr 1 <;> ring
  have ex : (shortW a b).addX x x ((shortW a b).slope x x y y) = ((3 * x ^ 2 + a) / (y + y)) ^ 2 - x - x := by
    rw [es]
    simp [shortW]
  have ey : (shortW a b).addY x x y ((shortW a b).slope x x y y) =
      (3 * x ^ 2 + a) / (y + y) * (x - (((3 * x ^ 2 + a) / (y + y)) ^ 2 - x - x)) - y := by
    rw [es]
    simp only [addY, negY, negAddY, addX, shortW]
    ring
  rw [← ey, ← ex]
  exact ⟨h3, e⟩

/-- A point with `y = -y` is its own inverse. -/
theorem IsXY.double_zero {a b x y : F} {A : (shortW a b).Point} (hA : IsXY A x y) (hy : y + y = 0) : A + A = 0 := by
  obtain ⟨h1, rfl⟩ := hA
  apply Point.add_self_of_Y_eq
  simp only [negY, shortW]
  linear_combination hy

theorem IsXY.add_neg {a b x y : F} {A B : (shortW a b).Point} (hA : IsXY A x y) (hB : IsXY B x (-y)) : A + B = 0 := by
  obtain ⟨h1, rfl⟩ := hA
  obtain ⟨h2, rfl⟩ := hB
  apply Point.add_of_Y_eq rfl
  simp [negY, shortW]

/-! ## XYZZ coordinates -/

/-- The coordinates `(X, Y, ZZ, ZZZ)` with `ZZ³ = ZZZ² ≠ 0` represent the affine point `(X/ZZ, Y/ZZZ)`; the flagged
zero represents the neutral element. -/
def XRep {a b : F} (p : Option (Quad F)) (A : (shortW a b).Point) : Prop :=
  match p with
  | none => A = 0
  | some (x, y, zz, zzz) => zz ≠ 0 ∧ zzz ≠ 0 ∧ zz ^ 3 = zzz ^ 2 ∧ IsXY A (x / zz) (y / zzz)

omit [DecidableEq F] in
theorem xrep_param {z w : F} (hz : z ≠ 0) (hw : w ≠ 0) (h : z ^ 3 = w ^ 2) : ∃ u, u ≠ 0 ∧ z = u ^ 2 ∧ w = u ^ 3 := by
  refine ⟨w / z, div_ne_zero hw hz, ?_, ?_⟩
  · field_simp
    linear_combination h
  · field_simp
    linear_combination h

theorem xyzzAdd_rep {a b : F} (p q : Quad F) (A B : (shortW a b).Point) (hp : XRep (some p) A) (hq : XRep (some q) B)
    (hx : p.1 / p.2.2.1 ≠ q.1 / q.2.2.1) : XRep (some (xyzzAdd p q)) (A + B) := by
  obtain ⟨x1, y1, z1, w1⟩ := p
  obtain ⟨x2, y2, z2, w2⟩ := q
  obtain ⟨hz1, hw1, e1, h1⟩ := hp
  obtain ⟨hz2, hw2, e2, h2⟩ := hq
  dsimp only at hx
  have h3 := h1.add h2 hx
  have hd : x2 * z1 - x1 * z2 ≠ 0 := by
    intro h
    apply hx
    rw [div_eq_div_iff hz1 hz2]
    linear_combination -h
  obtain ⟨u, hu, rfl, rfl⟩ := xrep_param hz1 hw1 e1
  obtain ⟨v, hv, rfl, rfl⟩ := xrep_param hz2 hw2 e2
  obtain ⟨D, hD⟩ : ∃ D, D = x2 * u ^ 2 - x1 * v ^ 2 := ⟨_, rfl⟩
  obtain ⟨R, hR⟩ : ∃ R, R = y2 * u ^ 3 - y1 * v ^ 3 := ⟨_, rfl⟩
  have ex : x2 / v ^ 2 - x1 / u ^ 2 = D / (u ^ 2 * v ^ 2) := by rw [hD]; field_simp
  have ey : y2 / v ^ 3 - y1 / u ^ 3 = R / (u ^ 3 * v ^ 3) := by rw [hR]; field_simp
  have ex2 : x2 / v ^ 2 = (D + x1 * v ^ 2) / (u ^ 2 * v ^ 2) := by rw [hD]; field_simp; ring
  rw [← hD] at hd
  rw [ex, ey, ex2] at h3
  simp only [xyzzAdd, ← hD, ← hR]
  refine ⟨?_, ?_, ?_, ?_⟩
  · exact mul_ne_zero (mul_ne_zero hz1 hz2) (mul_ne_zero hd hd)
  · exact mul_ne_zero (mul_ne_zero hw1 hw2) (mul_ne_zero hd (mul_ne_zero hd hd))
  · ring
  · convert h3 using 1
    · field_simp
      ring
    · field_simp
      ring

theorem xyzzDouble_rep {a b : F} (p : Quad F) (A : (shortW a b).Point) (hp : XRep (some p) A) (h2 : (2 : F) ≠ 0)
    (hy : p.2.1 ≠ 0) : XRep (some (xyzzDouble a p)) (A + A) := by
  obtain ⟨x1, y1, z1, w1⟩ := p
  obtain ⟨hz1, hw1, e1, h1⟩ := hp
  dsimp only at hy
  obtain ⟨u, hu, rfl, rfl⟩ := xrep_param hz1 hw1 e1
  have hyy : y1 + y1 ≠ 0 := by rw [← two_mul]; exact mul_ne_zero h2 hy
  have h3 := h1.double (by rw [← add_div]; exact div_ne_zero hyy hw1)
  simp only [xyzzDouble]
  refine ⟨?_, ?_, ?_, ?_⟩
  · exact mul_ne_zero (mul_ne_zero hyy hyy) hz1
  · exact mul_ne_zero (mul_ne_zero hyy (mul_ne_zero hyy hyy)) hw1
  · ring
  · obtain ⟨U, hU⟩ : ∃ U, U = y1 + y1 := ⟨_, rfl⟩
    have e1 : y1 / u ^ 3 + y1 / u ^ 3 = U / u ^ 3 := by rw [hU]; field_simp
    rw [← hU] at hyy
    rw [e1] at h3
    simp only [← hU]
    convert h3 using 1
    · field_simp
      ring
    · field_simp
      ring

end Verif.EcCurve
