import Verif.Lemmas.EcGroup

/-!
# Projective coordinates: mixed addition, doubling and the complete addition formulas
-/

namespace Verif.EcCurve

open WeierstrassCurve.Affine

variable {F : Type*} [Field F] [DecidableEq F]

/-- `(X : Y : Z)` represents the point `A`: either `Z ≠ 0` and `A = (X / Z, Y / Z)`, or `A` is the neutral element and
the coordinates are `(0 : Y : 0)` with `Y ≠ 0`. -/
def PRep {a b : F} (p : Triple F) (A : (shortW a b).Point) : Prop :=
  (p.2.2 ≠ 0 ∧ IsXY A (p.1 / p.2.2) (p.2.1 / p.2.2)) ∨ (p.1 = 0 ∧ p.2.2 = 0 ∧ p.2.1 ≠ 0 ∧ A = 0)

omit [DecidableEq F] in
theorem PRep.scale {a b k x y z : F} {A : (shortW a b).Point} (hk : k ≠ 0) (h : PRep (x, y, z) A) :
    PRep (k * x, k * y, k * z) A := by
  rcases h with ⟨hz, h⟩ | ⟨hx, hz, hy, h⟩
  · refine Or.inl ⟨mul_ne_zero hk hz, ?_⟩
    dsimp only at *
    rw [mul_div_mul_left _ _ hk, mul_div_mul_left _ _ hk]
    exact h
  · dsimp only at *
    refine Or.inr ⟨?_, ?_, mul_ne_zero hk hy, h⟩
    · simp [hx]
    · simp [hz]

omit [DecidableEq F] in
theorem PRep.of_xy {a b k x y : F} {A : (shortW a b).Point} (hk : k ≠ 0) (h : IsXY A x y) : PRep (k * x, k * y, k) A := by
  refine Or.inl ⟨hk, ?_⟩
  dsimp only
  rw [mul_div_cancel_left₀ _ hk, mul_div_cancel_left₀ _ hk]
  exact h

theorem projMadd_rep {a b : F} (x1 y1 z1 x2 y2 : F) (A B : (shortW a b).Point) (hz : z1 ≠ 0)
    (hA : IsXY A (x1 / z1) (y1 / z1)) (hB : IsXY B x2 y2) (hx : x1 / z1 ≠ x2) :
    PRep (projMadd (x1, y1, z1) x2 y2) (A + B) := by
  have h3 := hA.add hB hx
  obtain ⟨u, hu⟩ : ∃ u, u = y2 * z1 - y1 := ⟨_, rfl⟩
  obtain ⟨v, hv⟩ : ∃ v, v = x2 * z1 - x1 := ⟨_, rfl⟩
  have ev : x2 - x1 / z1 = v / z1 := by rw [hv]; field_simp
  have eu : y2 - y1 / z1 = u / z1 := by rw [hu]; field_simp
  have hv0 : v ≠ 0 := by
    intro h
    rw [h, zero_div, sub_eq_zero] at ev
    exact hx ev.symm
  have ex2 : x2 = (v + x1) / z1 := by rw [hv]; field_simp; ring
  rw [ev, eu, div_div_div_cancel_right₀ hz] at h3
  rw [ex2] at h3
  simp only [projMadd, ← hu, ← hv]
  refine Or.inl ⟨mul_ne_zero (mul_ne_zero hv0 (mul_ne_zero hv0 hv0)) hz, ?_⟩
  dsimp only
  convert h3 using 1
  · field_simp
    ring
  · field_simp
    ring

theorem projDouble_scale (a k x y z : F) : projDouble a (k * x, k * y, k * z) =
    (k ^ 6 * (projDouble a (x, y, z)).1, k ^ 6 * (projDouble a (x, y, z)).2.1, k ^ 6 * (projDouble a (x, y, z)).2.2) := by
  simp only [projDouble]
  refine Prod.ext ?_ (Prod.ext ?_ ?_) <;> dsimp only <;> ring

omit [DecidableEq F] in
theorem IsXY.nonsing {a b x : F} {A : (shortW a b).Point} (h : IsXY A x 0) : 3 * x ^ 2 + a ≠ 0 := by
  obtain ⟨h, _⟩ := h
  have := (nonsingular_iff' _ _).1 h
  simp only [shortW] at this
  intro e
  rcases this.2 with h | h
  · apply h
    linear_combination -e
  · apply h
    ring

theorem projDouble_rep {a b : F} (h2 : (2 : F) ≠ 0) (p : Triple F) (A : (shortW a b).Point) (hp : PRep p A)
    (hz : p.2.2 ≠ 0) : PRep (projDouble a p) (A + A) := by
  obtain ⟨X, Y, Z⟩ := p
  rcases hp with ⟨_, h⟩ | ⟨_, h, _, _⟩
  swap
  · exact absurd h hz
  dsimp only at h hz
  obtain ⟨x, hx⟩ : ∃ x, x = X / Z := ⟨_, rfl⟩
  obtain ⟨y, hy⟩ : ∃ y, y = Y / Z := ⟨_, rfl⟩
  rw [← hx, ← hy] at h
  have e : (X, Y, Z) = (Z * x, Z * y, Z * 1) := by
    rw [hx, hy, mul_div_cancel₀ _ hz, mul_div_cancel₀ _ hz, mul_one]
  rw [e, projDouble_scale]
  apply PRep.scale (pow_ne_zero 6 hz)
  by_cases hy0 : y = 0
  · subst hy0
    rw [h.double_zero (by simp)]
    have := h.nonsing
    refine Or.inr ⟨?_, ?_, ?_, rfl⟩
    · simp [projDouble]
    · simp [projDouble]
    · simp only [projDouble]
      have e2 : (a * (1 * 1) + x * x * 3) * ((x + 0 * (0 * 1 * 2)) * (x + 0 * (0 * 1 * 2)) - x * x -
          0 * (0 * 1 * 2) * (0 * (0 * 1 * 2)) - ((a * (1 * 1) + x * x * 3) * (a * (1 * 1) + x * x * 3) -
            ((x + 0 * (0 * 1 * 2)) * (x + 0 * (0 * 1 * 2)) - x * x - 0 * (0 * 1 * 2) * (0 * (0 * 1 * 2))) * 2)) -
          0 * (0 * 1 * 2) * (0 * (0 * 1 * 2)) * 2 = -(3 * x ^ 2 + a) ^ 3 := by ring
      rw [e2]
      exact neg_ne_zero.2 (pow_ne_zero 3 this)
  · have hyy : y + y ≠ 0 := by rw [← two_mul]; exact mul_ne_zero h2 hy0
    have h3 := h.double hyy
    rw [← two_mul] at h3 hyy
    have hs := PRep.of_xy (pow_ne_zero 3 hyy) h3
    convert hs using 1
    simp only [projDouble]
    refine Prod.ext ?_ (Prod.ext ?_ ?_)
    · dsimp only
      field_simp
      ring
    · dsimp only
      field_simp
      ring
    · dsimp only
      ring

theorem projAdd_scale (a b k l x y z x' y' z' : F) : projAdd a b (k * x, k * y, k * z) (l * x', l * y', l * z') =
    ((k * l) ^ 2 * (projAdd a b (x, y, z) (x', y', z')).1, (k * l) ^ 2 * (projAdd a b (x, y, z) (x', y', z')).2.1,
      (k * l) ^ 2 * (projAdd a b (x, y, z) (x', y', z')).2.2) := by
  simp only [projAdd]
  refine Prod.ext ?_ (Prod.ext ?_ ?_) <;> dsimp only <;> ring

/-- The chord case, both points with `z = 1`. -/
theorem projAdd_chord {a b x1 y1 x2 y2 : F} {A B : (shortW a b).Point} (hA : IsXY A x1 y1) (hB : IsXY B x2 y2)
    (hx : x1 ≠ x2) (hD : (A + -B) + (A + -B) ≠ 0) : PRep (projAdd a b (x1, y1, 1) (x2, y2, 1)) (A + B) := by
  have h3 := hA.add hB hx
  have hd := hA.add hB.neg hx
  have hyD : ((-y2 - y1) / (x2 - x1) * (x1 - (((-y2 - y1) / (x2 - x1)) ^ 2 - x1 - x2)) - y1) ≠ 0 := by
    intro h
    rw [h] at hd
    exact hD (hd.double_zero (by simp))
  have hx' : x2 - x1 ≠ 0 := sub_ne_zero.2 (Ne.symm hx)
  have q1 := hA.eqn
  have q2 := hB.eqn
  have eb : b = y1 ^ 2 - x1 ^ 3 - a * x1 := by linear_combination -q1
  have ea : a = (y2 ^ 2 - y1 ^ 2 - (x2 ^ 3 - x1 ^ 3)) / (x2 - x1) := by
    rw [eq_div_iff hx']
    linear_combination q1 - q2
  have hZ : (projAdd a b (x1, y1, 1) (x2, y2, 1)).2.2 = (x2 - x1) ^ 3 *
      ((-y2 - y1) / (x2 - x1) * (x1 - (((-y2 - y1) / (x2 - x1)) ^ 2 - x1 - x2)) - y1) := by
    simp only [projAdd]
    rw [eb, ea]
    field_simp
    ring
  have hZ0 : (projAdd a b (x1, y1, 1) (x2, y2, 1)).2.2 ≠ 0 := by
    rw [hZ]
    exact mul_ne_zero (pow_ne_zero 3 hx') hyD
  have := PRep.of_xy hZ0 h3
  convert this using 1
  refine Prod.ext ?_ (Prod.ext ?_ rfl)
  · dsimp only
    rw [hZ]
    simp only [projAdd]
    rw [eb, ea]
    field_simp
    ring
  · dsimp only
    rw [hZ]
    simp only [projAdd]
    rw [eb, ea]
    field_simp
    ring

/-- The same point twice, `z = 1`. -/
theorem projAdd_self {a b x y : F} (h2 : (2 : F) ≠ 0) {A : (shortW a b).Point} (hA : IsXY A x y) :
    PRep (projAdd a b (x, y, 1) (x, y, 1)) (A + A) := by
  have q := hA.eqn
  have eb : b = y ^ 2 - x ^ 3 - a * x := by linear_combination -q
  by_cases hy0 : y = 0
  · subst hy0
    rw [hA.double_zero (by simp)]
    have := hA.nonsing
    refine Or.inr ⟨?_, ?_, ?_, rfl⟩
    · simp [projAdd]
    · simp [projAdd]
    · have e2 : (projAdd a b (x, 0, 1) (x, 0, 1)).2.1 = -(3 * x ^ 2 + a) ^ 3 := by
        simp only [projAdd]
        rw [eb]
        ring
      rw [e2]
      exact neg_ne_zero.2 (pow_ne_zero 3 this)
  · have hyy : y + y ≠ 0 := by rw [← two_mul]; exact mul_ne_zero h2 hy0
    have h3 := hA.double hyy
    rw [← two_mul] at h3 hyy
    have hs := PRep.of_xy (pow_ne_zero 3 hyy) h3
    convert hs using 1
    simp only [projAdd]
    refine Prod.ext ?_ (Prod.ext ?_ ?_)
    · dsimp only
      rw [eb]
      field_simp
      ring
    · dsimp only
      rw [eb]
      field_simp
      ring
    · dsimp only
      rw [eb]
      ring

/-- A point and its inverse, `z = 1`. -/
theorem projAdd_inv {a b x y : F} (h2 : (2 : F) ≠ 0) {A : (shortW a b).Point} (hA : IsXY A x y) (hy : y ≠ 0)
    (h4 : (A + A) + (A + A) ≠ 0) : PRep (projAdd a b (x, y, 1) (x, -y, 1)) (0 : (shortW a b).Point) := by
  have q := hA.eqn
  have eb : b = y ^ 2 - x ^ 3 - a * x := by linear_combination -q
  have hyy : y + y ≠ 0 := by rw [← two_mul]; exact mul_ne_zero h2 hy
  have h3 := hA.double hyy
  rw [← two_mul] at h3 hyy
  have hyD : (3 * x ^ 2 + a) / (2 * y) * (x - (((3 * x ^ 2 + a) / (2 * y)) ^ 2 - x - x)) - y ≠ 0 := by
    intro h
    rw [h] at h3
    exact h4 (h3.double_zero (by simp))
  refine Or.inr ⟨?_, ?_, ?_, rfl⟩
  · simp only [projAdd]
    ring
  · simp only [projAdd]
    ring
  · have e : (projAdd a b (x, y, 1) (x, -y, 1)).2.1 = (2 * y) ^ 3 *
        ((3 * x ^ 2 + a) / (2 * y) * (x - (((3 * x ^ 2 + a) / (2 * y)) ^ 2 - x - x)) - y) := by
      simp only [projAdd]
      rw [eb]
      field_simp
      ring
    rw [e]
    exact mul_ne_zero (pow_ne_zero 3 hyy) hyD

/-- `add_general` (the complete formulas): correct for all pairs whose difference is not a point of order two. -/
theorem projAdd_rep {a b : F} (h2 : (2 : F) ≠ 0) (p q : Triple F) (A B : (shortW a b).Point) (hp : PRep p A)
    (hq : PRep q B) (hD : A + -B ≠ 0 → (A + -B) + (A + -B) ≠ 0) : PRep (projAdd a b p q) (A + B) := by
  obtain ⟨X1, Y1, Z1⟩ := p
  obtain ⟨X2, Y2, Z2⟩ := q
  rcases hp with ⟨hz1, h1⟩ | ⟨hx1, hz1, hy1, rfl⟩
  · dsimp only at hz1 h1
    obtain ⟨x1, ex1⟩ : ∃ x, x = X1 / Z1 := ⟨_, rfl⟩
    obtain ⟨y1, ey1⟩ : ∃ y, y = Y1 / Z1 := ⟨_, rfl⟩
    have e1 : (X1, Y1, Z1) = (Z1 * x1, Z1 * y1, Z1 * 1) := by
      rw [ex1, ey1, mul_div_cancel₀ _ hz1, mul_div_cancel₀ _ hz1, mul_one]
    rw [← ex1, ← ey1] at h1
    rcases hq with ⟨hz2, h2'⟩ | ⟨hx2, hz2, hy2, rfl⟩
    · dsimp only at hz2 h2'
      obtain ⟨x2, ex2⟩ : ∃ x, x = X2 / Z2 := ⟨_, rfl⟩
      obtain ⟨y2, ey2⟩ : ∃ y, y = Y2 / Z2 := ⟨_, rfl⟩
      have e2 : (X2, Y2, Z2) = (Z2 * x2, Z2 * y2, Z2 * 1) := by
        rw [ex2, ey2, mul_div_cancel₀ _ hz2, mul_div_cancel₀ _ hz2, mul_one]
      rw [← ex2, ← ey2] at h2'
      rw [e1, e2, projAdd_scale]
      apply PRep.scale (pow_ne_zero 2 (mul_ne_zero hz1 hz2))
      by_cases hx : x1 = x2
      · subst hx
        rcases h1.same_x h2' with h | h
        · subst h
          obtain ⟨_, rfl⟩ := h1.unique h2'
          exact projAdd_self h2 h1
        · subst h
          obtain ⟨_, rfl⟩ := h2'.neg.unique h1
          by_cases hy : y2 = 0
          · subst hy
            have hB0 := h2'.double_zero (by simp)
            have hBB : -B = B := neg_eq_of_add_eq_zero_left hB0
            rw [hBB, neg_zero]
            exact projAdd_self h2 h2'
          · have hBB : -B + -B ≠ 0 := by
              intro h
              have h5 := h1.double (by rw [← two_mul]; exact mul_ne_zero h2 (neg_ne_zero.2 hy))
              exact h5.ne_zero h
            have := projAdd_inv h2 h1 (neg_ne_zero.2 hy) (hD hBB)
            rw [neg_neg] at this
            rw [neg_add_cancel]
            exact this
      · refine projAdd_chord h1 h2' hx (hD ?_)
        exact (h1.add h2'.neg hx).ne_zero
    · dsimp only at hx2 hz2 hy2
      subst hx2 hz2
      rw [add_zero]
      rw [neg_zero, add_zero] at hD
      have hy : Y1 ≠ 0 := by
        intro h
        rw [h, zero_div] at ey1
        subst ey1
        exact hD h1.ne_zero (h1.double_zero (by simp))
      have : PRep (Y1 * Y2 ^ 2 * X1, Y1 * Y2 ^ 2 * Y1, Y1 * Y2 ^ 2 * Z1) A := by
        refine PRep.scale (mul_ne_zero hy (pow_ne_zero 2 hy2)) (Or.inl ⟨hz1, ?_⟩)
        dsimp only
        rw [← ex1, ← ey1]
        exact h1
      convert this using 1
      simp only [projAdd]
      refine Prod.ext ?_ (Prod.ext ?_ ?_) <;> dsimp only <;> ring
  · dsimp only at hx1 hz1 hy1
    subst hx1 hz1
    rw [zero_add]
    rw [zero_add] at hD
    rcases hq with ⟨hz2, h2'⟩ | ⟨hx2, hz2, hy2, rfl⟩
    · dsimp only at hz2 h2'
      have hy : Y2 ≠ 0 := by
        intro h
        rw [h, zero_div] at h2'
        refine hD h2'.neg.ne_zero (IsXY.double_zero h2'.neg (by simp))
      have : PRep (Y2 * Y1 ^ 2 * X2, Y2 * Y1 ^ 2 * Y2, Y2 * Y1 ^ 2 * Z2) B :=
        PRep.scale (mul_ne_zero hy (pow_ne_zero 2 hy1)) (Or.inl ⟨hz2, h2'⟩)
      convert this using 1
      simp only [projAdd]
      refine Prod.ext ?_ (Prod.ext ?_ ?_) <;> dsimp only <;> ring
    · dsimp only at hx2 hz2 hy2
      subst hx2 hz2
      refine Or.inr ⟨?_, ?_, ?_, rfl⟩
      · simp [projAdd]
      · simp [projAdd]
      · simp only [projAdd]
        have : (Y1 * Y2 - (b * 3 * (0 * 0) + a * ((0 + 0) * (0 + 0) - (0 * 0 + 0 * 0)))) *
            (Y1 * Y2 + (b * 3 * (0 * 0) + a * ((0 + 0) * (0 + 0) - (0 * 0 + 0 * 0)))) +
            (0 * 0 + 0 * 0 + 0 * 0 + a * (0 * 0)) * (b * 3 * ((0 + 0) * (0 + 0) - (0 * 0 + 0 * 0)) +
              a * (0 * 0 - a * (0 * 0))) = (Y1 * Y2) ^ 2 := by ring
        rw [this]
        exact pow_ne_zero 2 (mul_ne_zero hy1 hy2)

end Verif.EcCurve
