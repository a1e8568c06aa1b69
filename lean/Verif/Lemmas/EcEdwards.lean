import Verif.Lemmas.EcGroup

/-!
# The twisted Edwards model of `y² = x³ + 1` and its addition law on points of odd order
-/

namespace Verif.EcCurve

variable {F : Type*} [Field F]

/-- What the formulas need of the configured constants (over a field of characteristic not 2): the Weierstrass curve is
`y² = x³ + 1` with the point `(alpha, 0) = (-1, 0)` of order two, `s = 1/√3`, the Montgomery curve is
`s v² = u³ - 3 s u² + u`, and `t` scales the twisted Edwards curve to `-x² + y² = 1 + d x² y²`. -/
structure TwOk (c : TwCfg F) : Prop where
  two : (2 : F) ≠ 0
  alpha : c.alpha = -1
  s : 3 * c.s ^ 2 = 1
  mb : c.mb = c.s
  ma : c.ma = -(3 * c.s)
  t : c.t ≠ 0
  ts : c.t ^ 2 * c.s = 3 * c.s - 2
  ds : c.d * (c.t ^ 2 * c.s) = -(3 * c.s) - 2

theorem TwOk.s_ne {c : TwCfg F} (hc : TwOk c) : c.s ≠ 0 := by
  intro h
  have := hc.s
  rw [h] at this
  simp at this

theorem TwOk.d_ne {c : TwCfg F} (hc : TwOk c) : c.d ≠ -1 := by
  intro h
  have h1 := hc.ds
  have h2 := hc.ts
  rw [h] at h1
  apply mul_ne_zero hc.two hc.two
  linear_combination h1 + h2

/-- The curve `y² = x³ + 1`. -/
abbrev W1 : WeierstrassCurve.Affine F := shortW 0 1

/-- `(u, e)` are the twisted Edwards coordinates of the point `A`: `(0, 1)` for the neutral element, and
`(t (x + 1) / y, (s (x + 1) - 1) / (s (x + 1) + 1))` for an affine point `(x, y)` at which both denominators are
nonzero. -/
def EdXY (c : TwCfg F) (A : (W1 : WeierstrassCurve.Affine F).Point) (u e : F) : Prop :=
  (A = 0 ∧ u = 0 ∧ e = 1) ∨
    ∃ x y, IsXY A x y ∧ y ≠ 0 ∧ c.s * (x + 1) + 1 ≠ 0 ∧ u = c.t * (x + 1) / y ∧
      e = (c.s * (x + 1) - 1) / (c.s * (x + 1) + 1)

theorem EdXY.eqn {c : TwCfg F} (hc : TwOk c) {A : (W1 : WeierstrassCurve.Affine F).Point} {u e : F}
    (h : EdXY c A u e) : e ^ 2 - u ^ 2 = 1 + c.d * u ^ 2 * e ^ 2 := by
  rcases h with ⟨_, rfl, rfl⟩ | ⟨x, y, hA, hy, hx, rfl, rfl⟩
  · ring
  · have he := hA.eqn
    obtain ⟨v, hv⟩ : ∃ v, v = x + 1 := ⟨_, rfl⟩
    have hs := hc.s_ne
    have h3 : y ^ 2 * c.s ^ 2 = v * (c.s ^ 2 * v ^ 2 - 3 * c.s ^ 2 * v + 1) := by
      rw [hv]
      linear_combination c.s ^ 2 * he + (x + 1) * hc.s
    rw [← hv] at hx ⊢
    have hy2 : y ^ 2 ≠ 0 := pow_ne_zero 2 hy
    rw [div_pow, div_pow]
    field_simp
    apply mul_left_cancel₀ (pow_ne_zero 3 hs)
    linear_combination (-4 * c.s ^ 2 * v) * h3 + v ^ 2 * (-(c.s ^ 2) * (c.s * v + 1) ^ 2) * hc.ts -
      v ^ 2 * c.s ^ 2 * (c.s * v - 1) ^ 2 * hc.ds

theorem EdXY.neg {c : TwCfg F} {A : (W1 : WeierstrassCurve.Affine F).Point} {u e : F}
    (h : EdXY c A u e) : EdXY c (-A) (-u) e := by
  rcases h with ⟨rfl, rfl, rfl⟩ | ⟨x, y, hA, hy, hx, rfl, rfl⟩
  · left
    simp
  · right
    exact ⟨x, -y, hA.neg, neg_ne_zero.2 hy, hx, by rw [div_neg], rfl⟩

theorem EdXY.unique {c : TwCfg F} {A : (W1 : WeierstrassCurve.Affine F).Point} {u e u' e' : F}
    (h : EdXY c A u e) (h' : EdXY c A u' e') : u = u' ∧ e = e' := by
  rcases h with ⟨h0, rfl, rfl⟩ | ⟨x, y, hA, hy, hx, rfl, rfl⟩
  · rcases h' with ⟨_, rfl, rfl⟩ | ⟨x, y, hA, _⟩
    · exact ⟨rfl, rfl⟩
    · exact absurd h0 hA.ne_zero
  · rcases h' with ⟨h0, rfl, rfl⟩ | ⟨x', y', hA', hy', hx', rfl, rfl⟩
    · exact absurd h0 hA.ne_zero
    · obtain ⟨rfl, rfl⟩ := hA.unique hA'
      exact ⟨rfl, rfl⟩

variable [DecidableEq F]

/-- Points of odd order (including the neutral element). -/
def OddPt {a b : F} (A : (shortW a b).Point) : Prop := ∃ m : Nat, Odd m ∧ m • A = 0

theorem OddPt.zero {a b : F} : OddPt (0 : (shortW a b).Point) := ⟨1, odd_one, by simp⟩

theorem OddPt.add {a b : F} {A B : (shortW a b).Point} (hA : OddPt A) (hB : OddPt B) : OddPt (A + B) := by
  obtain ⟨m, hm, h⟩ := hA
  obtain ⟨n, hn, h'⟩ := hB
  refine ⟨m * n, hm.mul hn, ?_⟩
  rw [nsmul_add, mul_comm m n, mul_nsmul', h, mul_comm n m, mul_nsmul', h']
  simp

theorem OddPt.neg {a b : F} {A : (shortW a b).Point} (hA : OddPt A) : OddPt (-A) := by
  obtain ⟨m, hm, h⟩ := hA
  exact ⟨m, hm, by rw [smul_neg, h, neg_zero]⟩

theorem OddPt.nsmul {a b : F} {A : (shortW a b).Point} (hA : OddPt A) (k : Nat) : OddPt (k • A) := by
  obtain ⟨m, hm, h⟩ := hA
  exact ⟨m, hm, by rw [← mul_nsmul, mul_nsmul', h, nsmul_zero]⟩

theorem OddPt.eq_zero {a b : F} {A : (shortW a b).Point} (hA : OddPt A) (h2 : A + A = 0) : A = 0 := by
  obtain ⟨m, ⟨k, rfl⟩, h⟩ := hA
  rw [add_nsmul, one_nsmul, mul_comm, mul_nsmul', two_nsmul, h2, nsmul_zero, zero_add] at h
  exact h

/-- Every point of odd order has twisted Edwards coordinates. -/
theorem OddPt.exists_ed {c : TwCfg F} (hc : TwOk c) {A : (W1 : WeierstrassCurve.Affine F).Point} (hA : OddPt A) :
    ∃ u e, EdXY c A u e := by
  rcases isXY_or_zero A with h | ⟨x, y, h⟩
  · exact ⟨0, 1, Or.inl ⟨h, rfl, rfl⟩⟩
  · have hy : y ≠ 0 := by
      intro hy
      exact h.ne_zero (hA.eq_zero (h.double_zero (by rw [hy]; simp)))
    refine ⟨_, _, Or.inr ⟨x, y, h, hy, ?_, rfl, rfl⟩⟩
    intro hx
    have hyy : y + y ≠ 0 := by rw [← two_mul]; exact mul_ne_zero hc.two hy
    have h2 := h.double hyy
    have hs := hc.s_ne
    have e0 : (x ^ 2 + 2 * x - 2) = 0 := by
      apply mul_left_cancel₀ (pow_ne_zero 2 hs)
      linear_combination (c.s * (x + 1) - 1) * hx - hc.s
    have he := h.eqn
    have ex : ((3 * x ^ 2 + 0) / (y + y)) ^ 2 - x - x = -1 := by
      rw [div_pow, sub_sub, sub_eq_iff_eq_add, div_eq_iff (pow_ne_zero 2 hyy)]
      linear_combination (x ^ 2 + 2 * x - 2) * e0 - (8 * x - 4) * he
    rw [ex] at h2
    have he2 := h2.eqn
    obtain ⟨y3, hy3⟩ : ∃ y3, y3 = (3 * x ^ 2 + 0) / (y + y) * (x - -1) - y := ⟨_, rfl⟩
    rw [← hy3] at h2 he2
    have hy0 : y3 = 0 := by
      apply pow_eq_zero_iff (n := 2) (by norm_num) |>.1
      linear_combination he2
    have h4 : (A + A) + (A + A) = 0 := h2.double_zero (by rw [hy0]; simp)
    exact h.ne_zero (hA.eq_zero ((hA.add hA).eq_zero h4))

omit [DecidableEq F] in
/-- The chord rule of the Montgomery curve `B y² = x³ + A x² + x` in Edwards coordinates. -/
theorem mont_chord {A B t d x1 y1 x2 y2 x3 y3 : F} (hB : B ≠ 0) (ht : t ^ 2 * B = -(A + 2))
    (hd : d * (t ^ 2 * B) = A - 2) (q1 : B * y1 ^ 2 = x1 ^ 3 + A * x1 ^ 2 + x1)
    (q2 : B * y2 ^ 2 = x2 ^ 3 + A * x2 ^ 2 + x2) (hy1 : y1 ≠ 0) (hy2 : y2 ≠ 0) (hx1 : x1 + 1 ≠ 0) (hx2 : x2 + 1 ≠ 0)
    (hx : x2 - x1 ≠ 0) (e3 : x3 = B * ((y2 - y1) / (x2 - x1)) ^ 2 - A - x1 - x2)
    (f3 : y3 = (y2 - y1) / (x2 - x1) * (x1 - x3) - y1) (hy3 : y3 ≠ 0) (hx3 : x3 + 1 ≠ 0) :
    t * x3 / y3 * (1 + d * (t * x1 / y1) * (t * x2 / y2) * ((x1 - 1) / (x1 + 1)) * ((x2 - 1) / (x2 + 1))) =
        t * x1 / y1 * ((x2 - 1) / (x2 + 1)) + t * x2 / y2 * ((x1 - 1) / (x1 + 1)) ∧
      (x3 - 1) / (x3 + 1) * (1 - d * (t * x1 / y1) * (t * x2 / y2) * ((x1 - 1) / (x1 + 1)) * ((x2 - 1) / (x2 + 1))) =
        (x1 - 1) / (x1 + 1) * ((x2 - 1) / (x2 + 1)) + t * x1 / y1 * (t * x2 / y2) := by
  obtain ⟨w, hw⟩ : ∃ w, w = B * y1 * y2 := ⟨_, rfl⟩
  have hw0 : w ≠ 0 := by rw [hw]; exact mul_ne_zero (mul_ne_zero hB hy1) hy2
  have hww : w ^ 2 = (x1 ^ 3 + A * x1 ^ 2 + x1) * (x2 ^ 3 + A * x2 ^ 2 + x2) := by
    rw [hw]
    linear_combination B * y2 ^ 2 * q1 + (x1 ^ 3 + A * x1 ^ 2 + x1) * q2
  obtain ⟨n3, hn3⟩ : ∃ n3, n3 = (x1 ^ 3 + A * x1 ^ 2 + x1) + (x2 ^ 3 + A * x2 ^ 2 + x2) -
      (A + x1 + x2) * (x2 - x1) ^ 2 - 2 * w := ⟨_, rfl⟩
  have ex : x3 = n3 / (x2 - x1) ^ 2 := by
    rw [e3, eq_div_iff (pow_ne_zero 2 hx), hn3, hw, div_pow]
    field_simp
    linear_combination q1 + q2
  obtain ⟨m3, hm3⟩ : ∃ m3, m3 = y2 * (x1 * (x2 - x1) ^ 2 - n3) -
      y1 * (x1 * (x2 - x1) ^ 2 - n3 + (x2 - x1) ^ 3) := ⟨_, rfl⟩
  have ey : y3 = m3 / (x2 - x1) ^ 3 := by
    rw [f3, eq_div_iff (pow_ne_zero 3 hx), hm3, ex]
    field_simp
    ring
  have hm0 : m3 ≠ 0 := by
    intro h
    rw [h, zero_div] at ey
    exact hy3 ey
  have hk : n3 + (x2 - x1) ^ 2 ≠ 0 := by
    intro h
    apply hx3
    rw [ex, div_add_one (pow_ne_zero 2 hx), h, zero_div]
  have eu : t * x3 / y3 = t * n3 * (x2 - x1) / m3 := by
    rw [ex, ey]
    field_simp
  have ee : (x3 - 1) / (x3 + 1) = (n3 - (x2 - x1) ^ 2) / (n3 + (x2 - x1) ^ 2) := by
    rw [ex]
    have h2 : n3 / (x2 - x1) ^ 2 + 1 ≠ 0 := by rw [← ex]; exact hx3
    rw [div_eq_div_iff h2 hk]
    field_simp
  have eδ : d * (t * x1 / y1) * (t * x2 / y2) * ((x1 - 1) / (x1 + 1)) * ((x2 - 1) / (x2 + 1)) =
      (A - 2) * x1 * x2 * (x1 - 1) * (x2 - 1) / (w * (x1 + 1) * (x2 + 1)) := by
    rw [hw, ← hd]
    field_simp
  have euu : t * x1 / y1 * (t * x2 / y2) = -(A + 2) * x1 * x2 / w := by
    rw [hw, ← ht]
    field_simp
  have eue : t * x1 / y1 * ((x2 - 1) / (x2 + 1)) + t * x2 / y2 * ((x1 - 1) / (x1 + 1)) =
      t * (B * (x1 * y2 * (x2 - 1) * (x1 + 1) + x2 * y1 * (x1 - 1) * (x2 + 1))) / (w * (x1 + 1) * (x2 + 1)) := by
    rw [hw]
    field_simp
  rw [eu, ee, eδ, euu, eue]
  constructor
  · have key : n3 * (x2 - x1) * (w * (x1 + 1) * (x2 + 1) + (A - 2) * x1 * x2 * (x1 - 1) * (x2 - 1)) =
        m3 * (B * (x1 * y2 * (x2 - 1) * (x1 + 1) + x2 * y1 * (x1 - 1) * (x2 + 1))) := by
      have e1 : m3 * (B * (x1 * y2 * (x2 - 1) * (x1 + 1) + x2 * y1 * (x1 - 1) * (x2 + 1))) =
          (x1 * (x2 - x1) ^ 2 - n3) * x1 * ((x2 - 1) * (x1 + 1)) * (x2 ^ 3 + A * x2 ^ 2 + x2) +
          ((x1 * (x2 - x1) ^ 2 - n3) * x2 * ((x1 - 1) * (x2 + 1)) -
            (x1 * (x2 - x1) ^ 2 - n3 + (x2 - x1) ^ 3) * x1 * ((x2 - 1) * (x1 + 1))) * w -
          (x1 * (x2 - x1) ^ 2 - n3 + (x2 - x1) ^ 3) * x2 * ((x1 - 1) * (x2 + 1)) * (x1 ^ 3 + A * x1 ^ 2 + x1) := by
        rw [hm3, hw, ← q1, ← q2]
        ring
      rw [e1, hn3]
      linear_combination (-2 * (x2 - x1) * (x1 + 1) * (x2 + 1) -
        2 * (x2 * ((x1 - 1) * (x2 + 1)) - x1 * ((x2 - 1) * (x1 + 1)))) * hww
    field_simp
    linear_combination t * key
  · have key : (n3 - (x2 - x1) ^ 2) * (w * (x1 + 1) * (x2 + 1) - (A - 2) * x1 * x2 * (x1 - 1) * (x2 - 1)) =
        (n3 + (x2 - x1) ^ 2) * (w * (x1 - 1) * (x2 - 1) - (A + 2) * x1 * x2 * (x1 + 1) * (x2 + 1)) := by
      rw [hn3]
      linear_combination (-2 * (x1 + 1) * (x2 + 1) + 2 * (x1 - 1) * (x2 - 1)) * hww
    have hK : w * (x1 + 1) * (x2 + 1) ≠ 0 := mul_ne_zero (mul_ne_zero hw0 hx1) hx2
    rw [one_sub_div hK, div_mul_div_comm, div_mul_div_comm, div_add_div _ _ (mul_ne_zero hx1 hx2) hw0,
      div_eq_div_iff (mul_ne_zero hk hK) (mul_ne_zero (mul_ne_zero hx1 hx2) hw0)]
    linear_combination ((x1 + 1) * (x2 + 1) * w) * key

omit [DecidableEq F] in
/-- The tangent rule of the Montgomery curve in Edwards coordinates. -/
theorem mont_tangent {A B t d x1 y1 x3 y3 : F} (h2 : (2 : F) ≠ 0) (hB : B ≠ 0) (ht : t ^ 2 * B = -(A + 2))
    (hd : d * (t ^ 2 * B) = A - 2) (q1 : B * y1 ^ 2 = x1 ^ 3 + A * x1 ^ 2 + x1) (hy1 : y1 ≠ 0) (hx1 : x1 + 1 ≠ 0)
    (e3 : x3 = B * ((3 * x1 ^ 2 + 2 * A * x1 + 1) / (2 * B * y1)) ^ 2 - A - x1 - x1)
    (f3 : y3 = (3 * x1 ^ 2 + 2 * A * x1 + 1) / (2 * B * y1) * (x1 - x3) - y1) (hy3 : y3 ≠ 0) (hx3 : x3 + 1 ≠ 0) :
    t * x3 / y3 * (1 + d * (t * x1 / y1) * (t * x1 / y1) * ((x1 - 1) / (x1 + 1)) * ((x1 - 1) / (x1 + 1))) =
        t * x1 / y1 * ((x1 - 1) / (x1 + 1)) + t * x1 / y1 * ((x1 - 1) / (x1 + 1)) ∧
      (x3 - 1) / (x3 + 1) * (1 - d * (t * x1 / y1) * (t * x1 / y1) * ((x1 - 1) / (x1 + 1)) * ((x1 - 1) / (x1 + 1))) =
        (x1 - 1) / (x1 + 1) * ((x1 - 1) / (x1 + 1)) + t * x1 / y1 * (t * x1 / y1) := by
  obtain ⟨f, hf⟩ : ∃ f, f = x1 ^ 3 + A * x1 ^ 2 + x1 := ⟨_, rfl⟩
  rw [← hf] at q1
  have hf0 : f ≠ 0 := by rw [← q1]; exact mul_ne_zero hB (pow_ne_zero 2 hy1)
  have ex : x3 = (x1 ^ 2 - 1) ^ 2 / (4 * f) := by
    have h4 : (4 : F) ≠ 0 := by have := mul_ne_zero h2 h2; norm_num at this; exact this
    rw [e3, ← q1, div_pow]
    field_simp
    linear_combination (-16 * (A + 2 * x1)) * (q1.trans hf)
  obtain ⟨m, hm⟩ : ∃ m, m = (3 * x1 ^ 2 + 2 * A * x1 + 1) * (4 * f * x1 - (x1 ^ 2 - 1) ^ 2) - 8 * f ^ 2 := ⟨_, rfl⟩
  have h4 : (4 : F) ≠ 0 := by have := mul_ne_zero h2 h2; norm_num at this; exact this
  have h8 : (8 : F) ≠ 0 := by have := mul_ne_zero h4 h2; norm_num at this; exact this
  have ey : y3 = m / (8 * f * B * y1) := by
    rw [f3, ex, hm, eq_div_iff (mul_ne_zero (mul_ne_zero (mul_ne_zero h8 hf0) hB) hy1)]
    have e : (3 * x1 ^ 2 + 2 * A * x1 + 1) / (2 * B * y1) * (x1 - (x1 ^ 2 - 1) ^ 2 / (4 * f)) =
        (3 * x1 ^ 2 + 2 * A * x1 + 1) * (4 * f * x1 - (x1 ^ 2 - 1) ^ 2) / (8 * f * B * y1) := by
      field_simp
      ring
    rw [e, sub_mul, div_mul_cancel₀ _ (mul_ne_zero (mul_ne_zero (mul_ne_zero h8 hf0) hB) hy1)]
    linear_combination (-8 * f) * q1
  have hm0 : m ≠ 0 := by
    intro h
    rw [h, zero_div] at ey
    exact hy3 ey
  have hk : (x1 ^ 2 - 1) ^ 2 + 4 * f ≠ 0 := by
    intro h
    apply hx3
    rw [ex, div_add_one (mul_ne_zero h4 hf0), h, zero_div]
  have eu : t * x3 / y3 = 2 * t * (x1 ^ 2 - 1) ^ 2 * (B * y1) / m := by
    rw [ex, ey]
    field_simp
    ring
  have ee : (x3 - 1) / (x3 + 1) = ((x1 ^ 2 - 1) ^ 2 - 4 * f) / ((x1 ^ 2 - 1) ^ 2 + 4 * f) := by
    have h2 : (x1 ^ 2 - 1) ^ 2 / (4 * f) + 1 ≠ 0 := by rw [← ex]; exact hx3
    rw [ex, div_eq_div_iff h2 hk]
    field_simp
  have euu : t * x1 / y1 * (t * x1 / y1) = -(A + 2) * x1 ^ 2 / f := by
    rw [← q1, ← ht]
    field_simp
  have eδ : d * (t * x1 / y1) * (t * x1 / y1) * ((x1 - 1) / (x1 + 1)) * ((x1 - 1) / (x1 + 1)) =
      (A - 2) * x1 ^ 2 * (x1 - 1) ^ 2 / (f * (x1 + 1) ^ 2) := by
    rw [← q1, ← hd]
    field_simp
  have eue : t * x1 / y1 * ((x1 - 1) / (x1 + 1)) + t * x1 / y1 * ((x1 - 1) / (x1 + 1)) =
      2 * t * x1 * (x1 - 1) * (B * y1) / (f * (x1 + 1)) := by
    rw [← q1]
    field_simp
    ring
  rw [eu, ee, eδ, euu, eue]
  constructor
  · rw [one_add_div (mul_ne_zero hf0 (pow_ne_zero 2 hx1)), div_mul_div_comm,
      div_eq_div_iff (mul_ne_zero hm0 (mul_ne_zero hf0 (pow_ne_zero 2 hx1))) (mul_ne_zero hf0 hx1), hm, hf]
    ring
  · rw [one_sub_div (mul_ne_zero hf0 (pow_ne_zero 2 hx1)), div_mul_div_comm, div_mul_div_comm,
      div_add_div _ _ (mul_ne_zero hx1 hx1) hf0,
      div_eq_div_iff (mul_ne_zero hk (mul_ne_zero hf0 (pow_ne_zero 2 hx1))) (mul_ne_zero (mul_ne_zero hx1 hx1) hf0), hf]
    ring

theorem mont_eqn {c : TwCfg F} (hc : TwOk c) {A : (W1 : WeierstrassCurve.Affine F).Point} {x y : F} (h : IsXY A x y) :
    c.s * (c.s * y) ^ 2 = (c.s * (x + 1)) ^ 3 + -(3 * c.s) * (c.s * (x + 1)) ^ 2 + c.s * (x + 1) := by
  have := h.eqn
  linear_combination c.s ^ 3 * this + c.s * (x + 1) * hc.s

/-- The addition law in Edwards coordinates, in multiplied form, for all pairs of points that together with their sum
have such coordinates. -/
theorem ed_law {c : TwCfg F} (hc : TwOk c) {A B : (W1 : WeierstrassCurve.Affine F).Point} {u1 e1 u2 e2 u3 e3 : F}
    (hA : EdXY c A u1 e1) (hB : EdXY c B u2 e2) (hC : EdXY c (A + B) u3 e3) :
    u3 * (1 + c.d * u1 * u2 * e1 * e2) = u1 * e2 + u2 * e1 ∧
      e3 * (1 - c.d * u1 * u2 * e1 * e2) = e1 * e2 + u1 * u2 := by
  have hA' := hA
  have hB' := hB
  rcases hA with ⟨rfl, rfl, rfl⟩ | ⟨X1, Y1, pA, hy1, hx1, rfl, rfl⟩
  · rw [zero_add] at hC
    obtain ⟨rfl, rfl⟩ := hC.unique hB
    constructor <;> ring
  rcases hB with ⟨rfl, rfl, rfl⟩ | ⟨X2, Y2, pB, hy2, hx2, rfl, rfl⟩
  · rw [add_zero] at hC
    obtain ⟨rfl, rfl⟩ := hC.unique hA'
    constructor <;> ring
  have hs := hc.s_ne
  have ht : c.t ^ 2 * c.s = -(-(3 * c.s) + 2) := by rw [hc.ts]; ring
  have hd : c.d * (c.t ^ 2 * c.s) = -(3 * c.s) - 2 := hc.ds
  have cu : ∀ x y : F, c.t * (c.s * (x + 1)) / (c.s * y) = c.t * (x + 1) / y := by
    intro x y
    rw [mul_left_comm, mul_div_mul_left _ _ hs]
  by_cases hx : X1 = X2
  · subst hx
    rcases pA.same_x pB with h | h
    · -- doubling
      subst h
      obtain ⟨_, rfl⟩ := pA.unique pB
      have hyy : Y1 + Y1 ≠ 0 := by rw [← two_mul]; exact mul_ne_zero hc.two hy1
      have hsum := pA.double hyy
      rcases hC with ⟨h0, _⟩ | ⟨X3, Y3, pC, hy3, hx3, rfl, rfl⟩
      · exact absurd h0 hsum.ne_zero
      obtain ⟨eX, eY⟩ := pC.unique hsum
      have hl : (3 * (c.s * (X1 + 1)) ^ 2 + 2 * -(3 * c.s) * (c.s * (X1 + 1)) + 1) / (2 * c.s * (c.s * Y1)) =
          (3 * X1 ^ 2 + 0) / (Y1 + Y1) := by
        rw [div_eq_div_iff (mul_ne_zero (mul_ne_zero hc.two hs) (mul_ne_zero hs hy1)) hyy]
        linear_combination (-2 * Y1) * hc.s
      have key := mont_tangent (x3 := c.s * (X3 + 1)) (y3 := c.s * Y3) hc.two hs ht hd (mont_eqn hc pA)
        (mul_ne_zero hs hy1) hx1 (by rw [hl, eX]; ring) (by rw [hl, eY, ← eX]; ring) (mul_ne_zero hs hy3) hx3
      rw [cu, cu] at key
      exact key
    · -- inverse points
      subst h
      have hz : -B + B = 0 := neg_add_cancel B
      rw [hz] at hC
      obtain ⟨rfl, rfl⟩ := hC.unique (Or.inl ⟨rfl, rfl, rfl⟩)
      obtain ⟨_, rfl⟩ := pA.unique pB.neg
      have hE := hB'.eqn hc
      rw [div_neg] at *
      constructor
      · ring
      · linear_combination -hE
  · have hsum := pA.add pB hx
    rcases hC with ⟨h0, _⟩ | ⟨X3, Y3, pC, hy3, hx3, rfl, rfl⟩
    · exact absurd h0 hsum.ne_zero
    obtain ⟨eX, eY⟩ := pC.unique hsum
    have hX : X2 - X1 ≠ 0 := sub_ne_zero.2 (Ne.symm hx)
    have hl : (c.s * Y2 - c.s * Y1) / (c.s * (X2 + 1) - c.s * (X1 + 1)) = (Y2 - Y1) / (X2 - X1) := by
      rw [← mul_sub, ← mul_sub, mul_div_mul_left _ _ hs, add_sub_add_right_eq_sub]
    have hX' : c.s * (X2 + 1) - c.s * (X1 + 1) ≠ 0 := by
      rw [← mul_sub, add_sub_add_right_eq_sub]
      exact mul_ne_zero hs hX
    have key := mont_chord (x3 := c.s * (X3 + 1)) (y3 := c.s * Y3) hs ht hd (mont_eqn hc pA) (mont_eqn hc pB)
        (mul_ne_zero hs hy1) (mul_ne_zero hs hy2) hx1 hx2 hX' (by rw [hl, eX]; ring) (by rw [hl, eY, ← eX]; ring)
        (mul_ne_zero hs hy3) hx3
    rw [cu, cu, cu] at key
    exact key

/-- For points of odd order the denominators of the addition law do not vanish. -/
theorem ed_complete {c : TwCfg F} (hc : TwOk c) {A B : (W1 : WeierstrassCurve.Affine F).Point} {u1 e1 u2 e2 : F}
    (hA : OddPt A) (hB : OddPt B) (h1 : EdXY c A u1 e1) (h2 : EdXY c B u2 e2) :
    1 + c.d * u1 * u2 * e1 * e2 ≠ 0 ∧ 1 - c.d * u1 * u2 * e1 * e2 ≠ 0 := by
  obtain ⟨u3, e3, h3⟩ := (hA.add hB).exists_ed hc
  obtain ⟨uD, eD, hD⟩ := (hA.add hB.neg).exists_ed hc
  obtain ⟨l1, l2⟩ := ed_law hc h1 h2 h3
  obtain ⟨l3, l4⟩ := ed_law hc h1 h2.neg hD
  have hcD := hD.eqn hc
  have hdn := hc.d_ne
  constructor
  · intro h0
    rw [h0, mul_zero] at l1
    have hu : uD = u1 * e2 := by
      apply mul_left_cancel₀ hc.two
      linear_combination l3 + uD * h0 + l1
    have hd1 : c.d * uD ^ 2 = 1 := by
      rw [hu]
      linear_combination -h0 - c.d * u1 * e2 * l1
    have hu2 : uD ^ 2 = -1 := by linear_combination -hcD - eD ^ 2 * hd1
    apply hdn
    linear_combination c.d * hu2 - hd1
  · intro h0
    rw [h0, mul_zero] at l2
    have he : eD = e1 * e2 := by
      apply mul_left_cancel₀ hc.two
      linear_combination l4 + eD * h0 + l2
    have hd1 : c.d * eD ^ 2 = -1 := by
      rw [he]
      linear_combination h0 - c.d * e1 * e2 * l2
    have hu2 : eD ^ 2 = 1 := by linear_combination hcD + uD ^ 2 * hd1
    apply hdn
    linear_combination hd1 - c.d * hu2

/-! ## Extended coordinates -/

/-- `(X, Y, Z, T)` represents the point `A`: `Z ≠ 0`, `T Z = X Y` and `(X / Z, Y / Z)` are its Edwards coordinates. -/
def ERep (c : TwCfg F) (p : Quad F) (A : (W1 : WeierstrassCurve.Affine F).Point) : Prop :=
  p.2.2.1 ≠ 0 ∧ p.2.2.2 * p.2.2.1 = p.1 * p.2.1 ∧ EdXY c A (p.1 / p.2.2.1) (p.2.1 / p.2.2.1)

theorem edAdd_rep {c : TwCfg F} (hc : TwOk c) (p q : Quad F) (A B : (W1 : WeierstrassCurve.Affine F).Point)
    (hA : OddPt A) (hB : OddPt B) (hp : ERep c p A) (hq : ERep c q B) : ERep c (edAdd c.d p q) (A + B) := by
  obtain ⟨x1, y1, z1, t1⟩ := p
  obtain ⟨x2, y2, z2, t2⟩ := q
  obtain ⟨hz1, ht1, h1⟩ := hp
  obtain ⟨hz2, ht2, h2⟩ := hq
  obtain ⟨u3, e3, h3⟩ := (hA.add hB).exists_ed hc
  dsimp only at *
  obtain ⟨l1, l2⟩ := ed_law hc h1 h2 h3
  obtain ⟨n1, n2⟩ := ed_complete hc hA hB h1 h2
  obtain ⟨u1, hu1⟩ : ∃ u, u = x1 / z1 := ⟨_, rfl⟩
  obtain ⟨u2, hu2⟩ : ∃ u, u = x2 / z2 := ⟨_, rfl⟩
  obtain ⟨e1, he1⟩ : ∃ u, u = y1 / z1 := ⟨_, rfl⟩
  obtain ⟨e2, he2⟩ : ∃ u, u = y2 / z2 := ⟨_, rfl⟩
  rw [← hu1, ← hu2, ← he1, ← he2] at l1 l2 n1 n2
  rw [eq_div_iff hz1] at hu1 he1
  rw [eq_div_iff hz2] at hu2 he2
  subst hu1 hu2 he1 he2
  have et1 : t1 = u1 * e1 * z1 := mul_right_cancel₀ hz1 (by linear_combination ht1)
  have et2 : t2 = u2 * e2 * z2 := mul_right_cancel₀ hz2 (by linear_combination ht2)
  subst et1 et2
  have hF : z1 * z2 - c.d * (u1 * e1 * z1) * (u2 * e2 * z2) = z1 * z2 * (1 - c.d * u1 * u2 * e1 * e2) := by ring
  have hG : z1 * z2 + c.d * (u1 * e1 * z1) * (u2 * e2 * z2) = z1 * z2 * (1 + c.d * u1 * u2 * e1 * e2) := by ring
  have hzz : z1 * z2 ≠ 0 := mul_ne_zero hz1 hz2
  have hE : (u1 * z1 + e1 * z1) * (u2 * z2 + e2 * z2) - (e1 * z1 * (e2 * z2) + u1 * z1 * (u2 * z2)) =
      z1 * z2 * (u3 * (1 + c.d * u1 * u2 * e1 * e2)) := by rw [l1]; ring
  have hH : e1 * z1 * (e2 * z2) + u1 * z1 * (u2 * z2) = z1 * z2 * (e3 * (1 - c.d * u1 * u2 * e1 * e2)) := by
    rw [l2]; ring
  simp only [edAdd]
  rw [hE, hF, hG, hH]
  refine ⟨?_, ?_, ?_⟩
  · exact mul_ne_zero (mul_ne_zero hzz n2) (mul_ne_zero hzz n1)
  · dsimp only
    ring
  · convert h3 using 1
    · dsimp only
      field_simp
    · dsimp only
      field_simp

theorem edDouble_rep {c : TwCfg F} (hc : TwOk c) (p : Quad F) (A : (W1 : WeierstrassCurve.Affine F).Point)
    (hA : OddPt A) (hp : ERep c p A) : ERep c (edDouble p) (A + A) := by
  obtain ⟨x1, y1, z1, t1⟩ := p
  obtain ⟨hz1, ht1, h1⟩ := hp
  obtain ⟨u3, e3, h3⟩ := (hA.add hA).exists_ed hc
  dsimp only at *
  obtain ⟨l1, l2⟩ := ed_law hc h1 h1 h3
  obtain ⟨n1, n2⟩ := ed_complete hc hA hA h1 h1
  have hcv := h1.eqn hc
  obtain ⟨u1, hu1⟩ : ∃ u, u = x1 / z1 := ⟨_, rfl⟩
  obtain ⟨e1, he1⟩ : ∃ u, u = y1 / z1 := ⟨_, rfl⟩
  rw [← hu1, ← he1] at l1 l2 n1 n2 hcv
  rw [eq_div_iff hz1] at hu1 he1
  subst hu1 he1
  have hG : e1 * z1 * (e1 * z1) - u1 * z1 * (u1 * z1) = z1 ^ 2 * (1 + c.d * u1 * u1 * e1 * e1) := by
    linear_combination z1 ^ 2 * hcv
  have hF : z1 ^ 2 * (1 + c.d * u1 * u1 * e1 * e1) - z1 * z1 - z1 * z1 =
      -(z1 ^ 2 * (1 - c.d * u1 * u1 * e1 * e1)) := by ring
  have hH : 0 - u1 * z1 * (u1 * z1) - e1 * z1 * (e1 * z1) = -(z1 ^ 2 * (e3 * (1 - c.d * u1 * u1 * e1 * e1))) := by
    rw [l2]; ring
  have hE : (u1 * z1 + e1 * z1) * (u1 * z1 + e1 * z1) + -(z1 ^ 2 * (e3 * (1 - c.d * u1 * u1 * e1 * e1))) =
      z1 ^ 2 * (u3 * (1 + c.d * u1 * u1 * e1 * e1)) := by rw [l1, l2]; ring
  simp only [edDouble]
  rw [hH, hE, hG, hF]
  have hzz : z1 ^ 2 ≠ 0 := pow_ne_zero 2 hz1
  refine ⟨?_, ?_, ?_⟩
  · exact mul_ne_zero (neg_ne_zero.2 (mul_ne_zero hzz n2)) (mul_ne_zero hzz n1)
  · dsimp only
    ring
  · convert h3 using 1
    · dsimp only
      rw [div_eq_iff (mul_ne_zero (neg_ne_zero.2 (mul_ne_zero hzz n2)) (mul_ne_zero hzz n1))]
      ring
    · dsimp only
      rw [div_eq_iff (mul_ne_zero (neg_ne_zero.2 (mul_ne_zero hzz n2)) (mul_ne_zero hzz n1))]
      ring

theorem ERep.neg {c : TwCfg F} {x y z t : F} {A : (W1 : WeierstrassCurve.Affine F).Point} (h : ERep c (x, y, z, t) A) :
    ERep c (-x, y, z, -t) (-A) := by
  obtain ⟨hz, ht, h⟩ := h
  dsimp only at *
  refine ⟨hz, ?_, ?_⟩
  · dsimp only
    linear_combination -ht
  · dsimp only
    rw [neg_div]
    exact h.neg

end Verif.EcCurve
