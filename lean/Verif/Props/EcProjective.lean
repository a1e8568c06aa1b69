import Verif.Lemmas.EcProjective
import Verif.Lemmas.EcPrime

/-!
# C66: projective addition and doubling implement the group law

Specification: the group of points of `y² = x³ + a x + b` as defined in Mathlib, and `PRep (X, Y, Z) A`: either `Z ≠ 0`
and `A = (X / Z, Y / Z)`, or `X = Z = 0 ≠ Y` and `A` is the neutral element.
-/

namespace Verif.Props

open Verif.EcCurve Verif.EcChunks

variable {F : Type*} [Field F] [DecidableEq F]

omit [DecidableEq F] in
theorem PRep_affine {a b : F} {p : Triple F} {A : (shortW a b).Point} (hp : PRep p A) (hz : p.2.2 ≠ 0) :
    IsXY A (p.1 / p.2.2) (p.2.1 / p.2.2) := by
  rcases hp with ⟨_, h⟩ | ⟨_, h, _⟩
  · exact h
  · exact absurd h hz

/-- The mixed addition formula for two different affine points (inverse points included: the result is then
`(0 : Y : 0)`). -/
theorem projMadd_ne {a b : F} (p : Triple F) (x2 y2 : F) (A B : (shortW a b).Point) (hp : PRep p A) (hz : p.2.2 ≠ 0)
    (hq : IsXY B x2 y2) (hne : A ≠ B) : PRep (projMadd p x2 y2) (A + B) := by
  obtain ⟨x1, y1, z1⟩ := p
  have hA := PRep_affine hp hz
  dsimp only at hA hz
  by_cases hx : x1 / z1 = x2
  · have hA' := hA
    rw [hx] at hA
    have hAB := (hA.same_x hq).resolve_left hne
    subst hAB
    rw [neg_add_cancel]
    obtain ⟨_, hy⟩ := hq.neg.unique hA
    have hv : x2 * z1 - x1 = 0 := by
      rw [div_eq_iff hz] at hx
      rw [hx, sub_self]
    have hu : y2 * z1 - y1 ≠ 0 := by
      intro h
      have hy2 : y1 / z1 = y2 := by
        rw [div_eq_iff hz]
        linear_combination -h
      rw [hy2] at hy
      have h0 := hq.double_zero (by linear_combination -hy)
      exact hne (neg_eq_of_add_eq_zero_left h0)
    refine Or.inr ⟨?_, ?_, ?_, rfl⟩
    · simp [projMadd, hv]
    · simp [projMadd, hv]
    · simp only [projMadd, hv]
      have e : (y2 * z1 - y1) * (0 * 0 * x1 - ((y2 * z1 - y1) * (y2 * z1 - y1) * z1 - 0 * (0 * 0) -
          (0 * 0 * x1 + 0 * 0 * x1))) - 0 * (0 * 0) * y1 = -(y2 * z1 - y1) ^ 3 * z1 := by ring
      rw [e]
      exact mul_ne_zero (neg_ne_zero.2 (pow_ne_zero 3 hu)) hz
  · exact projMadd_rep x1 y1 z1 x2 y2 A B hz hA hq hx

/-- `add_z2_eq_1`: for two different points with `Z ≠ 0`, one of which has `Z = 1`, the result represents the sum; with
no `Z = 1` the function refuses. -/
theorem C66_add_z2_eq_1 {a b : F} (p q : Triple F) (A B : (shortW a b).Point) (hp : PRep p A) (hq : PRep q B)
    (hzp : p.2.2 ≠ 0) (hzq : q.2.2 ≠ 0) (hne : A ≠ B) :
    (p.2.2 = 1 ∨ q.2.2 = 1 → ∃ r, projAddZ1 p q = .ok r ∧ PRep r (A + B)) ∧
      (p.2.2 ≠ 1 → q.2.2 ≠ 1 → projAddZ1 p q = .error "NotImplementedError") := by
  constructor
  · intro h
    unfold projAddZ1
    by_cases h1 : q.2.2 = 1
    · rw [if_pos h1]
      have hB := PRep_affine hq hzq
      rw [h1, div_one, div_one] at hB
      exact ⟨_, rfl, projMadd_ne p _ _ A B hp hzp hB hne⟩
    · rw [if_neg h1, if_pos (h.resolve_right h1)]
      have hA := PRep_affine hp hzp
      rw [h.resolve_right h1, div_one, div_one] at hA
      refine ⟨_, rfl, ?_⟩
      rw [add_comm]
      exact projMadd_ne q _ _ B A hq hzq hA (Ne.symm hne)
  · intro h1 h2
    unfold projAddZ1
    rw [if_neg h2, if_neg h1]

/-- `double_general`: correct for every affine point, including points of order two (the result is then
`(0 : Y : 0)`). -/
theorem C66_double {a b : F} (hF : (2 : F) ≠ 0) (p : Triple F) (A : (shortW a b).Point) (hp : PRep p A)
    (hz : p.2.2 ≠ 0) : PRep (projDouble a p) (A + A) :=
  projDouble_rep hF p A hp hz

/-- `add_general`: the formulas are correct for all pairs of points (equal, inverse, neutral, in any representation)
whose difference is not a point of order two. -/
theorem C66_add {a b : F} (hF : (2 : F) ≠ 0) (p q : Triple F) (A B : (shortW a b).Point) (hp : PRep p A)
    (hq : PRep q B) (hD : A - B ≠ 0 → (A - B) + (A - B) ≠ 0) : PRep (projAdd a b p q) (A + B) := by
  rw [sub_eq_add_neg] at hD
  exact projAdd_rep hF p q A B hp hq hD

/-- The proviso is needed: adding a point of order two to the neutral element in the form `(0 : Y : 0)` gives
`(0, 0, 0)`. -/
theorem C66_add_exceptional (a b Y x z : F) : projAdd a b (0, Y, 0) (x, 0, z) = (0, 0, 0) := by
  simp only [projAdd]
  refine Prod.ext ?_ (Prod.ext ?_ ?_) <;> dsimp only <;> ring

/-- With flags: `none` is the zero point. -/
def PRepO {a b : F} (p : Option (Triple F)) (A : (shortW a b).Point) : Prop :=
  match p with
  | none => A = 0
  | some p => PRep p A ∧ p.2.2 ≠ 0

/-- `point_add` for flagged or affine operands.  Three provisos, each needed: operands that are neutral must be flagged
(`C66_point_add_unflagged_false`), equal points must come with equal coordinates if one has `Z = 1`
(`C66_point_add_same_false`), and on the general path the difference must not have order two. -/
theorem C66_point_add_partial {a b : F} (hF : (2 : F) ≠ 0) (p q : Option (Triple F)) (A B : (shortW a b).Point)
    (hp : PRepO p A) (hq : PRepO q B)
    (hsame : A = B → p = q ∨ ∀ r, some r = p ∨ some r = q → r.2.2 ≠ 1)
    (hD : A - B ≠ 0 → (A - B) + (A - B) ≠ 0) :
    ∃ r, projPointAdd a b p q = .ok r ∧ (r = none → A + B = 0) ∧ ∀ t, r = some t → PRep t (A + B) := by
  match p, q with
  | none, none =>
    simp only [PRepO] at hp hq
    subst hp hq
    exact ⟨none, rfl, by simp, by simp⟩
  | some p, none =>
    simp only [PRepO] at hq
    subst hq
    refine ⟨some p, rfl, by simp, ?_⟩
    rintro t ⟨⟩
    rw [add_zero]
    exact hp.1
  | none, some q =>
    simp only [PRepO] at hp
    subst hp
    refine ⟨some q, rfl, by simp, ?_⟩
    rintro t ⟨⟩
    rw [zero_add]
    exact hq.1
  | some p, some q =>
    simp only [projPointAdd]
    by_cases e : p = q
    · subst e
      rw [if_pos rfl]
      have hAB : A = B := by
        obtain ⟨_, h1⟩ := PRep_affine hp.1 hp.2
        obtain ⟨_, h2⟩ := PRep_affine hq.1 hq.2
        rw [h1, h2]
      subst hAB
      refine ⟨_, rfl, by simp, ?_⟩
      rintro t ⟨⟩
      exact C66_double hF p A hp.1 hp.2
    · rw [if_neg e]
      by_cases h1 : p.2.2 = 1 ∨ q.2.2 = 1
      · rw [if_pos h1]
        have hne : A ≠ B := by
          intro h
          rcases hsame h with h' | h'
          · exact e (by simpa using h')
          · rcases h1 with h1 | h1
            · exact h' p (Or.inl rfl) h1
            · exact h' q (Or.inr rfl) h1
        obtain ⟨r, hr, hr'⟩ := (C66_add_z2_eq_1 p q A B hp.1 hq.1 hp.2 hq.2 hne).1 h1
        refine ⟨some r, by rw [hr]; rfl, by simp, ?_⟩
        rintro t ⟨⟩
        exact hr'
      · rw [if_neg h1]
        refine ⟨_, rfl, by simp, ?_⟩
        rintro t ⟨⟩
        exact C66_add hF p q A B hp.1 hq.1 hD

/-- Two different representations of the same point, the second with `Z = 1`: the mixed addition formula is used and
returns `(0, 0, 0)`. -/
theorem C66_point_add_same_false (a b x y z : F) (hz0 : z ≠ 0) (hz : z ≠ 1) :
    projPointAdd a b (some (z * x, z * y, z)) (some (x, y, 1)) = .ok (some (0, 0, 0)) := by
  simp only [projPointAdd]
  rw [if_neg (by simp [hz]), if_pos (Or.inr trivial)]
  simp only [projAddZ1]
  rw [if_pos trivial]
  simp only [projMadd, Except.map]
  have e1 : x * z - z * x = 0 := by ring
  have e2 : y * z - z * y = 0 := by ring
  simp [e1, e2]

/-- A sum that is zero is not flagged: `P + (-P)` is stored as `(0 : Y : 0)`, and adding a further point `Q` with
`Z = 1` to it gives `(0, 0, 0)` instead of `Q`. -/
theorem C66_point_add_unflagged_false (a b x y u v : F) (h : (2 : F) ≠ 0) (hy : y ≠ 0) :
    ∃ r, projPointAdd a b (some (x, y, 1)) (some (x, -y, 1)) = .ok (some r) ∧
      projPointAdd a b (some r) (some (u, v, 1)) = .ok (some (0, 0, 0)) := by
  refine ⟨(0, (2 * y) ^ 3, 0), ?_, ?_⟩
  · simp only [projPointAdd]
    have hne : y ≠ -y := by
      intro e
      exact mul_ne_zero h hy (by linear_combination e)
    rw [if_neg (by simp [hne]), if_pos (Or.inl trivial)]
    simp only [projAddZ1]
    rw [if_pos trivial]
    simp only [projMadd, Except.map, mul_one, sub_self, zero_mul, mul_zero, add_zero, sub_zero, zero_sub]
    congr 3
    ring
  · simp only [projPointAdd]
    rw [if_neg (by simp), if_pos (Or.inr trivial)]
    simp only [projAddZ1]
    rw [if_pos trivial]
    simp [projMadd, Except.map]

/-- `point_lshift`, for points none of whose first `n` doublings is zero. -/
theorem C66_shift {a b : F} (hF : (2 : F) ≠ 0) (p : Triple F) (A : (shortW a b).Point) (n : Nat) (hp : PRep p A)
    (hz : p.2.2 ≠ 0) (h : ∀ k, k < n → 2 ^ (k + 1) • A ≠ 0) :
    ∃ r, projShift a (some p) n = some r ∧ PRep r (2 ^ n • A) ∧ r.2.2 ≠ 0 := by
  refine ⟨_, rfl, ?_⟩
  induction n with
  | zero => exact ⟨by simpa using hp, hz⟩
  | succ n ih =>
    obtain ⟨h1, h2⟩ := ih (fun k hk => h k (by omega))
    rw [Function.iterate_succ_apply']
    have e : 2 ^ (n + 1) • A = 2 ^ n • A + 2 ^ n • A := by rw [pow_succ, mul_two, add_nsmul]
    have h3 := h n (by omega)
    rw [e] at h3 ⊢
    have h4 := C66_double hF _ _ h1 h2
    refine ⟨h4, ?_⟩
    rcases h4 with ⟨h5, _⟩ | ⟨_, _, _, h5⟩
    · exact h5
    · exact absurd h5 h3

omit [DecidableEq F] in
/-- `convert_to_affine`. -/
theorem C66_convert_to_affine {a b : F} (p : Triple F) (A : (shortW a b).Point) (hp : PRep p A) (hz : p.2.2 ≠ 0) :
    ∃ x y, projToAffine (some p) = some (x, y, 1) ∧ IsXY A x y := by
  refine ⟨_, _, rfl, ?_⟩
  rw [mul_one_div, mul_one_div]
  exact PRep_affine hp hz

/-! ## Non-vacuity: the points `(2, 3)` and `(0, 1)` of `y² = x³ + 1` in different representations -/

/-- Hypotheses of `C66_add` and `C66_point_add_partial` for two points. -/
example : ∃ A B : (shortW (0 : ZMod P) 1).Point, PRep (8, 12, 4) A ∧ PRep (0, 1, 1) B ∧ A ≠ B ∧
    (A - B ≠ 0 → (A - B) + (A - B) ≠ 0) := by
  have hd : (4 * 0 ^ 3 + 27 * 1 ^ 2 : ZMod P) ≠ 0 := by decide +kernel
  have h2 : (2 : ZMod P) ≠ 0 := by decide +kernel
  obtain ⟨A, hA⟩ : ∃ B : (shortW (0 : ZMod P) 1).Point, IsXY B 2 3 := exists_isXY hd h2 (by norm_num)
  obtain ⟨B, hB⟩ : ∃ B : (shortW (0 : ZMod P) 1).Point, IsXY B 0 1 := exists_isXY hd h2 (by norm_num)
  have e1 : (8 / 4 : ZMod P) = 2 := by rw [div_eq_iff (by decide +kernel)]; norm_num
  have e2 : (12 / 4 : ZMod P) = 3 := by rw [div_eq_iff (by decide +kernel)]; norm_num
  refine ⟨A, B, Or.inl ⟨by decide +kernel, by rw [e1, e2]; exact hA⟩, Or.inl ⟨one_ne_zero, by simpa using hB⟩, ?_, ?_⟩
  · rintro rfl
    exact h2 (hA.unique hB).1
  · intro _
    have h := hA.add hB.neg h2
    have e3 : ((-1 - 3) / (0 - 2) : ZMod P) = 2 := by rw [div_eq_iff (by decide +kernel)]; norm_num
    rw [e3] at h
    have h' : IsXY (A - B) 2 (-3) := by
      rw [sub_eq_add_neg]
      convert h using 1 <;> norm_num
    exact (h'.double (by decide +kernel)).ne_zero

/-- The same points: hypotheses of `C66_add_z2_eq_1`, `C66_double`, `C66_add`, `C66_point_add_partial`, `C66_shift` (`(0, 1)`
has order three) and `C66_convert_to_affine`. -/
example : ∃ A B : (shortW (0 : ZMod P) 1).Point, A ≠ 0 ∧ B ≠ 0 ∧
    (∃ r, projAddZ1 (8, 12, 4) ((0 : ZMod P), 1, 1) = .ok r ∧ PRep r (A + B)) ∧ PRep (projDouble 0 ((8 : ZMod P), 12, 4)) (A + A) ∧
    PRep (projAdd 0 1 ((8 : ZMod P), 12, 4) (0, 1, 1)) (A + B) ∧
    (∃ r, projPointAdd 0 1 (some ((8 : ZMod P), 12, 4)) (some (0, 1, 1)) = .ok r ∧ (r = none → A + B = 0)) ∧
    (∃ r, projShift (0 : ZMod P) (some (0, 1, 1)) 2 = some r ∧ PRep r (2 ^ 2 • B)) ∧
    ∃ x y, projToAffine (some ((8 : ZMod P), (12 : ZMod P), 4)) = some (x, y, 1) ∧ IsXY A x y := by
  have hd : (4 * 0 ^ 3 + 27 * 1 ^ 2 : ZMod P) ≠ 0 := by decide +kernel
  have h2 : (2 : ZMod P) ≠ 0 := by decide +kernel
  have h4 : (4 : ZMod P) ≠ 0 := by decide +kernel
  obtain ⟨A, hA⟩ : ∃ B : (shortW (0 : ZMod P) 1).Point, IsXY B 2 3 := exists_isXY hd h2 (by norm_num)
  obtain ⟨B, hB⟩ : ∃ B : (shortW (0 : ZMod P) 1).Point, IsXY B 0 1 := exists_isXY hd h2 (by norm_num)
  have e1 : (8 / 4 : ZMod P) = 2 := by rw [div_eq_iff h4]; norm_num
  have e2 : (12 / 4 : ZMod P) = 3 := by rw [div_eq_iff h4]; norm_num
  have hp : PRep (8, 12, 4) A := Or.inl ⟨h4, by rw [e1, e2]; exact hA⟩
  have hq : PRep (0, 1, 1) B := Or.inl ⟨one_ne_zero, by simpa using hB⟩
  have hne : A ≠ B := by
    rintro rfl
    exact h2 (hA.unique hB).1
  have hD : A - B ≠ 0 → (A - B) + (A - B) ≠ 0 := by
    intro _
    have h := hA.add hB.neg h2
    have e3 : ((-1 - 3) / (0 - 2) : ZMod P) = 2 := by rw [div_eq_iff (by decide +kernel)]; norm_num
    rw [e3] at h
    have h' : IsXY (A - B) 2 (-3) := by
      rw [sub_eq_add_neg]
      convert h using 1 <;> norm_num
    exact (h'.double (by decide +kernel)).ne_zero
  have hB2 : IsXY (B + B) 0 (-1) := by
    have := hB.double (by decide +kernel)
    convert this using 1 <;> norm_num
  have hB4 : IsXY (B + B + (B + B)) 0 1 := by
    have := hB2.double (by decide +kernel)
    convert this using 1 <;> norm_num
  have hs : ∀ k, k < 2 → 2 ^ (k + 1) • B ≠ 0 := by
    intro k hk
    interval_cases k
    · rw [show 2 ^ (0 + 1) = 2 from rfl, two_nsmul]
      exact hB2.ne_zero
    · rw [show 2 ^ (1 + 1) = 2 + 2 from rfl, add_nsmul, two_nsmul]
      exact hB4.ne_zero
  obtain ⟨r, hr, hn, -⟩ := C66_point_add_partial h2 (some (8, 12, 4)) (some (0, 1, 1)) A B
    ⟨hp, h4⟩ ⟨hq, one_ne_zero⟩ (fun e => absurd e hne) hD
  obtain ⟨r', hr', hn', -⟩ := C66_shift h2 _ B 2 hq one_ne_zero hs
  exact ⟨A, B, hA.ne_zero, hB.ne_zero, (C66_add_z2_eq_1 _ _ A B hp hq h4 one_ne_zero hne).1 (Or.inr rfl), C66_double h2 _ A hp h4,
    C66_add h2 _ _ A B hp hq hD, ⟨r, hr, hn⟩, ⟨r', hr', hn'⟩, C66_convert_to_affine _ A hp h4⟩

/-- The hypotheses of the two negative results. -/
example := C66_point_add_same_false (0 : ZMod P) 1 2 3 4 (by decide +kernel) (by decide +kernel)
example := C66_point_add_unflagged_false (0 : ZMod P) 1 2 3 0 1 (by decide +kernel) (by decide +kernel)

end Verif.Props
