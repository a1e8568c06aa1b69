import Verif.Props.EcEdwards

/-!
# C65: the points that have no Edwards coordinates

`generate_point` fails on them; `twist_int_coordinates`, with which the MSM classes read their points, silently
returns the neutral element instead.
-/

namespace Verif.Props
open Verif.EcCurve Verif.EcChunks

variable {F : Type*} [Field F] [DecidableEq F]

/-- C65: for every affine point of the curve, of whatever order, `generate_point` raises `TypeError` exactly when
`y = 0` or `s (x + 1) + 1 = 0`, and returns a representation of the point otherwise. -/
theorem C65_generate_exact (c : TwCfg F) (hc : TwOk c) (x y : F) (A : (W1 : WeierstrassCurve.Affine F).Point)
    (hA : IsXY A x y) :
    (edGenerate c (x, y) = .error "TypeError" ↔ y = 0 ∨ c.s * (x + 1) + 1 = 0) ∧
      (¬ (y = 0 ∨ c.s * (x + 1) + 1 = 0) → ∃ p, edGenerate c (x, y) = .ok p ∧ ERep c p A) := by
  obtain ⟨h1, h2⟩ := C65_twist c hc x y A hA
  rw [← h1]
  unfold edGenerate
  cases hq : twist c (x, y) with
  | none => simp
  | some q =>
    refine ⟨by simp, fun _ => ⟨_, rfl, one_ne_zero, ?_, ?_⟩⟩
    · simp [edFormal]
    · simpa [edFormal] using h2 q hq

/-- C65: `twist_int_coordinates` represents the point it is given exactly when the point has Edwards coordinates;
otherwise it returns the neutral element in its place. -/
theorem C65_int_coordinates_exact (c : TwCfg F) (hc : TwOk c) (x y : F)
    (A : (W1 : WeierstrassCurve.Affine F).Point) (hA : IsXY A x y) :
    (ERep c (twistIntCoordinates c (x, y)) A ↔ ¬ (y = 0 ∨ c.s * (x + 1) + 1 = 0)) ∧
      (y = 0 ∨ c.s * (x + 1) + 1 = 0 → ERep c (twistIntCoordinates c (x, y)) 0) := by
  obtain ⟨h1, h2⟩ := C65_twist c hc x y A hA
  rw [← h1]
  unfold twistIntCoordinates
  cases hq : twist c (x, y) with
  | none =>
    have h0 : ERep c ((0 : F), (1 : F), (1 : F), (0 : F)) 0 := ⟨one_ne_zero, by simp, Or.inl ⟨rfl, by simp, by simp⟩⟩
    refine ⟨⟨fun h => ?_, fun h => absurd rfl h⟩, fun _ => h0⟩
    obtain ⟨-, -, h⟩ := h
    rcases h with ⟨h, -⟩ | ⟨x', y', hA', hy, hx, -, -⟩
    · exact absurd h hA.ne_zero
    · obtain ⟨rfl, rfl⟩ := hA.unique hA'
      rcases h1.1 hq with h | h
      · exact absurd h hy
      · exact absurd h hx
  | some q =>
    refine ⟨⟨fun _ => by simp, fun _ => ⟨one_ne_zero, ?_, ?_⟩⟩, fun h => by simp at h⟩
    · simp [edFormal]
    · simpa [edFormal] using h2 q hq

/-- C65: on the curve of the package the point `(-1, 0)` of order two becomes the neutral element: the integer
coordinates lose it without an exception. -/
theorem C65_int_coordinates_loses : ∃ A : (W1 : WeierstrassCurve.Affine (ZMod P)).Point,
    IsXY A (-1) 0 ∧ A ≠ 0 ∧ A + A = 0 ∧ edGenerate blsTwist ((-1 : ZMod P), 0) = .error "TypeError" ∧
    ERep blsTwist (twistIntCoordinates blsTwist ((-1 : ZMod P), 0)) 0 := by
  have h2 : (2 : ZMod P) ≠ 0 := C59_constants.two
  obtain ⟨A, hA⟩ := exists_isXY (a := (0 : ZMod P)) (b := 1) (x := -1) (y := 0) (by decide +kernel) h2 (by ring)
  refine ⟨A, hA, hA.ne_zero, ?_, (C65_generate_exact _ C59_constants _ _ A hA).1.2 (Or.inl rfl),
    (C65_int_coordinates_exact _ C59_constants _ _ A hA).2 (Or.inl rfl)⟩
  have hn : IsXY (-A) (-1) 0 := by simpa using hA.neg
  have : A = -A := by
    obtain ⟨h, e⟩ := hA
    obtain ⟨h', e'⟩ := hn
    rw [e', e]
  nth_rewrite 2 [this]
  exact add_neg_cancel A

/-- Non-vacuity of the other branch: the generator has Edwards coordinates. -/
example : ∃ G : (W1 : WeierstrassCurve.Affine (ZMod P)).Point, IsXY G (GEN_X : ZMod P) (GEN_Y : ZMod P) ∧
    ERep blsTwist (twistIntCoordinates blsTwist ((GEN_X : ZMod P), (GEN_Y : ZMod P))) G ∧
    ¬ ((GEN_Y : ZMod P) = 0 ∨ (blsTwist : TwCfg (ZMod P)).s * (GEN_X + 1) + 1 = 0) := by
  obtain ⟨G, hG, _, h⟩ := C59_subgroup
  have h1 := h 1
  rw [one_nsmul] at h1
  have hr := C65_twist_int_coordinates blsTwist C59_constants _ _ G hG h1
  exact ⟨G, hG, hr, (C65_int_coordinates_exact _ C59_constants _ _ G hG).1.1 hr⟩

end Verif.Props
