import Verif.Lemmas.EcGroup
import Verif.Lemmas.EcCurveOps

/-!
# C58: XYZZ addition and doubling implement the group law

Specification: the group of points of `y² = x³ + a x + b` as defined in Mathlib (`(shortW a b).Point`), and `XRep p A`,
which says that the stored coordinates `p = (X, Y, ZZ, ZZZ)` are a representation of the point `A`: `ZZ³ = ZZZ²`, both
nonzero, and `A = (X / ZZ, Y / ZZZ)`; the flagged zero (`none`) represents the neutral element only.
-/

namespace Verif.Props

open Verif.EcCurve Verif.EcChunks

variable {F : Type*} [Field F] [DecidableEq F]

theorem XRep_ne_x {a b : F} {p q : Quad F} {A B : (shortW a b).Point} (hp : XRep (some p) A) (hq : XRep (some q) B)
    (h1 : A ≠ B) (h2 : A ≠ -B) : p.1 / p.2.2.1 ≠ q.1 / q.2.2.1 := by
  intro e
  obtain ⟨_, _, _, hA⟩ := hp
  obtain ⟨_, _, _, hB⟩ := hq
  rw [e] at hA
  exact (hA.same_x hB).elim h1 h2

theorem XRep_y_ne {a b : F} {p : Quad F} {A : (shortW a b).Point} (hp : XRep (some p) A) (h : A + A ≠ 0) :
    p.2.1 ≠ 0 := by
  intro e
  obtain ⟨_, _, _, hA⟩ := hp
  exact h (hA.double_zero (by rw [e]; simp))

/-- `add_general` represents the group sum, for every pair of representatives of two points that are neither equal nor
inverse to each other. -/
theorem C58_add {a b : F} (p q : Quad F) (A B : (shortW a b).Point) (hp : XRep (some p) A) (hq : XRep (some q) B)
    (h1 : A ≠ B) (h2 : A ≠ -B) : XRep (some (xyzzAdd p q)) (A + B) :=
  xyzzAdd_rep p q A B hp hq (XRep_ne_x hp hq h1 h2)

/-- `double_general` represents the double of every point that is not its own inverse. -/
theorem C58_double {a b : F} (hF : (2 : F) ≠ 0) (p : Quad F) (A : (shortW a b).Point) (hp : XRep (some p) A)
    (h : A + A ≠ 0) : XRep (some (xyzzDouble a p)) (A + A) :=
  xyzzDouble_rep p A hp hF (XRep_y_ne hp h)

/-- `point_add` with its zero flags and its equality test: the result represents the sum, provided that the operands
are not inverse to each other (unless one is zero) and that equal points come with equal coordinates.  Both provisos
are necessary: `C58_point_add_exceptional`. -/
theorem C58_point_add_partial {a b : F} (hF : (2 : F) ≠ 0) (p q : Option (Quad F)) (A B : (shortW a b).Point)
    (hp : XRep p A) (hq : XRep q B) (hsum : A ≠ 0 → B ≠ 0 → A + B ≠ 0) (heq : A ≠ 0 → A = B → p = q) :
    XRep (xyzzPointAdd a p q) (A + B) := by
  match p, q with
  | none, none =>
    simp only [XRep] at hp hq
    subst hp hq
    simp [xyzzPointAdd, XRep]
  | some p, none =>
    simp only [XRep] at hq
    subst hq
    rw [add_zero]
    exact hp
  | none, some q =>
    simp only [XRep] at hp
    subst hp
    rw [zero_add]
    exact hq
  | some p, some q =>
    have hA : A ≠ 0 := hp.2.2.2.ne_zero
    have hB : B ≠ 0 := hq.2.2.2.ne_zero
    have hs := hsum hA hB
    simp only [xyzzPointAdd]
    by_cases e : p = q
    · subst e
      have hAB : A = B := by
        obtain ⟨_, _, _, _, h1⟩ := hp
        obtain ⟨_, _, _, _, h2⟩ := hq
        rw [h1, h2]
      subst hAB
      rw [if_pos rfl]
      exact C58_double hF p A hp hs
    · rw [if_neg e]
      refine C58_add p q A B hp hq (fun h => e (by have := heq hA h; simpa using this)) (fun h => hs ?_)
      rw [h, neg_add_cancel]

/-- The exceptional inputs: two different representations of the same point, or representations of a point and its
inverse.  `point_add` then returns coordinates with `ZZ = ZZZ = 0` that are not flagged as zero and represent no
point. -/
theorem C58_point_add_exceptional {a b : F} (p q : Quad F) (A B : (shortW a b).Point) (hp : XRep (some p) A)
    (hq : XRep (some q) B) (hpq : p ≠ q) (hAB : A = B ∨ A = -B) :
    ∃ r, xyzzPointAdd a (some p) (some q) = some r ∧ r.2.2 = (0, 0) ∧ ∀ C : (shortW a b).Point, ¬ XRep (some r) C := by
  have hx : p.1 / p.2.2.1 = q.1 / q.2.2.1 := by
    obtain ⟨_, _, _, h1⟩ := hp
    obtain ⟨_, _, _, h2⟩ := hq
    rcases hAB with h | h
    · subst h
      exact (h1.unique h2).1
    · subst h
      exact (h1.unique h2.neg).1
  obtain ⟨x1, y1, z1, w1⟩ := p
  obtain ⟨x2, y2, z2, w2⟩ := q
  dsimp only at hx
  rw [div_eq_div_iff hp.1 hq.1] at hx
  have hd : x2 * z1 - x1 * z2 = 0 := by linear_combination -hx
  refine ⟨_, by rw [xyzzPointAdd, if_neg hpq], ?_, ?_⟩
  · simp only [xyzzAdd, hd, mul_zero]
  · rintro C ⟨h, -⟩
    apply h
    simp [hd]

/-- `point_lshift` by `n` represents `2ⁿ A` for every point none of whose first `n` doublings is zero (in particular
for every point of odd order). -/
theorem C58_shift {a b : F} (hF : (2 : F) ≠ 0) (p : Option (Quad F)) (A : (shortW a b).Point) (n : Nat) (hp : XRep p A)
    (h : A = 0 ∨ ∀ k, k < n → 2 ^ (k + 1) • A ≠ 0) : XRep (xyzzShift a p n) (2 ^ n • A) := by
  match p with
  | none =>
    simp only [XRep] at hp
    simp [xyzzShift, XRep, hp]
  | some p =>
    have hA : A ≠ 0 := hp.2.2.2.ne_zero
    replace h := h.resolve_left hA
    induction n with
    | zero => simpa [xyzzShift] using hp
    | succ n ih =>
      have h1 := ih (fun k hk => h k (by omega))
      simp only [xyzzShift, Function.iterate_succ_apply'] at h1 ⊢
      have e : 2 ^ (n + 1) • A = 2 ^ n • A + 2 ^ n • A := by rw [pow_succ, mul_two, add_nsmul]
      have h2 := h n (by omega)
      rw [e] at h2 ⊢
      exact C58_double hF _ _ h1 h2

/-- Points of odd order satisfy the hypothesis of `C58_shift`. -/
theorem C58_shift_odd {a b : F} (hF : (2 : F) ≠ 0) (p : Option (Quad F)) (A : (shortW a b).Point) (n m : Nat)
    (hp : XRep p A) (hm : Odd m) (h : m • A = 0) : XRep (xyzzShift a p n) (2 ^ n • A) := by
  refine C58_shift hF p A n hp ?_
  by_cases hA : A = 0
  · exact Or.inl hA
  · refine Or.inr fun k _ h2 => hA ?_
    have hc : Nat.Coprime m (2 ^ (k + 1)) := Nat.Coprime.pow_right _ (Nat.coprime_two_right.2 hm)
    have h3 : addOrderOf A ∣ 1 := by
      rw [← hc]
      exact Nat.dvd_gcd (addOrderOf_dvd_of_nsmul_eq_zero h) (addOrderOf_dvd_of_nsmul_eq_zero h2)
    exact AddMonoid.addOrderOf_eq_one_iff.1 (Nat.dvd_one.1 h3)

/-- `convert_to_affine` returns the affine coordinates of the represented point. -/
theorem C58_convert_to_affine {a b : F} (p : Quad F) (A : (shortW a b).Point) (hp : XRep (some p) A) :
    ∃ x y, xyzzToAffine (some p) = some (x, y, 1, 1) ∧ IsXY A x y := by
  obtain ⟨x1, y1, z1, w1⟩ := p
  obtain ⟨hz, hw, e, h⟩ := hp
  obtain ⟨u, hu, rfl, rfl⟩ := xrep_param hz hw e
  refine ⟨_, _, rfl, ?_⟩
  convert h using 1
  · dsimp only
    field_simp
  · dsimp only
    field_simp

/-! ## The array functions -/

theorem two_ne : (2 : ZMod P) ≠ 0 := by decide +kernel

/-- `padd_barret_xyzz` on canonical 24-chunk coordinates. -/
theorem C58_barrett_add {b : ZMod P} (p q : Quad (List Nat)) (u v : Quad (ZMod P)) (A B : (shortW 0 b).Point)
    (hp : BRep4 p u) (hq : BRep4 q v) (hu : XRep (some u) A) (hv : XRep (some v) B) (h1 : A ≠ B) (h2 : A ≠ -B) :
    ∃ w, BRep4 (paddBarrettXyzz p q) w ∧ XRep (some w) (A + B) :=
  ⟨_, paddBarrettXyzz_rep hp hq, C58_add u v A B hu hv h1 h2⟩

/-- `pdul_barret_xyzz`. -/
theorem C58_barrett_double {b : ZMod P} (p : Quad (List Nat)) (u : Quad (ZMod P)) (A : (shortW 0 b).Point)
    (hp : BRep4 p u) (hu : XRep (some u) A) (h : A + A ≠ 0) :
    ∃ w, BRep4 (pdulBarrettXyzz p) w ∧ XRep (some w) (A + A) :=
  ⟨_, pdulBarrettXyzz_rep hp, C58_double two_ne u A hu h⟩

/-- `padd_lazy_xyzz` on 25-chunk coordinates that are at most `p << 16`. -/
theorem C58_lazy_add {b : ZMod P} (p q : Quad (List Nat)) (u v : Quad (ZMod P)) (A B : (shortW 0 b).Point)
    (hp : LRep4 p u) (hq : LRep4 q v) (hu : XRep (some u) A) (hv : XRep (some v) B) (h1 : A ≠ B) (h2 : A ≠ -B) :
    ∃ w, LRep4 (paddLazyXyzz p q) w ∧ XRep (some w) (A + B) :=
  ⟨_, paddLazyXyzz_rep hp hq, C58_add u v A B hu hv h1 h2⟩

/-- `pdul_lazy_xyzz`. -/
theorem C58_lazy_double {b : ZMod P} (p : Quad (List Nat)) (u : Quad (ZMod P)) (A : (shortW 0 b).Point)
    (hp : LRep4 p u) (hu : XRep (some u) A) (h : A + A ≠ 0) :
    ∃ w, LRep4 (pdulLazyXyzz p) w ∧ XRep (some w) (A + A) :=
  ⟨_, pdulLazyXyzz_rep hp, C58_double two_ne u A hu h⟩

/-! ## Non-vacuity -/

theorem disc_ne : (4 * 0 ^ 3 + 27 * 1 ^ 2 : ZMod P) ≠ 0 := by decide +kernel

/-- The configured generator is a point of `y² = x³ + 1`, here in the representation `(x, y, 1, 1)`, and its double is
not zero. -/
theorem exists_generator : ∃ A : (shortW (0 : ZMod P) 1).Point, IsXY A (GEN_X : ZMod P) (GEN_Y : ZMod P) :=
  exists_isXY disc_ne two_ne (by decide +kernel)

/-- Two points that meet the hypotheses of `C58_add`, `C58_double` and `C58_point_add_partial`; one is not in the form
`(x, y, 1, 1)`. -/
example : ∃ A B : (shortW (0 : ZMod P) 1).Point,
    XRep (some ((GEN_X : ZMod P), (GEN_Y : ZMod P), 1, 1)) A ∧ XRep (some (8, 24, 4, 8)) B ∧ A ≠ B ∧ A ≠ -B ∧
      A + A ≠ 0 := by
  obtain ⟨A, hA⟩ := exists_generator
  obtain ⟨B, hB⟩ : ∃ B : (shortW (0 : ZMod P) 1).Point, IsXY B 2 3 := exists_isXY disc_ne two_ne (by decide +kernel)
  have hx : ((GEN_X : Nat) : ZMod P) ≠ 2 := by decide +kernel
  refine ⟨A, B, ⟨one_ne_zero, one_ne_zero, by ring, by simpa using hA⟩,
    ⟨by decide +kernel, by decide +kernel, by norm_num, ?_⟩, ?_, ?_, ?_⟩
  · have e1 : (8 / 4 : ZMod P) = 2 := by
      rw [div_eq_iff (by decide +kernel)]; norm_num
    have e2 : (24 / 8 : ZMod P) = 3 := by
      rw [div_eq_iff (by decide +kernel)]; norm_num
    rw [e1, e2]
    exact hB
  · rintro rfl
    exact hx (hA.unique hB).1
  · rintro rfl
    exact hx (hB.neg.unique hA).1.symm
  · have := hA.double (by decide +kernel)
    exact this.ne_zero

/-- A point with coordinates, in the form `(x, y, 1, 1)`. -/
theorem XRep.of_isXY {a b x y : F} {A : (shortW a b).Point} (h : IsXY A x y) : XRep (some (x, y, 1, 1)) A :=
  ⟨one_ne_zero, one_ne_zero, by ring, by simpa using h⟩

/-- Canonical chunks of the coordinates of a point. -/
theorem exists_BRep4 (u : Quad (ZMod P)) : ∃ p, BRep4 p u := by
  have hr : P < 2 ^ (16 * 24) := by decide +kernel
  have h : ∀ x : ZMod P, BRep (constArray 16 24 x.val) x := fun x =>
    ⟨x.val, constArray_rep 16 24 _ (by norm_num) (lt_trans (ZMod.val_lt x) hr), ZMod.val_lt x, ZMod.natCast_zmod_val x⟩
  exact ⟨(_, _, _, _), h _, h _, h _, h _⟩

/-- Chunks of the coordinates of a point for lazy arithmetic. -/
theorem exists_LRep4 (u : Quad (ZMod P)) : ∃ p, LRep4 p u := by
  have hr : P < 2 ^ (16 * 25) := by decide +kernel
  have h : ∀ x : ZMod P, LRep (constArray 16 25 x.val) x := fun x =>
    ⟨x.val, constArray_rep 16 25 _ (by norm_num) (lt_trans (ZMod.val_lt x) hr),
      le_trans (ZMod.val_lt x).le (Nat.le_mul_of_pos_left P (Nat.two_pow_pos 16)), ZMod.natCast_zmod_val x⟩
  exact ⟨(_, _, _, _), h _, h _, h _, h _⟩

/-- The point `(0, 1)` of order three meets the hypotheses of `C58_shift_odd` and `C58_convert_to_affine`, and, in two
representations, those of `C58_point_add_exceptional`. -/
example : ∃ A : (shortW (0 : ZMod P) 1).Point, A ≠ 0 ∧ XRep (some (xyzzDouble 0 ((0 : ZMod P), 1, 1, 1))) (A + A) ∧
    XRep (xyzzShift (0 : ZMod P) (some (0, 1, 1, 1)) 5) (2 ^ 5 • A) ∧
    (∃ x y, xyzzToAffine (some ((0 : ZMod P), (1 : ZMod P), 1, 1)) = some (x, y, 1, 1) ∧ IsXY A x y) ∧
    ∃ r, xyzzPointAdd (0 : ZMod P) (some (0, 1, 1, 1)) (some (0, 8, 4, 8)) = some r ∧ r.2.2 = (0, 0) := by
  obtain ⟨A, hA⟩ : ∃ B : (shortW (0 : ZMod P) 1).Point, IsXY B 0 1 := exists_isXY disc_ne two_ne (by decide +kernel)
  have h2 := hA.double (by decide +kernel)
  have hr := XRep.of_isXY hA
  have hr' : XRep (some ((0 : ZMod P), 8, 4, 8)) A :=
    ⟨by decide +kernel, by decide +kernel, by norm_num, by
      rw [zero_div, div_self (by decide +kernel)]; exact hA⟩
  have h3 : 3 • A = 0 := by
    have e : A + A = -A := by
      have : IsXY (A + A) 0 (-1) := by convert h2 using 1 <;> norm_num
      obtain ⟨h, e⟩ := this
      obtain ⟨h', e'⟩ := hA.neg
      rw [e, e']
    rw [show (3 : Nat) = 2 + 1 from rfl, add_nsmul, one_nsmul, two_nsmul, e, neg_add_cancel]
  obtain ⟨r, h5, h6, -⟩ := C58_point_add_exceptional _ _ A A hr hr' (by decide +kernel) (Or.inl rfl)
  exact ⟨A, hA.ne_zero, C58_double two_ne _ A hr h2.ne_zero, C58_shift_odd two_ne _ A 5 3 hr (by decide) h3,
    C58_convert_to_affine _ A hr, r, h5, h6⟩

/-- The chunked formulas on the generator and the point `(2, 3)`: hypotheses of `C58_barrett_add`, `C58_barrett_double`,
`C58_lazy_add` and `C58_lazy_double`. -/
example : ∃ (A B : (shortW (0 : ZMod P) 1).Point) (p q p' q' : Quad (List Nat)), A ≠ 0 ∧ B ≠ 0 ∧
    (∃ w, BRep4 (paddBarrettXyzz p q) w ∧ XRep (some w) (A + B)) ∧ (∃ w, BRep4 (pdulBarrettXyzz p) w ∧ XRep (some w) (A + A)) ∧
    (∃ w, LRep4 (paddLazyXyzz p' q') w ∧ XRep (some w) (A + B)) ∧ (∃ w, LRep4 (pdulLazyXyzz p') w ∧ XRep (some w) (A + A)) := by
  obtain ⟨A, hA⟩ := exists_generator
  obtain ⟨B, hB⟩ : ∃ B : (shortW (0 : ZMod P) 1).Point, IsXY B 2 3 := exists_isXY disc_ne two_ne (by decide +kernel)
  have hx : ((GEN_X : Nat) : ZMod P) ≠ 2 := by decide +kernel
  have h1 : A ≠ B := by rintro rfl; exact hx (hA.unique hB).1
  have h2 : A ≠ -B := by rintro rfl; exact hx (hB.neg.unique hA).1.symm
  have h3 : A + A ≠ 0 := (hA.double (by decide +kernel)).ne_zero
  obtain ⟨p, hp⟩ := exists_BRep4 ((GEN_X : ZMod P), (GEN_Y : ZMod P), 1, 1)
  obtain ⟨q, hq⟩ := exists_BRep4 (2, 3, 1, 1)
  obtain ⟨p', hp'⟩ := exists_LRep4 ((GEN_X : ZMod P), (GEN_Y : ZMod P), 1, 1)
  obtain ⟨q', hq'⟩ := exists_LRep4 (2, 3, 1, 1)
  have rA := XRep.of_isXY hA
  have rB := XRep.of_isXY hB
  exact ⟨A, B, p, q, p', q', hA.ne_zero, hB.ne_zero, C58_barrett_add p q _ _ A B hp hq rA rB h1 h2,
    C58_barrett_double p _ A hp rA h3, C58_lazy_add p' q' _ _ A B hp' hq' rA rB h1 h2, C58_lazy_double p' _ A hp' rA h3⟩

end Verif.Props
