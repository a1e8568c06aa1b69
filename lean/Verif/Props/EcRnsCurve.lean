import Verif.Lemmas.EcRnsCurve
import Verif.Lemmas.EcRnsWitness
import Verif.Lemmas.EcRnsAddWitness
import Verif.Lemmas.EcGroup
import Verif.Props.EcEdwards
import Verif.Props.EcXyzz

/-!
# C58, C59: the point formulas on residue vectors

`RRep4 51000 p u`: the coordinates of `p` are residue vectors of integers in `[0, 51000 p]` in the classes `u`.  The
matrix `mat` is the one `construct_rns_matrix` returns for the configured modulus.
-/

namespace Verif.Props

open Verif.EcCurve Verif.EcChunks Verif.EcRns

theorem good_of_construct {rd : ℚ → ℚ} (hrd : FloatRound rd) {mat : List (List Nat) × List Nat}
    (hm : constructMatrix rd P = .ok mat) : Good P mat := by
  obtain ⟨mat', h1, h2⟩ := constructMatrix_good rd hrd P
  rw [hm] at h1
  cases h1
  exact h2

/-- C59 (partial): `padd_rns_twisted_pack` represents the group sum, provided that none of the three products that are
negated has a zero limb for the modulus `2^16` (unless the product is the zero vector).  What is missing: the code does
not ensure the proviso, and without it the claim is false (`C59_rns_add_false`). -/
theorem C59_rns_add_partial (rd : ℚ → ℚ) (hrd : FloatRound rd) (mat : List (List Nat) × List Nat)
    (hm : constructMatrix rd P = .ok mat) (p q : Pt) (u v : Quad (ZMod P))
    (A B : (W1 : WeierstrassCurve.Affine (ZMod P)).Point) (hp : RRep4 51000 p u) (hq : RRep4 51000 q v)
    (ha : ZOk (modMul mat p.1 q.1)) (hb : ZOk (modMul mat p.2.1 q.2.1))
    (hc : ZOk (modMul mat (modMul mat p.2.2.2 q.2.2.2) TWIST_D_RNS))
    (hA : OddPt A) (hB : OddPt B) (hu : ERep blsTwist u A) (hv : ERep blsTwist v B) :
    ∃ w, RRep4 51000 (paddTwisted mat p q) w ∧ ERep blsTwist w (A + B) :=
  ⟨_, paddTwisted_rep (good_of_construct hrd hm) hp hq ha hb hc, C59_add blsTwist C59_constants u v A B hA hB hu hv⟩

/-- C59 (partial): `pdul_rns_twisted` represents the double, provided that no coordinate `X`, `Y`, `Z` is a residue
vector of the integer zero.  What is missing: the neutral element as the code writes it, `(0, 1, 1, 0)`
(`C59_rns_double_false`). -/
theorem C59_rns_double_partial (rd : ℚ → ℚ) (hrd : FloatRound rd) (mat : List (List Nat) × List Nat)
    (hm : constructMatrix rd P = .ok mat) (p : Pt) (u : Quad (ZMod P))
    (A : (W1 : WeierstrassCurve.Affine (ZMod P)).Point) (hp : RRep4 51000 p u)
    (hx : ¬ IsRns p.1 0) (hy : ¬ IsRns p.2.1 0) (hz : ¬ IsRns p.2.2.1 0) (hA : OddPt A) (hu : ERep blsTwist u A) :
    ∃ w, RRep4 51000 (pdulTwisted mat p) w ∧ ERep blsTwist w (A + A) :=
  ⟨_, pdulTwisted_rep (good_of_construct hrd hm) hp hx hy hz, C59_double blsTwist C59_constants u A hA hu⟩

/-- The twisted Edwards coordinates of the configured generator. -/
def GEN_U : Nat := 71222569531709137229370268896323705690285216175189308202338047559628438110820800641278662592954630774340654489393
@[inherit_doc GEN_U]
def GEN_E : Nat := 6177051365529633638563236407038680211609544222665285371549726196884440490905471891908272386851767077598415378235

theorem gen_ed {A : (W1 : WeierstrassCurve.Affine (ZMod P)).Point} (hA : IsXY A (GEN_X : ZMod P) (GEN_Y : ZMod P)) :
    EdXY blsTwist A (GEN_U : ZMod P) (GEN_E : ZMod P) := by
  refine Or.inr ⟨_, _, hA, by decide +kernel, by decide +kernel, ?_, ?_⟩
  · rw [eq_div_iff (by decide +kernel)]
    decide +kernel
  · rw [eq_div_iff (by decide +kernel)]
    decide +kernel

attribute [local irreducible] fastMul exactMatrix

/-- The integers represented by `X3` and `Z3` in the witness. -/
def badX : Nat := 1986563026365198521972996221389731609516106327254817118795483771007104505435224491641876418870354843092386376090916661
@[inherit_doc badX]
def badZ : Nat := 2032463523652450325881788737399095354049408383746251601255277452765300758469586416155155514122948323438137855874069898

/-- The integer represented by `X3` in the double of `(0, 1, 1, 0)`. -/
def badN : Nat := 1922135349702373337593160464086753847708940193281770842471879955876399800296520654040793807765169639084716033050746119

theorem bad_input : (rnsCheck wX1 (8203 * GEN_U % P) && rnsCheck wY1 (8203 * GEN_E % P) &&
    rnsCheck wZ1 8203 && rnsCheck wT1 (8203 * (GEN_U * GEN_E) % P) &&
    (rnsCheck wX2 GEN_U && rnsCheck wY2 GEN_E && rnsCheck wZ2 1 && rnsCheck wT2 (GEN_U * GEN_E % P))) = true := by
  decide +kernel

theorem bad_output : (rnsCheck wX3 badX && rnsCheck wZ3 badZ) = true := by decide +kernel

/-- The `X`-coordinate is not that of `2 G`. -/
theorem bad_value : (badX : ZMod P) * (1 + (blsTwist : TwCfg (ZMod P)).d * GEN_U ^ 2 * GEN_E ^ 2) ≠ (badZ : ZMod P) * (2 * GEN_U * GEN_E) := by
  decide +kernel

/-- C59 is false for `padd_rns_twisted_pack`: for two representations `(X, Y, Z, T)` of the generator of the prime order
subgroup, with all coordinates below the prime, the returned residue vectors decode to coordinates that do not represent
`G + G`.  (The product `Y1 Y2` has limb zero for the modulus `2^16`, which `negate_rns_for_var_add_zero_check` replaces
by zero instead of by `2^16` plus the offset.) -/
theorem C59_rns_add_false (rd : ℚ → ℚ) (hrd : FloatRound rd) : ∃ (mat : List (List Nat) × List Nat) (p q : Pt)
    (u v : Quad (ZMod P)) (G : (W1 : WeierstrassCurve.Affine (ZMod P)).Point),
    constructMatrix rd P = .ok mat ∧ RRep4 51000 p u ∧ RRep4 51000 q v ∧ OddPt G ∧ ERep blsTwist u G ∧
    ERep blsTwist v G ∧ ¬ ∃ w, RRep4 51000 (paddTwisted mat p q) w ∧ ERep blsTwist w (G + G) := by
  obtain ⟨G, hG, -, hodd⟩ := C59_subgroup
  have hG1 : OddPt G := by have := hodd 1; rwa [one_nsmul] at this
  have hE := gen_ed hG
  have hin := bad_input
  simp only [Bool.and_eq_true] at hin
  obtain ⟨⟨⟨⟨i1, i2⟩, i3⟩, i4⟩, ⟨⟨i5, i6⟩, i7⟩, i8⟩ := hin
  have h8 : ((8203 : Nat) : ZMod P) ≠ 0 := by decide +kernel
  have hv : ERep blsTwist ((GEN_U : ZMod P), (GEN_E : ZMod P), ((1 : Nat) : ZMod P), ((GEN_U * GEN_E % P : Nat) : ZMod P))
      G := by
    refine ⟨by simp, ?_, ?_⟩
    · dsimp only
      rw [ZMod.natCast_mod]
      push_cast
      ring
    · dsimp only
      rw [Nat.cast_one, div_one, div_one]
      exact hE
  refine ⟨exactMatrix P, (wX1, wY1, wZ1, wT1), (wX2, wY2, wZ2, wT2),
    (((8203 * GEN_U % P : Nat) : ZMod P), ((8203 * GEN_E % P : Nat) : ZMod P), ((8203 : Nat) : ZMod P),
      ((8203 * (GEN_U * GEN_E) % P : Nat) : ZMod P)), _, G, constructMatrix_exact rd hrd P,
    ⟨rnsCheck_rep i1, rnsCheck_rep i2, rnsCheck_rep i3, rnsCheck_rep i4⟩,
    ⟨rnsCheck_rep i5, rnsCheck_rep i6, rnsCheck_rep i7, rnsCheck_rep i8⟩, hG1, ?_, hv, ?_⟩
  · refine ⟨h8, ?_, ?_⟩
    · dsimp only
      rw [ZMod.natCast_mod, ZMod.natCast_mod, ZMod.natCast_mod]
      push_cast
      ring
    · dsimp only
      rw [ZMod.natCast_mod, ZMod.natCast_mod, Nat.cast_mul, Nat.cast_mul, mul_div_cancel_left₀ _ h8,
        mul_div_cancel_left₀ _ h8]
      exact hE
  · rintro ⟨w, ⟨r1, -, r3, -⟩, hz, -, hw⟩
    rw [witness_add] at r1 r3
    have ho := bad_output
    rw [Bool.and_eq_true] at ho
    have e1 := r1.unique (rnsCheck_rep ho.1)
    have e3 := r3.unique (rnsCheck_rep ho.2)
    have hs := C59_add blsTwist C59_constants _ _ G G hG1 hG1 hv hv
    have hu := (hw.unique hs.2.2).1
    have hz' := hs.1
    rw [e1, e3] at hu
    rw [e3] at hz
    rw [div_eq_div_iff hz hz'] at hu
    apply bad_value
    simp only [edAdd] at hu hz'
    rw [ZMod.natCast_mod] at hu hz'
    push_cast at hu hz'
    have hf := left_ne_zero_of_mul hz'
    apply mul_left_cancel₀ hf
    linear_combination hu

theorem neutral_check : (rnsCheck nX 0 && rnsCheck nY 1 && rnsCheck nX3 badN) = true := by decide +kernel

/-- C59 is false for `pdul_rns_twisted`: the double of the constant `twist_zero = (0, 1, 1, 0)` that the code uses for
the neutral element does not represent the neutral element. -/
theorem C59_rns_double_false (rd : ℚ → ℚ) (hrd : FloatRound rd) : ∃ (mat : List (List Nat) × List Nat) (p : Pt),
    constructMatrix rd P = .ok mat ∧ twistZero = .ok p ∧ RRep4 51000 p edZero ∧ ERep blsTwist (edZero : Quad (ZMod P)) 0 ∧
    ¬ ∃ w, RRep4 51000 (pdulTwisted mat p) w ∧ ERep blsTwist w 0 := by
  have hin := neutral_check
  simp only [Bool.and_eq_true] at hin
  obtain ⟨⟨i1, i2⟩, i3⟩ := hin
  have j1 := rnsCheck_rep i1
  have j2 := rnsCheck_rep i2
  rw [Nat.cast_zero] at j1
  rw [Nat.cast_one] at j2
  refine ⟨exactMatrix P, (nX, nY, nY, nX), constructMatrix_exact rd hrd P, by decide +kernel, ⟨j1, j2, j2, j1⟩,
    C59_zero _, ?_⟩
  rintro ⟨w, ⟨r1, -⟩, hz, -, hw⟩
  rw [witness_double] at r1
  have e1 := r1.unique (rnsCheck_rep i3)
  have := (hw.unique (C59_zero blsTwist).2.2).1
  rw [div_eq_iff hz, e1] at this
  have h0 : (badN : ZMod P) = 0 := by rw [this]; simp [edZero]
  exact absurd h0 (by decide +kernel)

theorem gen_x_ne : (GEN_X : ZMod P) ≠ 0 := by decide +kernel
theorem three_ne : (3 : ZMod P) ≠ 0 := by decide +kernel

/-- C58 (partial): `pdul_rns_xyzz` represents the double of every point that is not of order two and has a nonzero
`x`-coordinate (up to six points excluded; for these `M = 3 x²` is zero modulo the prime and the integers that are
negated can vanish).  The bounds on the integers behind the coordinates are those of the results of `pdul_rns_xyzz` and
`padd_rns_xyzz_pack`. -/
theorem C58_rns_double_partial {b : ZMod P} (rd : ℚ → ℚ) (hrd : FloatRound rd) (mat : List (List Nat) × List Nat)
    (hm : constructMatrix rd P = .ok mat) (p : Pt) (u : Quad (ZMod P)) (A : (shortW 0 b).Point)
    (h1 : RRep 358200 p.1 u.1) (h2 : RRep 153400 p.2.1 u.2.1) (h3 : RRep 51000 p.2.2.1 u.2.2.1)
    (h4 : RRep 51000 p.2.2.2 u.2.2.2) (hx : u.1 ≠ 0) (hu : XRep (some u) A) (h : A + A ≠ 0) :
    ∃ w, (RRep 255800 (pdulXyzz mat p).1 w.1 ∧ RRep 153400 (pdulXyzz mat p).2.1 w.2.1 ∧
      RRep 51000 (pdulXyzz mat p).2.2.1 w.2.2.1 ∧ RRep 51000 (pdulXyzz mat p).2.2.2 w.2.2.2) ∧
      XRep (some w) (A + A) :=
  ⟨_, pdulXyzz_rep (good_of_construct hrd hm) h1 h2 h3 h4 hx (XRep_y_ne hu h) two_ne three_ne,
    C58_double two_ne u A hu h⟩

/-- C58 (partial): `padd_rns_xyzz_pack` represents the sum of two points that are neither equal nor opposite, provided
that the first point has a nonzero `x`-coordinate and is not of order two, and that the quotient estimate of the last
product (`r · (q - x3)`, a negative integer) is rounded up to the next integer.  What is missing: the code ensures
neither proviso, and for points with `x = 0` the claim is false (`C58_rns_add_false`).  The bounds on the integers behind
the coordinates are those of the results of `pdul_rns_xyzz` and `padd_rns_xyzz_pack`. -/
theorem C58_rns_add_partial {b : ZMod P} (rd : ℚ → ℚ) (hrd : FloatRound rd) (mat : List (List Nat) × List Nat)
    (hm : constructMatrix rd P = .ok mat) (p q : Pt) (u v : Quad (ZMod P)) (A B : (shortW 0 b).Point)
    (h1 : RRep 358200 p.1 u.1) (h2 : RRep 153400 p.2.1 u.2.1) (h3 : RRep 51000 p.2.2.1 u.2.2.1)
    (h4 : RRep 51000 p.2.2.2 u.2.2.2) (k1 : RRep 358200 q.1 v.1) (k2 : RRep 153400 q.2.1 v.2.1)
    (k3 : RRep 51000 q.2.2.1 v.2.2.1) (k4 : RRep 51000 q.2.2.2 v.2.2.2) (hx : u.1 ≠ 0) (hA : A + A ≠ 0)
    (hr : RoundsUp mat (mulUnreduced (lastFactors mat p q).1 (lastFactors mat p q).2))
    (hu : XRep (some u) A) (hv : XRep (some v) B) (hne : A ≠ B) (hneg : A ≠ -B) :
    ∃ w, (RRep 358200 (paddXyzz mat p q).1 w.1 ∧ RRep 153400 (paddXyzz mat p q).2.1 w.2.1 ∧
      RRep 51000 (paddXyzz mat p q).2.2.1 w.2.2.1 ∧ RRep 51000 (paddXyzz mat p q).2.2.2 w.2.2.2) ∧
      XRep (some w) (A + B) := by
  refine ⟨_, paddXyzz_rep (good_of_construct hrd hm) h1 h2 h3 h4 k1 k2 k3 k4 hx (XRep_y_ne hu hA) hv.1 hv.2.1 ?_ hr,
    C58_add u v A B hu hv hne hneg⟩
  have h := XRep_ne_x hu hv hne hneg
  intro h0
  apply h
  rw [div_eq_div_iff hu.1 hv.1]
  linear_combination -h0

theorem xrep_affine {b x y : ZMod P} {A : (shortW 0 b).Point} (h : IsXY A x y) : XRep (some (x, y, 1, 1)) A :=
  ⟨one_ne_zero, one_ne_zero, by norm_num, by rw [div_one, div_one]; exact h⟩

/-- The integers represented by `X3` and `ZZ3` in the witness. -/
def badAX : Nat := 79354356059588557266550200704498091473165185443636574318575809157632440199894665169447128086664715853884884199383492493
@[inherit_doc badAX]
def badAZ : Nat := 1955544921376030056883683178703585580036923244118187197543214060353300806443486943096291687673755749132405749557138413

theorem bad_add_input : (rnsCheck bX1 0 && rnsCheck bY1 1 && rnsCheck bX2 GEN_X && rnsCheck bY2 GEN_Y) = true := by
  decide +kernel

theorem bad_add_output : (rnsCheckN 358200 bX3 badAX && rnsCheckN 51000 bZZ3 badAZ) = true := by decide +kernel

theorem bad_add_value : (badAX : ZMod P) * (xyzzAdd ((0 : ZMod P), (1 : ZMod P), (1 : ZMod P), (1 : ZMod P))
    ((GEN_X : ZMod P), (GEN_Y : ZMod P), (1 : ZMod P), (1 : ZMod P))).2.2.1 ≠
    (xyzzAdd ((0 : ZMod P), (1 : ZMod P), (1 : ZMod P), (1 : ZMod P))
    ((GEN_X : ZMod P), (GEN_Y : ZMod P), (1 : ZMod P), (1 : ZMod P))).1 * (badAZ : ZMod P) := by decide +kernel

/-- C58 is false for `padd_rns_xyzz_pack`: for the points `(0, 1)` and `G` (the configured generator) of `y² = x³ + 1`,
given by their reduced affine coordinates with `ZZ = ZZZ = 1`, the returned residue vectors do not represent the sum.
(`u1 = 0`, and `negate_rns_for_var_add` maps the zero vector to `-2^16` instead of zero.) -/
theorem C58_rns_add_false (rd : ℚ → ℚ) (hrd : FloatRound rd) : ∃ (mat : List (List Nat) × List Nat) (p q : Pt)
    (u v : Quad (ZMod P)) (A B : (shortW (0 : ZMod P) 1).Point),
    constructMatrix rd P = .ok mat ∧ RRep4 51000 p u ∧ RRep4 51000 q v ∧ XRep (some u) A ∧ XRep (some v) B ∧ A ≠ B ∧
    A ≠ -B ∧ ¬ ∃ w, (RRep 358200 (paddXyzz mat p q).1 w.1 ∧ RRep 153400 (paddXyzz mat p q).2.1 w.2.1 ∧
      RRep 51000 (paddXyzz mat p q).2.2.1 w.2.2.1 ∧ RRep 51000 (paddXyzz mat p q).2.2.2 w.2.2.2) ∧
      XRep (some w) (A + B) := by
  obtain ⟨G, hG⟩ := exists_generator
  obtain ⟨A, hA⟩ : ∃ A : (shortW (0 : ZMod P) 1).Point, IsXY A 0 1 := exists_isXY disc_ne two_ne (by norm_num)
  have hin := bad_add_input
  simp only [Bool.and_eq_true] at hin
  obtain ⟨⟨⟨i1, i2⟩, i3⟩, i4⟩ := hin
  have j1 := rnsCheck_rep i1
  have j2 := rnsCheck_rep i2
  have j3 := rnsCheck_rep i3
  have j4 := rnsCheck_rep i4
  rw [Nat.cast_zero] at j1
  rw [Nat.cast_one] at j2
  have hu : XRep (some ((0 : ZMod P), (1 : ZMod P), (1 : ZMod P), (1 : ZMod P))) A :=
    xrep_affine hA
  have hv : XRep (some ((GEN_X : ZMod P), (GEN_Y : ZMod P), (1 : ZMod P), (1 : ZMod P))) G :=
    xrep_affine hG
  have hxne := gen_x_ne
  have hne : A ≠ G := by
    rintro rfl
    exact hxne (hG.unique hA).1
  have hneg : A ≠ -G := by
    rintro rfl
    exact hxne (hG.neg.unique hA).1
  refine ⟨exactMatrix P, (bX1, bY1, bY1, bY1), (bX2, bY2, bY1, bY1), _, _, A, G, constructMatrix_exact rd hrd P,
    ⟨j1, j2, j2, j2⟩, ⟨j3, j4, j2, j2⟩, hu, hv, hne, hneg, ?_⟩
  rintro ⟨w, ⟨r1, -, r3, -⟩, hw⟩
  have hs := C58_add _ _ A G hu hv hne hneg
  have ho := bad_add_output
  rw [Bool.and_eq_true] at ho
  have e := badd
  rw [show bZ1 = bY1 from rfl, show bW1 = bY1 from rfl, show bZ2 = bY1 from rfl, show bW2 = bY1 from rfl] at e
  rw [e] at r1 r3
  have e1 := r1.uniqueN BIGM_358200 (rnsCheckN_rep ho.1)
  have e3 := r3.unique (rnsCheckN_rep ho.2)
  obtain ⟨w1, w2, w3, w4⟩ := w
  obtain ⟨hz, -, -, hw⟩ := hw
  dsimp only at e1 e3
  have hval := bad_add_value
  generalize xyzzAdd ((0 : ZMod P), (1 : ZMod P), (1 : ZMod P), (1 : ZMod P))
    ((GEN_X : ZMod P), (GEN_Y : ZMod P), (1 : ZMod P), (1 : ZMod P)) = S at *
  obtain ⟨s1, s2, s3, s4⟩ := S
  obtain ⟨hz', -, -, hs⟩ := hs
  have hx := (hw.unique hs).1
  rw [div_eq_div_iff hz hz', e1, e3] at hx
  exact hval hx

theorem good_limbs : (wX2.length == 50 && wY2.length == 50 && wT2.length == 50 && TWIST_D_RNS.length == 50 &&
    (fastMul wT2 wT2).length == 50 && (fastMul wX2 wX2).getD 0 0 != 0 && (fastMul wY2 wY2).getD 0 0 != 0 &&
    (fastMul (fastMul wT2 wT2) TWIST_D_RNS).getD 0 0 != 0) = true := by
  decide +kernel

/-- The hypotheses of `C59_rns_add_partial` and `C59_rns_double_partial` are met by the generator with `Z = 1`, added to itself. -/
example (rd : ℚ → ℚ) (hrd : FloatRound rd) : ∃ (mat : List (List Nat) × List Nat) (p : Pt) (u : Quad (ZMod P))
    (G : (W1 : WeierstrassCurve.Affine (ZMod P)).Point), constructMatrix rd P = .ok mat ∧ RRep4 51000 p u ∧
    ZOk (modMul mat p.1 p.1) ∧ ZOk (modMul mat p.2.1 p.2.1) ∧
    ZOk (modMul mat (modMul mat p.2.2.2 p.2.2.2) TWIST_D_RNS) ∧ OddPt G ∧ G ≠ 0 ∧ ERep blsTwist u G := by
  obtain ⟨G, hG, -, hodd⟩ := C59_subgroup
  have hG1 : OddPt G := by have := hodd 1; rwa [one_nsmul] at this
  have hE := gen_ed hG
  have hin := bad_input
  have hl := good_limbs
  simp only [Bool.and_eq_true, beq_iff_eq, bne_iff_ne] at hin hl
  obtain ⟨-, ⟨⟨i5, i6⟩, i7⟩, i8⟩ := hin
  obtain ⟨⟨⟨⟨⟨⟨⟨l1, l2⟩, l3⟩, l4⟩, l5⟩, l6⟩, l7⟩, l8⟩ := hl
  refine ⟨exactMatrix P, (wX2, wY2, wZ2, wT2),
    ((GEN_U : ZMod P), (GEN_E : ZMod P), ((1 : Nat) : ZMod P), ((GEN_U * GEN_E % P : Nat) : ZMod P)), G,
    constructMatrix_exact rd hrd P,
    ⟨rnsCheck_rep i5, rnsCheck_rep i6, rnsCheck_rep i7, rnsCheck_rep i8⟩, Or.inr ?_, Or.inr ?_, Or.inr ?_, hG1,
    hG.ne_zero, by simp, ?_, ?_⟩
  · rw [fastMul_eq _ _ l1 l1]; exact l6
  · rw [fastMul_eq _ _ l2 l2]; exact l7
  · rw [fastMul_eq wT2 wT2 l3 l3, fastMul_eq _ _ l5 l4]; exact l8
  · dsimp only
    rw [ZMod.natCast_mod]
    push_cast
    ring
  · dsimp only
    rw [Nat.cast_one, div_one, div_one]
    exact hE

theorem genX_rep : ∃ l, RRep 358200 l (GEN_X : ZMod P) := by
  have h : rnsCheck (MODULI.map fun m => GEN_X % m) GEN_X = true := by decide +kernel
  exact ⟨_, (rnsCheck_rep h).mono (by norm_num)⟩

theorem genY_rep : ∃ l, RRep 153400 l (GEN_Y : ZMod P) := by
  have h : rnsCheck (MODULI.map fun m => GEN_Y % m) GEN_Y = true := by decide +kernel
  exact ⟨_, (rnsCheck_rep h).mono (by norm_num)⟩

theorem one_rep : ∃ l, RRep 51000 l (1 : ZMod P) := by
  have h : rnsCheck nY 1 = true := by decide +kernel
  have i := rnsCheck_rep h
  rw [Nat.cast_one] at i
  exact ⟨_, i⟩

/-- The hypotheses of `C58_rns_double_partial` are met by the generator. -/
example : ∃ (p : Pt) (u : Quad (ZMod P)) (A : (shortW (0 : ZMod P) 1).Point), RRep 358200 p.1 u.1 ∧
    RRep 153400 p.2.1 u.2.1 ∧ RRep 51000 p.2.2.1 u.2.2.1 ∧ RRep 51000 p.2.2.2 u.2.2.2 ∧ u.1 ≠ 0 ∧ XRep (some u) A ∧
    A + A ≠ 0 := by
  obtain ⟨G, hG⟩ := exists_generator
  obtain ⟨lx, hx⟩ := genX_rep
  obtain ⟨ly, hy⟩ := genY_rep
  obtain ⟨l1, h1⟩ := one_rep
  have h2 : G + G ≠ 0 := (hG.double (by decide +kernel)).ne_zero
  have hne := gen_x_ne
  generalize (GEN_X : ZMod P) = X at *
  generalize (GEN_Y : ZMod P) = Y at *
  exact ⟨(lx, ly, l1, l1), (X, Y, 1, 1), G, hx, hy, h1, h1, hne,
    ⟨one_ne_zero, one_ne_zero, by simp, by simpa using hG⟩, h2⟩

/-- The affine coordinates of the double of the generator. -/
def DBL_X : Nat := 142653276895993031000006916266724122521221908004256063457362569275298456307915314952948497516099307719409858077584
@[inherit_doc DBL_X]
def DBL_Y : Nat := 124869013296681382405525048387381943745958348199556996371954051753620340892927007930177100403663166477748695189485

theorem good_add_input : (rnsCheck gX1 GEN_X && rnsCheck gY1 GEN_Y && rnsCheck gZ1 1 && rnsCheck gX2 DBL_X &&
    rnsCheck gY2 DBL_Y) = true := by decide +kernel

theorem dbl_eqn : (DBL_Y : ZMod P) ^ 2 = (DBL_X : ZMod P) ^ 3 + 0 * (DBL_X : ZMod P) + 1 := by decide +kernel
theorem dbl_x_ne : (DBL_X : ZMod P) ≠ (GEN_X : ZMod P) := by decide +kernel

/-- The hypotheses of `C58_rns_add_partial` are met by the generator and its double. -/
example (rd : ℚ → ℚ) (hrd : FloatRound rd) : ∃ (mat : List (List Nat) × List Nat) (p q : Pt) (u v : Quad (ZMod P))
    (A B : (shortW (0 : ZMod P) 1).Point), constructMatrix rd P = .ok mat ∧ RRep 358200 p.1 u.1 ∧
    RRep 153400 p.2.1 u.2.1 ∧ RRep 51000 p.2.2.1 u.2.2.1 ∧ RRep 51000 p.2.2.2 u.2.2.2 ∧ RRep 358200 q.1 v.1 ∧
    RRep 153400 q.2.1 v.2.1 ∧ RRep 51000 q.2.2.1 v.2.2.1 ∧ RRep 51000 q.2.2.2 v.2.2.2 ∧ u.1 ≠ 0 ∧ A + A ≠ 0 ∧
    RoundsUp mat (mulUnreduced (lastFactors mat p q).1 (lastFactors mat p q).2) ∧ XRep (some u) A ∧ XRep (some v) B ∧
    A ≠ B ∧ A ≠ -B := by
  obtain ⟨G, hG⟩ := exists_generator
  obtain ⟨B, hB⟩ : ∃ B : (shortW (0 : ZMod P) 1).Point, IsXY B (DBL_X : ZMod P) (DBL_Y : ZMod P) :=
    exists_isXY disc_ne two_ne dbl_eqn
  have hin := good_add_input
  simp only [Bool.and_eq_true] at hin
  obtain ⟨⟨⟨⟨i1, i2⟩, i3⟩, i4⟩, i5⟩ := hin
  have j3 := rnsCheck_rep i3
  rw [Nat.cast_one] at j3
  have h2 : G + G ≠ 0 := (hG.double (by decide +kernel)).ne_zero
  have hx := dbl_x_ne
  have hx0 := gen_x_ne
  have j1 : RRep 358200 gX1 (GEN_X : ZMod P) := (rnsCheck_rep i1).mono (by norm_num)
  have j2 : RRep 153400 gY1 (GEN_Y : ZMod P) := (rnsCheck_rep i2).mono (by norm_num)
  have j4 : RRep 358200 gX2 (DBL_X : ZMod P) := (rnsCheck_rep i4).mono (by norm_num)
  have j5 : RRep 153400 gY2 (DBL_Y : ZMod P) := (rnsCheck_rep i5).mono (by norm_num)
  generalize (GEN_X : ZMod P) = X at *
  generalize (GEN_Y : ZMod P) = Y at *
  generalize (DBL_X : ZMod P) = X' at *
  generalize (DBL_Y : ZMod P) = Y' at *
  refine ⟨exactMatrix P, (gX1, gY1, gZ1, gW1), (gX2, gY2, gZ2, gW2), (X, Y, 1, 1), (X', Y', 1, 1), G, B,
    constructMatrix_exact rd hrd P, j1, j2, j3, j3, j4, j5, j3, j3, hx0, h2, ?_,
    xrep_affine hG, xrep_affine hB, ?_, ?_⟩
  · rw [glast]
    exact good_add_roundsUp
  · rintro rfl
    exact hx (hB.unique hG).1
  · rintro rfl
    exact hx (hB.neg.unique hG).1

end Verif.Props
