import Verif.Lemmas.EcRnsCurve

/-!
# XYZZ addition on residue vectors

`q - x3` is computed as `q + 102400 p - x3` with `x3 ≥ 154200 p`: the integer behind the vector is negative, so the
last product reduces a negative integer.
-/

namespace Verif.EcRns

open Verif.EcChunks Verif.EcCurve

theorem BIGM_358200 : 358200 * P < BIGM := by decide +kernel

attribute [local irreducible] BIGM MODULI RNS_T FACTORS TOTAL P MODULI_SUB TWIST_D TWIST_D_RNS

/-- The vectors `r` and `q - x3` of `padd_rns_xyzz_pack` (elliptic_curve.py L645-672), the operands of its last
product. -/
def lastFactors (mat : List (List Nat) × List Nat) (p1 p2 : Pt) : List Nat × List Nat :=
  let s1 := modMul mat p1.2.1 p2.2.2.2
  let s2 := modMul mat p1.2.2.2 p2.2.1
  let u1 := modMul mat p1.1 p2.2.2.1
  let u2 := modMul mat p1.2.2.1 p2.1
  let p := addSubVals u2 [negate u1]
  let r := addSubVals s2 [negate s1]
  let pp := modMul mat p p
  let rr := modMul mat r r
  let ppp := modMul mat p pp
  let q := modMul mat u1 pp
  let x3 := addSubVals rr [negate ppp, negate q, negate q]
  (r, addSubVals q [negate x3])

/-- A product with one negative factor. -/
theorem modMul_neg {mat : List (List Nat) × List Nat} (hg : Good P mat) {a b : List Nat} {x y : Int}
    (ha : IsRns a x) (hb : IsRns b y) (A B : Nat) (hx0 : 0 < x) (hx : x ≤ A * P) (hy0 : y < 0) (hy : -(B * P) ≤ y)
    (hAB : A * B ≤ 219000000000) (hr : RoundsUp mat (mulUnreduced a b)) :
    ∃ c : Int, IsRns (modMul mat a b) c ∧ 0 ≤ c ∧ c < 51000 * P ∧ c ≡ x * y [ZMOD P] := by
  obtain ⟨h1, h2⟩ := prod_bound (x := x) (y := -y) A B hx0.le hx (by omega) (by omega) hAB
  refine modRed_neg P_pos' hg _ _ (mulUnreduced_spec ha hb) (mul_neg_of_pos_of_neg hx0 hy0) ?_ hr
  rw [mul_neg] at h1 h2
  omega

/-- `padd_rns_xyzz_pack`: the bounds cover results of additions and doublings. -/
theorem paddXyzz_rep {mat : List (List Nat) × List Nat} (hg : Good P mat) {p q : Pt} {u v : Quad (ZMod P)}
    (hx1 : RRep 358200 p.1 u.1) (hy1 : RRep 153400 p.2.1 u.2.1) (hz1 : RRep 51000 p.2.2.1 u.2.2.1)
    (hw1 : RRep 51000 p.2.2.2 u.2.2.2) (hx2 : RRep 358200 q.1 v.1) (hy2 : RRep 153400 q.2.1 v.2.1)
    (hz2 : RRep 51000 q.2.2.1 v.2.2.1) (hw2 : RRep 51000 q.2.2.2 v.2.2.2)
    (hx0 : u.1 ≠ 0) (hy0 : u.2.1 ≠ 0) (hz0 : v.2.2.1 ≠ 0) (hw0 : v.2.2.2 ≠ 0) (hp0 : v.1 * u.2.2.1 - u.1 * v.2.2.1 ≠ 0)
    (hr : RoundsUp mat (mulUnreduced (lastFactors mat p q).1 (lastFactors mat p q).2)) :
    RRep 358200 (paddXyzz mat p q).1 (xyzzAdd u v).1 ∧ RRep 153400 (paddXyzz mat p q).2.1 (xyzzAdd u v).2.1 ∧
      RRep 51000 (paddXyzz mat p q).2.2.1 (xyzzAdd u v).2.2.1 ∧
      RRep 51000 (paddXyzz mat p q).2.2.2 (xyzzAdd u v).2.2.2 := by
  obtain ⟨x1, y1, z1, w1⟩ := p
  obtain ⟨x2, y2, z2, w2⟩ := q
  obtain ⟨X1, Y1, Z1, W1⟩ := u
  obtain ⟨X2, Y2, Z2, W2⟩ := v
  dsimp only at *
  simp only [lastFactors] at hr
  have : Fact (Nat.Prime P) := inferInstance
  have u1 := hx1.mul hg hz2 (by norm_num)
  have s1 := hy1.mul hg hw2 (by norm_num)
  have zz := hz1.mul hg hz2 (by norm_num)
  have zzz := hw1.mul hg hw2 (by norm_num)
  have u2 := hz1.mul hg hx2 (by norm_num)
  have s2 := hw1.mul hg hy2 (by norm_num)
  have nu1 := u1.neg (mul_NZ_of_ne hg hx1 hz2 (by norm_num) hx0 hz0) (by norm_num)
  have ns1N := mul_NZ_of_ne hg hy1 hw2 (by norm_num) hy0 hw0
  have pP := u2.term.add1 nu1
  have hpc : Z1 * X2 + -(X1 * Z2) ≠ 0 := by
    intro h; apply hp0; linear_combination h
  have pp := pP.mul hg pP (by norm_num)
  have hpp0 := mul_ne_zero hpc hpc
  have ppp := pP.mul hg pp (by norm_num)
  have hpppN := mul_NZ_of_ne hg pP pp (by norm_num) hpc hpp0
  have q := u1.mul hg pp (by norm_num)
  have hqN := mul_NZ_of_ne hg u1 pp (by norm_num) (mul_ne_zero hx0 hz0) hpp0
  have zz3 := zz.mul hg pp (by norm_num)
  have zzz3 := zzz.mul hg ppp (by norm_num)
  have s1ppp := s1.mul hg ppp (by norm_num)
  have ns1ppp := s1ppp.neg (mul_NZ_of_ne hg s1 ppp (by norm_num) (mul_ne_zero hy0 hw0)
    (mul_ne_zero hpc hpp0)) (by norm_num)
  unfold paddXyzz
  dsimp only
  generalize modMul mat x1 z2 = lu1 at *
  generalize modMul mat y1 w2 = ls1 at *
  generalize modMul mat w1 y2 = ls2 at *
  generalize addSubVals (modMul mat z1 x2) [negate lu1] = lp at *
  generalize modMul mat lp lp = lpp at *
  generalize modMul mat lp lpp = lppp at *
  generalize modMul mat lu1 lpp = lq at *
  -- r, a positive integer
  obtain ⟨a1, s1r, s1a, s1b, s1c⟩ := s1
  obtain ⟨a2, s2r, s2a, s2b, s2c⟩ := s2
  have hPp : (0 : Int) < P := by exact_mod_cast P_pos'
  push_cast at s1b s2b
  have hrI := addSubVals_spec 131072 ls2 [negate ls1] a2 [102400 * P - a1] (s2r.term (by norm_num))
    (.cons (negate_spec s1r ns1N) .nil) (by norm_num)
  simp only [List.sum_cons, List.sum_nil, add_zero] at hrI
  generalize addSubVals ls2 [negate ls1] = lr at *
  obtain ⟨rv, hrv⟩ : ∃ rv : Int, rv = a2 + (102400 * P - a1) := ⟨_, rfl⟩
  rw [← hrv] at hrI
  have r0 : 0 < rv := by omega
  have r1 : rv ≤ 153400 * P := by omega
  have rc : ((rv : Int) : ZMod P) = W1 * Y2 - Y1 * W2 := by
    rw [hrv, Int.cast_add, cast_neg_value, s1c, s2c]; ring
  have rrep : RRep 153400 lr (W1 * Y2 - Y1 * W2) := ⟨rv, hrI, r0.le, by push_cast; exact r1, rc⟩
  have rr := rrep.mul hg rrep (by norm_num)
  have hrrN : NZ (modMul mat lr lr) := by
    obtain ⟨b1, b2⟩ := prod_bound 153400 153400 r0.le (by push_cast; exact r1) r0.le (by push_cast; exact r1) (by norm_num)
    rcases modMul_zero_or hg hrI hrI b1 (by omega) with ⟨e, -⟩ | e
    · exfalso
      exact (mul_pos r0 r0).ne' e
    · exact e
  have nppp := ppp.neg hpppN (by norm_num)
  have nq := q.neg hqN (by norm_num)
  have x3 := rr.term.add3 nppp nq nq
  obtain ⟨c1, rrr, rra, rrb, rrc⟩ := rr
  obtain ⟨c2, pr, pa, pb, pc⟩ := ppp
  obtain ⟨c3, qr, qa, qb, qc⟩ := q
  push_cast at rrb pb qb
  have hterms : List.Forall₂ (Term 131072) [negate lppp, negate lq, negate lq]
      [102400 * P - c2, 102400 * P - c3, 102400 * P - c3] :=
    .cons (negate_spec pr hpppN) (.cons (negate_spec qr hqN) (.cons (negate_spec qr hqN) .nil))
  have hx3I := addSubVals_spec 131072 (modMul mat lr lr) [negate lppp, negate lq, negate lq] c1 _
    (rrr.term (by norm_num)) hterms (by norm_num)
  have hx3N := addSubVals_NZ 131072 (modMul mat lr lr) [negate lppp, negate lq, negate lq] c1 _
    (rrr.term (by norm_num)) hterms (by norm_num) hrrN
  simp only [List.sum_cons, List.sum_nil, add_zero] at hx3I
  generalize addSubVals (modMul mat lr lr) [negate lppp, negate lq, negate lq] = lx3 at *
  have hqxI := addSubVals_spec 131072 lq [negate lx3] c3 _ (qr.term (by norm_num))
    (.cons (negate_spec hx3I hx3N) .nil) (by norm_num)
  simp only [List.sum_cons, List.sum_nil, add_zero] at hqxI
  generalize addSubVals lq [negate lx3] = lqx at *
  obtain ⟨e, he⟩ : ∃ e : Int, e = c3 + (102400 * P -
    (c1 + (102400 * P - c2 + (102400 * P - c3 + (102400 * P - c3))))) := ⟨_, rfl⟩
  rw [← he] at hqxI
  obtain ⟨d, dI, d0, d1, dc⟩ := modMul_neg hg hrI hqxI 153400 255800 r0 (by push_cast; exact r1) (by omega)
    (by push_cast; omega) (by norm_num) hr
  have hlast : RRep 51000 (modMul mat lr lqx) ((W1 * Y2 - Y1 * W2) * (X1 * Z2 * ((Z1 * X2 + -(X1 * Z2)) *
      (Z1 * X2 + -(X1 * Z2))) - ((W1 * Y2 - Y1 * W2) * (W1 * Y2 - Y1 * W2) +
      -((Z1 * X2 + -(X1 * Z2)) * ((Z1 * X2 + -(X1 * Z2)) * (Z1 * X2 + -(X1 * Z2)))) +
      -(X1 * Z2 * ((Z1 * X2 + -(X1 * Z2)) * (Z1 * X2 + -(X1 * Z2)))) +
      -(X1 * Z2 * ((Z1 * X2 + -(X1 * Z2)) * (Z1 * X2 + -(X1 * Z2))))))) := by
    refine ⟨d, dI, d0, by push_cast; exact d1.le, ?_⟩
    have h1 : ((d : Int) : ZMod P) = ((rv * e : Int) : ZMod P) := (ZMod.intCast_eq_intCast_iff _ _ _).2 dc
    rw [h1, Int.cast_mul, rc, he]
    rw [Int.cast_add, cast_neg_value, Int.cast_add, Int.cast_add, Int.cast_add, cast_neg_value, cast_neg_value, rrc, pc,
      qc]
    ring
  refine ⟨?_, ?_, ?_, ?_⟩
  · exact x3.congr (by simp only [xyzzAdd]; ring)
  · exact (hlast.term.add1 ns1ppp).congr (by simp only [xyzzAdd]; ring)
  · exact zz3.congr (by simp only [xyzzAdd]; ring)
  · exact zzz3.congr (by simp only [xyzzAdd]; ring)

/-- A residue vector of known size represents one class only. -/
theorem RRep.uniqueN {N : Nat} (hN : N * P < BIGM) {l : List Nat} {x y : ZMod P} (hx : RRep N l x) (hy : RRep N l y) :
    x = y := by
  obtain ⟨v, h1, h2, h3, h4⟩ := hx
  obtain ⟨w, k1, k2, k3, k4⟩ := hy
  have hb : (N : Int) * P < BIGM := by
    have h := Int.ofNat_lt.2 hN
    rwa [Int.natCast_mul] at h
  rw [← h4, ← k4, h1.unique k1 ⟨h2, by omega⟩ ⟨k2, by omega⟩]

/-- Executable form of `RRep` for a given integer. -/
def rnsCheckN (N : Nat) (l : List Nat) (v : Nat) : Bool :=
  l.length == 50 && l.all (· < 65536) && (List.range 50).all (fun i => l.getD i 0 % MODULI.getD i 0 == v % MODULI.getD i 0)
    && Nat.ble v (N * P)

theorem rnsCheckN_rep {N : Nat} {l : List Nat} {v : Nat} (h : rnsCheckN N l v = true) : RRep N l (v : ZMod P) := by
  simp only [rnsCheckN, Bool.and_eq_true, beq_iff_eq, List.all_eq_true, decide_eq_true_eq, List.mem_range, Nat.ble_eq] at h
  obtain ⟨⟨⟨h1, h2⟩, h3⟩, h4⟩ := h
  refine ⟨v, ⟨h1, h2, ?_⟩, by positivity, by exact_mod_cast h4, by push_cast; rfl⟩
  intro i hi
  apply Int.natCast_modEq_iff.2
  exact h3 i hi

end Verif.EcRns
