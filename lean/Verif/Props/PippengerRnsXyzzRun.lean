import Verif.Lemmas.EcRnsXRunA
import Verif.Lemmas.EcRnsXRunB
import Verif.Props.PippengerRnsXyzz
import Verif.Props.PippengerRnsRun

/-!
# A complete run of `MSMPippenger` on residue vectors (C61, C83)

`C61_rns_partial` and `C83_rns_xyzz_sum_partial` are about the runs that stay in the domains of the formulas.  Here the run
of `MSMPippenger` of pippenger_rns.py for the generator, the scalar `2^254 - 1` and one-bit windows is shown to be one of
them: 253 doublings and 253 additions on residue vectors.  That no formula meets an exceptional point follows from the
order of the generator; that every last quotient estimate is rounded up is computed.
-/

namespace Verif.Props

open Verif.EcCurve Verif.EcChunks Verif.EcRns Verif.Pippenger Verif.PippengerArr Verif.EcBatch

attribute [local irreducible] exactMatrix modMul runXG runX1 runX2 runX3 runX4 runX5 runX6 runX7 runX8 P BIGM MODULI

theorem runX_steps : (mergeXStep runXG)^[253] runXG = runX8 ∧
    ∀ j, j < 253 → StepUp runXG ((mergeXStep runXG)^[j] runXG) := by
  have hw := runX_lim
  have key : ∀ {n m : Nat} {r s q : Pt}, (mergeXStep runXG)^[n] r = s ∧
      (∀ j, j < n → StepUp runXG ((mergeXStep runXG)^[j] r)) →
      (∀ j, j < m → StepUp runXG ((mergeXStep runXG)^[j] s)) ∧ (mergeXStep runXG)^[m] s = q ∧ LimPt q →
      (mergeXStep runXG)^[m + n] r = q ∧ (∀ j, j < m + n → StepUp runXG ((mergeXStep runXG)^[j] r)) := by
    rintro n m r s q ⟨h1, h2⟩ ⟨h3, h4, -⟩
    refine ⟨by rw [Function.iterate_add_apply, h1, h4], fun j hj => ?_⟩
    rcases Nat.lt_or_ge j n with h | h
    · exact h2 j h
    · have := h3 (j - n) (by omega)
      rw [← h1, ← Function.iterate_add_apply, Nat.sub_add_cancel h] at this
      exact this
  have h0 := chunkX hw hw runX_chunk0
  have h1 := chunkX hw h0.2.2 runX_chunk1
  have h2 := chunkX hw h1.2.2 runX_chunk2
  have h3 := chunkX hw h2.2.2 runX_chunk3
  have h4 := chunkX hw h3.2.2 runX_chunk4
  have h5 := chunkX hw h4.2.2 runX_chunk5
  have h6 := chunkX hw h5.2.2 runX_chunk6
  have h7 := chunkX hw h6.2.2 runX_chunk7
  rw [show 253 = 29 + (32 + (32 + (32 + (32 + (32 + (32 + 32)))))) from rfl]
  exact key (key (key (key (key (key (key ⟨h0.2.1, h0.1⟩ h1) h2) h3) h4) h5) h6) h7

/-- A point with `x = 0` on a curve `y² = x³ + b` has order dividing three. -/
theorem isXY_zero {b y : ZMod P} {A : (shortW 0 b).Point} (h : IsXY A 0 y) (h2 : A + A ≠ 0) : A + (A + A) = 0 := by
  have hy : y + y ≠ 0 := fun e => h2 (h.double_zero e)
  have := h.double hy
  simp only [ne_eq, OfNat.ofNat_ne_zero, not_false_eq_true, zero_pow, mul_zero, add_zero, zero_div, sub_zero, zero_sub]
    at this
  exact h.add_neg this

theorem XRep_x_ne {b : ZMod P} {p : Quad (ZMod P)} {A : (shortW 0 b).Point} (hp : XRep (some p) A) (h2 : A + A ≠ 0)
    (h3 : A + (A + A) ≠ 0) : p.1 ≠ 0 := by
  intro e
  obtain ⟨_, _, _, hA⟩ := hp
  rw [e, zero_div] at hA
  exact h3 (isXY_zero hA h2)

theorem RXRep.xy_ne {b : ZMod P} {p : Pt} {A : (shortW 0 b).Point} (hp : RXRep p A) (h2 : A + A ≠ 0)
    (h3 : A + (A + A) ≠ 0) : rnsVal p.1 ≠ 0 ∧ rnsVal p.2.1 ≠ 0 := by
  obtain ⟨u, k1, k2, -, -, hu⟩ := hp
  rw [rnsVal_eq k1 (by norm_num), rnsVal_eq k2 (by norm_num)]
  exact ⟨XRep_x_ne hu h2 h3, XRep_y_ne hu h2⟩

theorem RXRep.x_ne {b : ZMod P} {p q : Pt} {A B : (shortW 0 b).Point} (hp : RXRep p A) (hq : RXRep q B) (h1 : A ≠ B)
    (h2 : A ≠ -B) : rnsVal p.1 * rnsVal q.2.2.1 ≠ rnsVal q.1 * rnsVal p.2.2.1 := by
  obtain ⟨u, k1, -, k3, -, hu⟩ := hp
  obtain ⟨v, l1, -, l3, -, hv⟩ := hq
  rw [rnsVal_eq k1 (by norm_num), rnsVal_eq k3 (by norm_num), rnsVal_eq l1 (by norm_num), rnsVal_eq l3 (by norm_num)]
  have := XRep_ne_x hu hv h1 h2
  rwa [ne_eq, div_eq_div_iff hu.1 hv.1] at this

theorem paddX_checked {mat : List (List Nat) × List Nat} {p q : Pt} (h : rnsXAddOk mat p q = true) :
    (checkedRnsXyzz mat).padd (p, true) (q, true) = (paddXyzz mat p q, true) := by
  show (paddXyzz mat p q, true && true && rnsXAddOk mat p q) = _
  rw [h]
  rfl

theorem pdulX_checked {mat : List (List Nat) × List Nat} {p : Pt} (h : rnsXDoubleOk p = true) :
    (checkedRnsXyzz mat).pdul (p, true) = (pdulXyzz mat p, true) := by
  show (pdulXyzz mat p, true && rnsXDoubleOk p) = _
  rw [h]
  rfl

/-- One doubling and one addition of the merge. -/
theorem mergeX_step {G : (shortW (0 : ZMod P) 1).Point} {p q : Pt} {B : (shortW (0 : ZMod P) 1).Point}
    (hg : Good P (exactMatrix P)) (hp : RXRep p G) (hq : RXRep q B) (h2 : 2 • B ≠ 0) (h3 : 3 • B ≠ 0) (h4 : 4 • B ≠ 0)
    (h6 : 6 • B ≠ 0) (d1 : B + B ≠ G) (d2 : B + B ≠ -G) (hup : StepUp p q) :
    (checkedRnsXyzz (exactMatrix P)).padd ((checkedRnsXyzz (exactMatrix P)).pdul (q, true)) (p, true) =
      (mergeXStep p q, true) ∧ RXRep (mergeXStep p q) (B + B + G) := by
  have n2 : B + B ≠ 0 := by rwa [← two_nsmul]
  have n3 : B + (B + B) ≠ 0 := by
    rwa [show 3 = 1 + 2 from rfl, add_nsmul, one_nsmul, two_nsmul] at h3
  have n4 : B + B + (B + B) ≠ 0 := by
    rwa [show 4 = 2 + 2 from rfl, add_nsmul, two_nsmul] at h4
  have n6 : B + B + (B + B + (B + B)) ≠ 0 := by
    rwa [show 6 = 2 + (2 + 2) from rfl, add_nsmul, add_nsmul, two_nsmul] at h6
  obtain ⟨x1, y1⟩ := hq.xy_ne n2 n3
  have e1 : rnsXDoubleOk q = true := by simp [rnsXDoubleOk, x1, y1]
  have hd := hq.double hg e1
  obtain ⟨x2, y2⟩ := hd.xy_ne n4 n6
  have hx := hd.x_ne hp d1 d2
  have hup' : RoundsUp (exactMatrix P) (mulUnreduced (lastFactors (exactMatrix P) (pdulXyzz (exactMatrix P) q) p).1
    (lastFactors (exactMatrix P) (pdulXyzz (exactMatrix P) q) p).2) := hup
  have e2 : rnsXAddOk (exactMatrix P) (pdulXyzz (exactMatrix P) q) p = true := by
    unfold rnsXAddOk
    rw [decide_eq_true hx, decide_eq_true x2, decide_eq_true y2, decide_eq_true hup']
    rfl
  refine ⟨?_, hd.add hg hp e2⟩
  rw [pdulX_checked e1, paddX_checked e2]
  rfl

theorem gcdsX : (List.range 253).all (fun j => Nat.gcd (12 * (2 ^ (j + 1) - 1)) ORDER == 1 &&
    Nat.gcd (2 ^ (j + 2) - 3) ORDER == 1 && Nat.gcd (2 ^ (j + 2) - 1) ORDER == 1) = true := by decide +kernel

theorem mergeX_run {G : (shortW (0 : ZMod P) 1).Point} (hG : IsXY G (GEN_X : ZMod P) (GEN_Y : ZMod P))
    (hg : Good P (exactMatrix P)) (hp : RXRep runXG G) (j : Nat) (hj : j < 254) :
    (fun r => (checkedRnsXyzz (exactMatrix P)).padd ((checkedRnsXyzz (exactMatrix P)).pdul r) (runXG, true))^[j]
      (runXG, true) = ((mergeXStep runXG)^[j] runXG, true) ∧
    RXRep ((mergeXStep runXG)^[j] runXG) ((2 ^ (j + 1) - 1) • G) := by
  induction j with
  | zero => exact ⟨rfl, by rw [zero_add, pow_one, one_nsmul]; exact hp⟩
  | succ j ih =>
    obtain ⟨ih1, ih2⟩ := ih (by omega)
    have hgc := List.all_eq_true.1 gcdsX j (List.mem_range.2 (by omega))
    simp only [Bool.and_eq_true, beq_iff_eq] at hgc
    obtain ⟨⟨g1, g2⟩, g3⟩ := hgc
    have hpow : 2 ≤ 2 ^ (j + 1) := by
      rw [pow_succ]
      have := Nat.one_le_two_pow (n := j)
      omega
    have hpow2 : 2 ^ (j + 2) = 2 * 2 ^ (j + 1) := by rw [pow_succ]; ring
    have hm : ∀ m, m ∣ 12 → m • ((2 ^ (j + 1) - 1) • G) ≠ 0 := by
      intro m hm
      rw [← mul_nsmul']
      exact nsmul_generator_ne hG _ (Nat.Coprime.coprime_dvd_left (Nat.mul_dvd_mul hm (dvd_refl _)) g1)
    have := mergeX_step hg hp ih2 (hm 2 (by norm_num)) (hm 3 (by norm_num)) (hm 4 (by norm_num)) (hm 6 (by norm_num)) (by
      intro h
      refine nsmul_generator_ne hG _ g2 ?_
      rw [show 2 ^ (j + 2) - 3 = ((2 ^ (j + 1) - 1) + (2 ^ (j + 1) - 1)) - 1 by omega, sub_nsmul _ (by omega),
        add_nsmul, h, one_nsmul, add_neg_cancel]) (by
      intro h
      refine nsmul_generator_ne hG _ g3 ?_
      rw [show 2 ^ (j + 2) - 1 = ((2 ^ (j + 1) - 1) + (2 ^ (j + 1) - 1)) + 1 by omega, add_nsmul,
        add_nsmul, h, one_nsmul, neg_add_cancel]) (runX_steps.2 j (by omega))
    rw [← add_nsmul, ← succ_nsmul,
      show (2 ^ (j + 1) - 1) + (2 ^ (j + 1) - 1) + 1 = 2 ^ (j + 1 + 1) - 1 by omega] at this
    rw [Function.iterate_succ_apply', Function.iterate_succ_apply', ih1]
    exact this

theorem genPoint : rnsPoint ((GEN_X : Int), (GEN_Y : Int), 1, 1) = runXG := by
  unfold runXG rnsPoint EcBatch.intToArrayRns
  decide +kernel

theorem gen_range : (0 ≤ (GEN_X : Int) ∧ (GEN_X : Int) ≤ 51000 * (P : Int)) ∧
    (0 ≤ (GEN_Y : Int) ∧ (GEN_Y : Int) ≤ 51000 * (P : Int)) := by
  unfold P
  decide +kernel

/-- The hypotheses of `C61_rns_partial` and of `C83_rns_xyzz_sum_partial` are met by the configured generator, the scalar
`2^254 - 1` and one-bit windows, with the reduction matrix that the code computes; hence (last clause) the code returns
XYZZ coordinates of `(2^254 - 1) G` for it. -/
example (rd : ℚ → ℚ) (hrd : FloatRound rd) : ∃ (mat : Mat) (G : (shortW (0 : ZMod P) 1).Point) (r : Pt),
    constructMatrix rd P = .ok mat ∧ IsXY G (GEN_X : ZMod P) (GEN_Y : ZMod P) ∧
    RXRep (rnsPoint (GEN_X, GEN_Y, 1, 1)) G ∧
    msmXyzz (checkedRnsXyzz mat) 1 [2 ^ 254 - 1] [(rnsPoint (GEN_X, GEN_Y, 1, 1), true)] = .ok (r, true) ∧
    ∃ q, msmXyzzRnsA mat 1 [2 ^ 254 - 1] [[(GEN_X : Int), (GEN_Y : Int)]] = .ok [q.1, q.2.1, q.2.2.1, q.2.2.2] ∧
      ZXRep q ((2 ^ 254 - 1 : Int) • G) := by
  obtain ⟨G, hG⟩ := exists_generator
  have hm := constructMatrix_exact rd hrd P
  have hg := good_of_construct hrd hm
  have hG' : IsXY G (((GEN_X : Int) : ZMod P)) (((GEN_Y : Int) : ZMod P)) := by
    rw [Int.cast_natCast, Int.cast_natCast]
    exact hG
  have hp : RXRep (rnsPoint (GEN_X, GEN_Y, 1, 1)) G :=
    rnsPoint_affine (q := ((GEN_X : Int), (GEN_Y : Int))) gen_range.1 gen_range.2 hG'
  have hrun : msmXyzz (checkedRnsXyzz (exactMatrix P)) 1 [2 ^ 254 - 1]
      [(rnsPoint (GEN_X, GEN_Y, 1, 1), true)] = .ok (runX8, true) := by
    have hp' := hp
    rw [genPoint] at hp' ⊢
    rw [run_one, windowMerge_replicate _ _ 253]
    · have := (mergeX_run hG hg hp' 253 (by norm_num)).1
      rw [runX_steps.1] at this
      exact congrArg Except.ok this
    · intro x y
      have hb : (rnsXyzz (exactMatrix P)).blank ≠ runXG := by
        intro h
        have hbad := ((rnsXyzz_bad hg).blank).2
        rw [h] at hbad
        have : runXG.2.2.1 ≠ Z50 := by
          unfold runXG Z50
          decide +kernel
        exact this hbad
      show (selDec (rnsXyzz (exactMatrix P)).blank runXG x.1 y.1, if (rnsXyzz (exactMatrix P)).blank = runXG then _ else y.2) = y
      rw [selDec, if_neg hb, if_neg hb]
  refine ⟨exactMatrix P, G, runX8, hm, hG, hp, hrun, ?_⟩
  obtain ⟨q, h1, h2⟩ := C83_rns_xyzz_sum_partial rd hrd (exactMatrix P) hm 1 (by norm_num) (by norm_num) [2 ^ 254 - 1]
    [((GEN_X : Int), (GEN_Y : Int))] [G] (List.Forall₂.cons ⟨gen_range.1, gen_range.2, hG'⟩ List.Forall₂.nil) rfl (by
      intro c hc
      rw [List.mem_singleton] at hc
      subst hc
      have : windowNum 1 = 254 := by decide +kernel
      rw [this]
      norm_num) runX8 hrun
  refine ⟨q, h1, ?_⟩
  have e : (∑ i ∈ Finset.range [G].length, [(2 : Int) ^ 254 - 1].getD i 0 • [G].getD i 0) = (2 ^ 254 - 1 : Int) • G := by
    simp
  rw [e] at h2
  exact h2

end Verif.Props
