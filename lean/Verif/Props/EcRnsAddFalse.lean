import Verif.Lemmas.EcRnsAddWitness2
import Verif.Props.EcRnsCurve

/-!
# Property C58: a wrong sum of two ordinary points in RNS form
-/

namespace Verif.Props
open Verif.EcChunks Verif.EcRns Verif.EcCurve

theorem wrong_add_input : (rnsCheck cX1 cNX && rnsCheck cY1 1 && rnsCheck cZ1 cNZ && rnsCheck cW1 cNW &&
    rnsCheck cX2 (cBx + 14486 * P) && rnsCheck cY2 (cBy + 8745 * P) && rnsCheck cZ2 1 && rnsCheck cW2 1) = true := by
  decide +kernel

theorem wrong_add_output : (rnsCheckN 153400 cY3 cVY && rnsCheckN 51000 cZZZ3 cVW) = true := by decide +kernel

theorem BIGM_153400 : 153400 * P < BIGM := by decide +kernel

theorem wrong_add_value : (cVY : ZMod P) * (xyzzAdd ((cNX : ZMod P), (1 : ZMod P), (cNZ : ZMod P), (cNW : ZMod P))
    ((cBx : ZMod P), (cBy : ZMod P), (1 : ZMod P), (1 : ZMod P))).2.2.2 ≠
    (xyzzAdd ((cNX : ZMod P), (1 : ZMod P), (cNZ : ZMod P), (cNW : ZMod P))
    ((cBx : ZMod P), (cBy : ZMod P), (1 : ZMod P), (1 : ZMod P))).2.1 * (cVW : ZMod P) := by decide +kernel

theorem wrong_curve : (cAy : ZMod P) ^ 2 = (cAx : ZMod P) ^ 3 + 0 * (cAx : ZMod P) + 1 ∧
    (cBy : ZMod P) ^ 2 = (cBx : ZMod P) ^ 3 + 0 * (cBx : ZMod P) + 1 := by
  constructor <;> decide +kernel

theorem wrong_coords : (cNZ : ZMod P) ≠ 0 ∧ (cNW : ZMod P) ≠ 0 ∧ (cNZ : ZMod P) ^ 3 = (cNW : ZMod P) ^ 2 ∧
    (cNX : ZMod P) = (cAx : ZMod P) * (cNZ : ZMod P) ∧ (1 : ZMod P) = (cAy : ZMod P) * (cNW : ZMod P) ∧
    (cNX : ZMod P) ≠ 0 ∧ (cAx : ZMod P) ≠ (cBx : ZMod P) ∧ (cAy : ZMod P) ≠ -(cAy : ZMod P) := by
  refine ⟨?_, ?_, ?_, ?_, ?_, ?_, ?_, ?_⟩ <;> decide +kernel

/-- C58 is false for `padd_rns_xyzz_pack` on ordinary points, too: `4 G + 17 G` on `y² = x³ + 1` (neither point has
`x = 0` or order two, nor are they equal or opposite), with all integers behind the coordinates within the range of the
results of the formulas. The returned `Y` is wrong: the quotient estimate for the last product, a negative integer, is
one too small. -/
theorem C58_rns_add_false_ordinary (rd : ℚ → ℚ) (hrd : FloatRound rd) : ∃ (mat : List (List Nat) × List Nat) (p q : Pt)
    (u v : Quad (ZMod P)) (A B : (shortW (0 : ZMod P) 1).Point),
    constructMatrix rd P = .ok mat ∧ RRep4 51000 p u ∧ RRep4 51000 q v ∧ XRep (some u) A ∧ XRep (some v) B ∧ A ≠ B ∧
    A ≠ -B ∧ u.1 ≠ 0 ∧ A + A ≠ 0 ∧
    ¬ ∃ w, (RRep 358200 (paddXyzz mat p q).1 w.1 ∧ RRep 153400 (paddXyzz mat p q).2.1 w.2.1 ∧
      RRep 51000 (paddXyzz mat p q).2.2.1 w.2.2.1 ∧ RRep 51000 (paddXyzz mat p q).2.2.2 w.2.2.2) ∧
      XRep (some w) (A + B) := by
  obtain ⟨A, hA⟩ : ∃ A : (shortW (0 : ZMod P) 1).Point, IsXY A (cAx : ZMod P) (cAy : ZMod P) :=
    exists_isXY disc_ne two_ne wrong_curve.1
  obtain ⟨B, hB⟩ : ∃ B : (shortW (0 : ZMod P) 1).Point, IsXY B (cBx : ZMod P) (cBy : ZMod P) :=
    exists_isXY disc_ne two_ne wrong_curve.2
  obtain ⟨c1, c2, c3, c4, c5, c6, c7, c8⟩ := wrong_coords
  have hin := wrong_add_input
  simp only [Bool.and_eq_true] at hin
  obtain ⟨⟨⟨⟨⟨⟨⟨i1, i2⟩, i3⟩, i4⟩, i5⟩, i6⟩, i7⟩, i8⟩ := hin
  have j1 := rnsCheck_rep i1
  have j2 := rnsCheck_rep i2
  have j3 := rnsCheck_rep i3
  have j4 := rnsCheck_rep i4
  have j5 := rnsCheck_rep i5
  have j6 := rnsCheck_rep i6
  have j7 := rnsCheck_rep i7
  have j8 := rnsCheck_rep i8
  rw [Nat.cast_one] at j2 j7 j8
  rw [Nat.cast_add, Nat.cast_mul, ZMod.natCast_self, mul_zero, add_zero] at j5 j6
  have hu : XRep (some ((cNX : ZMod P), (1 : ZMod P), (cNZ : ZMod P), (cNW : ZMod P))) A := by
    refine ⟨c1, c2, c3, ?_⟩
    rw [show (cNX : ZMod P) / (cNZ : ZMod P) = cAx by rw [div_eq_iff c1]; exact c4,
      show (1 : ZMod P) / (cNW : ZMod P) = cAy by rw [div_eq_iff c2]; exact c5]
    exact hA
  have hv : XRep (some ((cBx : ZMod P), (cBy : ZMod P), (1 : ZMod P), (1 : ZMod P))) B := xrep_affine hB
  have hne : A ≠ B := by
    rintro rfl
    exact c7 (hA.unique hB).1
  have hneg : A ≠ -B := by
    rintro rfl
    exact c7 (hB.neg.unique hA).1.symm
  have hdbl : A + A ≠ 0 := by
    intro h
    have e : A = -A := eq_neg_of_add_eq_zero_left h
    exact c8 ((e ▸ hA : IsXY (-A) _ _).unique hA.neg).2
  refine ⟨exactMatrix P, (cX1, cY1, cZ1, cW1), (cX2, cY2, cZ2, cW2), _, _, A, B, constructMatrix_exact rd hrd P,
    ⟨j1, j2, j3, j4⟩, ⟨j5, j6, j7, j8⟩, hu, hv, hne, hneg, c6, hdbl, ?_⟩
  rintro ⟨w, ⟨-, r2, -, r4⟩, hw⟩
  have hs := C58_add _ _ A B hu hv hne hneg
  have ho := wrong_add_output
  rw [Bool.and_eq_true] at ho
  rw [cadd] at r2 r4
  have e2 := r2.uniqueN BIGM_153400 (rnsCheckN_rep ho.1)
  have e4 := r4.unique (rnsCheckN_rep ho.2)
  obtain ⟨w1, w2, w3, w4⟩ := w
  obtain ⟨-, hz, -, hw⟩ := hw
  dsimp only at e2 e4
  have hval := wrong_add_value
  generalize xyzzAdd ((cNX : ZMod P), (1 : ZMod P), (cNZ : ZMod P), (cNW : ZMod P))
    ((cBx : ZMod P), (cBy : ZMod P), (1 : ZMod P), (1 : ZMod P)) = S at *
  obtain ⟨s1, s2, s3, s4⟩ := S
  obtain ⟨-, hz', -, hs⟩ := hs
  have hy := (hw.unique hs).2
  rw [div_eq_div_iff hz hz', e2, e4] at hy
  exact hval hy

end Verif.Props
