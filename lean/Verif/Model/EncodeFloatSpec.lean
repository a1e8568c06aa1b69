import Verif.Model.EncodeFloat

/-! # The error bounds claimed for `encode.py` in floating-point arithmetic

Formulas in the accuracy constants `u`, `w`, `ρ`, `η` of the arithmetic, the number `t` of layers, the size `B` of the slots
and the scale. They do not refer to the functions modelled. -/

namespace Verif.EncodeFloat

/-- The growth of one butterfly: a root, a product and a sum. -/
def growth (u w ρ : ℝ) : ℝ := (1 + u) * (1 + w) * (1 + ρ)

/-- The absolute error of one butterfly. -/
def tiny (u w ρ η : ℝ) : ℝ := (growth u w ρ + 1) * η

/-- The size after `s` layers. -/
def sizeAfter (u w ρ η M : ℝ) (s : Nat) : ℝ := (2 * growth u w ρ) ^ s * (M + s * tiny u w ρ η)

/-- The error after `s` layers. -/
def errAfter (u w ρ η e M : ℝ) (s : Nat) : ℝ := 2 ^ s * e + sizeAfter u w ρ η M s - 2 ^ s * M

/-- The size of a coefficient before scaling. -/
def coeffSize (u w ρ η B : ℝ) (t : Nat) : ℝ := growth u w ρ ^ (t + 1) * (B + t * tiny u w ρ η) + η

/-- The size of an encoded coefficient. -/
noncomputable def intSize (u w ρ η B scale : ℝ) (t : Nat) : ℝ := (1 + u) * coeffSize u w ρ η B t * scale + η + 1 / 2

/-- The error of an encoded coefficient, divided by the scale. -/
noncomputable def intErr (u w ρ η B scale : ℝ) (t : Nat) : ℝ := (1 + u) * coeffSize u w ρ η B t - B + (1 / 2 + η) / scale

/-- The size of a decoded coefficient pair. -/
noncomputable def pairSize (u η X scale : ℝ) : ℝ := 2 * ((1 + u) * (1 + u) * (X / scale) + η)

/-- The error of a decoded slot for coefficients of size at most `X`. -/
noncomputable def decErr (u w ρ η X scale : ℝ) (t : Nat) : ℝ :=
  sizeAfter u w ρ η (pairSize u η X scale) t - 2 ^ t * (2 * (X / scale))

/-- The unit roundoff of doubles. -/
noncomputable def u64 : ℝ := 2⁻¹ ^ 53

/-- Half of the smallest positive double. -/
noncomputable def eta64 : ℝ := 2⁻¹ ^ 1075

end Verif.EncodeFloat
