import Verif.Lemmas.EcRnsXRunData

/-!
# A run of `window_merge` on residue vectors of XYZZ coordinates: the first half

253 steps with the generator of the configured curve, all bits of the scalar set.
-/

namespace Verif.EcRns

theorem runX_lim : LimPt runXG := by unfold LimPt Lim; decide +kernel

theorem runX_chunk0 : mergeXK runXG 32 runXG (fun x => eqPt x runX1) = true := by decide +kernel
theorem runX_chunk1 : mergeXK runXG 32 runX1 (fun x => eqPt x runX2) = true := by decide +kernel
theorem runX_chunk2 : mergeXK runXG 32 runX2 (fun x => eqPt x runX3) = true := by decide +kernel
theorem runX_chunk3 : mergeXK runXG 32 runX3 (fun x => eqPt x runX4) = true := by decide +kernel

end Verif.EcRns
