import Verif.Lemmas.EcRnsXRunData

/-!
# A run of `window_merge` on residue vectors of XYZZ coordinates: the second half

253 steps with the generator of the configured curve, all bits of the scalar set.
-/

namespace Verif.EcRns

theorem runX_chunk4 : mergeXK runXG 32 runX4 (fun x => eqPt x runX5) = true := by decide +kernel
theorem runX_chunk5 : mergeXK runXG 32 runX5 (fun x => eqPt x runX6) = true := by decide +kernel
theorem runX_chunk6 : mergeXK runXG 32 runX6 (fun x => eqPt x runX7) = true := by decide +kernel
theorem runX_chunk7 : mergeXK runXG 29 runX7 (fun x => eqPt x runX8) = true := by decide +kernel

end Verif.EcRns
