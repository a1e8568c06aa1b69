import Verif.Lemmas.EcRnsRunData

/-!
# A run of `window_merge` on residue vectors: the second half

253 steps with the generator of the configured curve, all bits of the scalar set.
-/

namespace Verif.EcRns

theorem run_chunk4 : mergeK runW 32 runQ4 (fun x => eqPt x runQ5) = true := by decide +kernel
theorem run_chunk5 : mergeK runW 32 runQ5 (fun x => eqPt x runQ6) = true := by decide +kernel
theorem run_chunk6 : mergeK runW 32 runQ6 (fun x => eqPt x runQ7) = true := by decide +kernel
theorem run_chunk7 : mergeK runW 29 runQ7 (fun x => eqPt x runQ8) = true := by decide +kernel

end Verif.EcRns
