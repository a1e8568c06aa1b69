import Verif.Lemmas.EcRnsRunData

/-!
# A run of `window_merge` on residue vectors: the first half

253 steps with the generator of the configured curve, all bits of the scalar set.
-/

namespace Verif.EcRns

theorem run_lim : LimPt runBlank ∧ LimPt runG ∧ LimPt runW := by unfold LimPt Lim; decide +kernel

theorem run_window : windowK runBlank runG (fun x => eqPt x runW) = true := by decide +kernel

theorem run_chunk0 : mergeK runW 32 runW (fun x => eqPt x runQ1) = true := by decide +kernel
theorem run_chunk1 : mergeK runW 32 runQ1 (fun x => eqPt x runQ2) = true := by decide +kernel
theorem run_chunk2 : mergeK runW 32 runQ2 (fun x => eqPt x runQ3) = true := by decide +kernel
theorem run_chunk3 : mergeK runW 32 runQ3 (fun x => eqPt x runQ4) = true := by decide +kernel

end Verif.EcRns
