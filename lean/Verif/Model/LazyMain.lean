import Verif.Model.EcField

/-!
# Model of `jaxite_ec/algorithm/lazy_reduction.py`: batches and the self-test
-/

namespace Verif.LazyMain
open Verif.EcChunks

/-- `lazy_reduction_via_matrix`, algorithm/lazy_reduction.py L24-68, on lists. The reduction modulo `p` in L38 raises
for zero before the lengths are compared. The accumulators are those of `matVec`, one pair after the other. -/
def lazyReductionViaMatrix (aList bList : List Nat) (p : Nat) : Except String (List Nat) :=
  if p = 0 then .error "ZeroDivisionError"
  else if aList.length ≠ bList.length then .error "AssertionError"
  else .ok ((List.range aList.length).map fun i => lazyReduction p (aList.getD i 0) (bList.getD i 0))

/-- `main`, algorithm/lazy_reduction.py L71-87, with the numbers drawn in L73 and L77-78 as inputs. Returns what is
printed. -/
def main (p : Nat) (aList bList : List Nat) : Except String (List (List Nat)) := do
  let batchSize := 16
  let bound := p * 256 * 256
  let cList ← lazyReductionViaMatrix aList bList p
  for i in List.range batchSize do
    if cList.getD i 0 % p ≠ aList.getD i 0 * bList.getD i 0 % p then throw "AssertionError"
    if ¬ cList.getD i 0 < bound then throw "AssertionError"
  pure [aList, bList, cList]

end Verif.LazyMain
