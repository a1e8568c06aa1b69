import Verif.Model.BatGrid
import Verif.Props.Polynomial
import Mathlib.Data.List.Range

/-!
# Property C95: the grid of the byte-expanded kernel
-/

namespace Verif.Props
open Verif.MatrixUtils Verif.PolymulKernel Verif.BatGrid Polynomial Verif.Nega

/-- A step outside the array does no harm: it writes nothing, or it rereads the row it overwrites. Clamping the
block index is such a behaviour. -/
def Harmless {b n : Nat} (oob : OutOfRange b n) (vec : Fin b → Fin n → W) : Prop :=
  ∀ i r, b ≤ i → i < 18 → oob.write i = some r → oob.read i = vec r

theorem gridStep_keeps {b n : Nat} (oob : OutOfRange b n) (vec : Fin b → Fin n → W) (h : Harmless oob vec)
    (i : Nat) (hi : i < 18) (out : Fin b → Fin n → Fin n → W) (r : Fin b)
    (ho : out r = toeplitzKernelized (vec r) ∨ r.val = i) :
    gridStep oob vec out i r = toeplitzKernelized (vec r) := by
  unfold gridStep
  split
  · rename_i hb
    by_cases e : r = ⟨i, hb⟩
    · rw [e, Function.update_self]
    · rw [Function.update_of_ne e]
      exact ho.resolve_right (fun hc => e (Fin.ext hc))
  · rename_i hb
    have ho' : out r = toeplitzKernelized (vec r) := ho.resolve_right (fun hc => hb (hc ▸ r.isLt))
    cases hw : oob.write i with
    | none => exact ho'
    | some s =>
      by_cases e : r = s
      · show Function.update out s _ r = _
        rw [e, Function.update_self, h i s (by omega) hi hw]
      · show Function.update out s _ r = _
        rw [Function.update_of_ne e]
        exact ho'

theorem toeplitzList_of_mem {b n : Nat} (oob : OutOfRange b n) (vec : Fin b → Fin n → W) (h : Harmless oob vec)
    (steps : List Nat) (hs : ∀ i ∈ steps, i < 18) (out : Fin b → Fin n → Fin n → W) (r : Fin b)
    (ho : out r = toeplitzKernelized (vec r) ∨ r.val ∈ steps) :
    toeplitzList oob steps out vec r = toeplitzKernelized (vec r) := by
  unfold toeplitzList
  induction steps generalizing out with
  | nil => exact ho.resolve_right (by simp)
  | cons i l ih =>
    refine ih (fun j hj => hs j (List.mem_cons_of_mem _ hj)) _ ?_
    rcases ho with ho | ho
    · exact Or.inl (gridStep_keeps oob vec h i (hs i List.mem_cons_self) out r (Or.inl ho))
    · rcases List.mem_cons.1 ho with e | e
      · exact Or.inl (gridStep_keeps oob vec h i (hs i List.mem_cons_self) out r (Or.inr e))
      · exact Or.inr e

theorem toeplitzList_of_not_mem {b n : Nat} (oob : OutOfRange b n) (vec : Fin b → Fin n → W)
    (steps : List Nat) (hs : ∀ i ∈ steps, i < b) (out : Fin b → Fin n → Fin n → W) (r : Fin b) (hr : r.val ∉ steps) :
    toeplitzList oob steps out vec r = out r := by
  unfold toeplitzList
  induction steps generalizing out with
  | nil => rfl
  | cons i l ih =>
    refine (ih (fun j hj => hs j (List.mem_cons_of_mem _ hj)) _ (fun hc => hr (List.mem_cons_of_mem _ hc))).trans ?_
    unfold gridStep
    rw [dif_pos (hs i List.mem_cons_self)]
    exact Function.update_of_ne (fun e => hr (by rw [e]; exact List.mem_cons_self)) _ _

/-- C95: with at most 18 rows the kernel returns the vector-matrix product modulo `X^N + 1`, in every order of the steps
and whatever the allocated array holds, provided steps outside the array do no harm. -/
theorem C95_at_most_18_partial (tpu : Int) {b m n : Nat} (hn : 0 < n) (hb : b ≤ 18) (steps : List Nat)
    (hsteps : steps.Perm (List.range 18)) (junk : Fin b → Fin n → Fin n → W) (vec : Fin b → Fin n → W)
    (oob : OutOfRange b n) (h : Harmless oob vec) (mat : Fin b → Fin m → Fin n → W) (j : Fin m) :
    toPoly (BatGrid.negacyclicVectorMatrixPolymulBat tpu oob steps junk vec
      (fun r i l => batOfflineCompileCggi (mat r i l)) j) =
      (∑ r, toPoly (vec r) * toPoly (mat r j)) %ₘ (X ^ n + 1) := by
  rw [← C14_vector_matrix_bat tpu hn vec mat j]
  have e : toeplitzList oob steps junk vec = fun r => toeplitzKernelized (vec r) := funext fun r =>
    toeplitzList_of_mem oob vec h steps (fun i hi => List.mem_range.1 (hsteps.mem_iff.1 hi)) junk r
      (Or.inr (hsteps.mem_iff.2 (List.mem_range.2 (by omega))))
  unfold BatGrid.negacyclicVectorMatrixPolymulBat PolymulKernel.negacyclicVectorMatrixPolymulBat
  rw [e]

/-- C95: with exactly 18 rows, the only number among the library's parameter sets for which the grid fits, no condition
on steps outside the array is needed. -/
theorem C95_18_rows (tpu : Int) {m n : Nat} (hn : 0 < n) (steps : List Nat)
    (hsteps : steps.Perm (List.range 18)) (junk : Fin 18 → Fin n → Fin n → W) (vec : Fin 18 → Fin n → W)
    (oob : OutOfRange 18 n) (mat : Fin 18 → Fin m → Fin n → W) (j : Fin m) :
    toPoly (BatGrid.negacyclicVectorMatrixPolymulBat tpu oob steps junk vec
      (fun r i l => batOfflineCompileCggi (mat r i l)) j) =
      (∑ r, toPoly (vec r) * toPoly (mat r j)) %ₘ (X ^ n + 1) :=
  C95_at_most_18_partial tpu hn le_rfl steps hsteps junk vec oob (fun i _ h1 h2 _ => by omega) mat j

example (junk : Fin 18 → Fin 512 → Fin 512 → W) (vec : Fin 18 → Fin 512 → W) (mat : Fin 18 → Fin 3 → Fin 512 → W) (j : Fin 3) :=
  C95_18_rows 5 (by norm_num) (List.range 18).reverse (List.reverse_perm _) junk vec ⟨fun _ _ => 0, fun _ => none⟩ mat j

/-- C95: with more than 18 rows the blocks of the further rows are never written: the result is the product of the first
18 rows plus whatever the allocated array holds there, times the further rows of the matrix. -/
theorem C95_further_rows (tpu : Int) (htpu : tpu ≥ 5) {b m n : Nat} (hn : n % 128 = 0) (hb : 18 < b) (steps : List Nat)
    (hsteps : steps.Perm (List.range 18)) (junk : Fin b → Fin n → Fin n → W) (vec : Fin b → Fin n → W)
    (oob : OutOfRange b n) (mat : Fin b → Fin m → Fin n → W) (i : Fin m) (j : Fin n) :
    BatGrid.negacyclicVectorMatrixPolymulBat tpu oob steps junk vec
      (fun r i l => batOfflineCompileCggi (mat r i l)) i j =
      ∑ r : Fin b, if r.val < 18 then Nega.mul (vec r) (mat r i) j else ∑ l, mat r i l * junk r l j := by
  unfold BatGrid.negacyclicVectorMatrixPolymulBat
  rw [if_pos ⟨hn, htpu⟩, batMatmul_eq]
  refine Finset.sum_congr rfl (fun r _ => ?_)
  have hs : ∀ i ∈ steps, i < 18 := fun i hi => List.mem_range.1 (hsteps.mem_iff.1 hi)
  split
  · rename_i hr
    rw [toeplitzList_of_mem oob vec (fun i _ h1 h2 _ => by omega) steps hs junk r
      (Or.inr (hsteps.mem_iff.2 (List.mem_range.2 hr)))]
    exact Finset.sum_congr rfl (fun l _ => by rw [toeplitzKernelized_eq])
  · rename_i hr
    rw [toeplitzList_of_not_mem oob vec steps (fun i hi => (hs i hi).trans hb) junk r
      (fun hc => hr (hs _ hc))]

example (junk : Fin 24 → Fin 512 → Fin 512 → W) (vec : Fin 24 → Fin 512 → W) (mat : Fin 24 → Fin 3 → Fin 512 → W) (i : Fin 3)
    (j : Fin 512) :=
  C95_further_rows 5 (by norm_num) (by norm_num) (by norm_num) (List.range 18).reverse (List.reverse_perm _) junk vec
    ⟨fun _ _ => 0, fun _ => none⟩ mat i j

/-- C95, the code violates the claim for more than 18 rows: whatever the vector, if the matrix has a nonzero entry in a
further row there is memory content for which the result is wrong. -/
theorem C95_negation (tpu : Int) (htpu : tpu ≥ 5) {b m n : Nat} (hn : n % 128 = 0) (steps : List Nat)
    (hsteps : steps.Perm (List.range 18)) (vec : Fin b → Fin n → W) (oob : OutOfRange b n)
    (mat : Fin b → Fin m → Fin n → W) (r : Fin b) (i : Fin m) (l : Fin n) (hr : 18 ≤ r.val) (hm : mat r i l ≠ 0) :
    ∃ junk, toPoly (BatGrid.negacyclicVectorMatrixPolymulBat tpu oob steps junk vec
      (fun r i l => batOfflineCompileCggi (mat r i l)) i) ≠
      (∑ r, toPoly (vec r) * toPoly (mat r i)) %ₘ (X ^ n + 1) := by
  by_contra hc
  push Not at hc
  have hb : 18 < b := by omega
  have hn0 : 0 < n := l.pos
  let one : Fin b → Fin n → Fin n → W := fun r' l' _ => if r' = r ∧ l' = l then 1 else 0
  have h1 := (hc (fun _ _ _ => 0)).trans (hc one).symm
  have h2 := congrFun (toPoly_injective h1) l
  rw [C95_further_rows tpu htpu hn hb steps hsteps _ vec oob mat i l,
    C95_further_rows tpu htpu hn hb steps hsteps _ vec oob mat i l, ← sub_eq_zero, ← Finset.sum_sub_distrib,
    Finset.sum_eq_single r] at h2
  · rw [if_neg (by omega), if_neg (by omega), ← Finset.sum_sub_distrib, Finset.sum_eq_single l] at h2
    · simp only [one, and_self, if_true, mul_zero, mul_one, zero_sub, neg_eq_zero] at h2
      exact hm h2
    · intro l' _ hl
      simp [one, hl]
    · simp
  · intro r' _ hr'
    split
    · exact sub_self _
    · simp [one, hr']
  · simp

/-- A grid that clamps the block index, run from the last step to the first, on the 16 rows of the test parameters. -/
example (vec : Fin 16 → Fin 512 → W) :
    (List.range 18).reverse.Perm (List.range 18) ∧
    Harmless ⟨fun _ => vec 15, fun _ => some 15⟩ vec ∧ Harmless ⟨fun _ _ => 0, fun _ => none⟩ vec :=
  ⟨List.reverse_perm _, fun i r _ _ h => by cases h; rfl, fun i r _ _ h => by cases h⟩

/-- Three polynomials and eight levels make 24 rows. -/
example : ∃ (mat : Fin 24 → Fin 3 → Fin 512 → W) (r : Fin 24) (i : Fin 3) (l : Fin 512), 18 ≤ r.val ∧ mat r i l ≠ 0 :=
  ⟨fun _ _ _ => 1, 20, 0, 0, by decide, by decide⟩

end Verif.Props
