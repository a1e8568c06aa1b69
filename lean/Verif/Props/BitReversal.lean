import Verif.Lemmas.BitReversal
import Mathlib.Data.List.Perm.Basic
import Mathlib.Data.List.Nodup
import Mathlib.Data.List.NodupEquivFin

/-!
# Property C30: bit reversal
-/

namespace Verif.Props
open Verif.BitReversal

/-- C30: bit `i` of the reversal is bit `n-1-i` of the argument, and bits outside the width are zero. -/
theorem C30_bits (x n i : Nat) :
    (bitReversal x n).testBit i = (decide (i < n) && x.testBit (n - 1 - i)) := rev_testBit x n i

/-- C30: an involution on `n`-bit numbers, with values in range. -/
theorem C30_involution (x n : Nat) (hx : x < 2 ^ n) :
    bitReversal x n < 2 ^ n ∧ bitReversal (bitReversal x n) n = x := ⟨rev_lt x n, rev_rev_of_lt hx⟩

example := C30_involution 13 5 (by norm_num)

/-- C30: reversal commutes with complement. -/
theorem C30_complement (x n : Nat) (hx : x < 2 ^ n) :
    bitReversal (2 ^ n - 1 - x) n = 2 ^ n - 1 - bitReversal x n := rev_compl hx

example := C30_complement 13 5 (by norm_num)

/-- C30: `bit_reversal_array` puts entry number `reverse(i)` at position `i`, for every array whose length is a
power of two, and loses nothing. -/
theorem C30_array {α : Type} (n : Nat) (xs : List α) (hlen : xs.length = 2 ^ n) :
    (bitReversalArray xs).length = xs.length ∧
    (∀ i, i < 2 ^ n → (bitReversalArray xs)[i]? = xs[bitReversal i n]?) ∧
    bitReversalArray (bitReversalArray xs) = xs := by
  have key : ∀ ys : List α, ys.length = 2 ^ n → (bitReversalArray ys).length = 2 ^ n ∧
      ∀ i, i < 2 ^ n → (bitReversalArray ys)[i]? = ys[bitReversal i n]? := by
    intro ys hy
    unfold bitReversalArray
    rw [hy, numBits_two_pow]
    obtain ⟨h1, h2⟩ := arrayLoop_spec n ys (by omega) (2 ^ n) (by omega)
    refine ⟨by rw [h1, hy], ?_⟩
    intro i hi
    rw [h2 i, if_pos ⟨hi, by omega⟩]
  obtain ⟨h1, h2⟩ := key xs hlen
  refine ⟨by rw [h1, hlen], h2, ?_⟩
  obtain ⟨h3, h4⟩ := key (bitReversalArray xs) h1
  apply List.ext_getElem?
  intro i
  rcases Nat.lt_or_ge i (2 ^ n) with hi | hi
  · rw [h4 i hi, h2 _ (rev_lt i n), rev_rev_of_lt hi]
  · rw [List.getElem?_eq_none (by omega), List.getElem?_eq_none (by omega)]

example := C30_array 3 [10, 11, 12, 13, 14, 15, 16, 17] rfl

/-- C30: the result of `bit_reversal_array` is a permutation of its input. -/
theorem C30_array_perm {α : Type} (n : Nat) (xs : List α) (hlen : xs.length = 2 ^ n) :
    (bitReversalArray xs).Perm xs := by
  have hswap : ∀ (l : List α) (i j : Nat), (swap l i j).Perm l := by
    intro l i j
    unfold swap
    split
    · rename_i a b hi hj
      obtain ⟨hi', rfl⟩ := List.getElem?_eq_some_iff.1 hi
      obtain ⟨hj', rfl⟩ := List.getElem?_eq_some_iff.1 hj
      exact List.set_set_perm hi' hj'
    · exact List.Perm.refl _
  unfold bitReversalArray bitReversalArrayLoop
  generalize numBits xs.length = nb
  generalize List.range xs.length = is
  clear hlen
  induction is generalizing xs with
  | nil => exact List.Perm.refl _
  | cons i t ih =>
    simp only [List.foldl_cons]
    refine (ih _).trans ?_
    split
    · exact hswap _ _ _
    · exact List.Perm.refl _

example := C30_array_perm 3 [10, 11, 12, 13, 14, 15, 16, 17] rfl

/-- C30: `get_bit_reverse_perm(2^n)` lists the reversals, is duplicate-free, and agrees with
`bit_reversal_array`. -/
theorem C30_perm (n : Nat) :
    getBitReversePerm (2 ^ n) = (List.range (2 ^ n)).map (fun i => bitReversal i n) ∧
    (getBitReversePerm (2 ^ n)).Nodup ∧
    (∀ j, j < 2 ^ n → j ∈ getBitReversePerm (2 ^ n)) ∧
    getBitReversePerm (2 ^ n) = bitReversalArray (List.range (2 ^ n)) := by
  have hp : 0 < 2 ^ n := by positivity
  have h1 : getBitReversePerm (2 ^ n) = (List.range (2 ^ n)).map (fun i => bitReversal i n) := by
    unfold getBitReversePerm
    rw [if_neg (by omega), Nat.size_pow]
    simp only [permLoop_eq]
    rfl
  refine ⟨h1, ?_, ?_, ?_⟩
  · rw [h1]
    apply List.Nodup.map_on _ List.nodup_range
    intro x hx y hy hxy
    rw [← rev_rev_of_lt (List.mem_range.1 hx), ← rev_rev_of_lt (List.mem_range.1 hy), hxy]
  · intro j hj
    rw [h1, List.mem_map]
    exact ⟨bitReversal j n, List.mem_range.2 (rev_lt j n), rev_rev_of_lt hj⟩
  · obtain ⟨h2, h3, -⟩ := C30_array n (List.range (2 ^ n)) (by simp)
    apply List.ext_getElem?
    intro i
    rcases Nat.lt_or_ge i (2 ^ n) with hi | hi
    · rw [h3 i hi, h1, List.getElem?_map, List.getElem?_range hi, List.getElem?_range (rev_lt i n)]
      rfl
    · rw [List.getElem?_eq_none (by simp [h1]; omega), List.getElem?_eq_none (by rw [h2]; simp; omega)]

example : bitReversal 6 4 = 6 ∧ bitReversal 1 4 = 8 := by decide
example : bitReversalArray [0, 1, 2, 3, 4, 5, 6, 7] = [0, 4, 2, 6, 1, 5, 3, 7] := by decide

end Verif.Props
