import Verif.Model.NttCpu
import Verif.Lemmas.CkksMath
import Verif.Lemmas.NttCore

/-!
# The CPU transform in `ZMod q`
-/

namespace Verif.NttCpu
open Verif.CkksMath Verif.BitReversal Verif.NttCore Finset

/-- Reduction of a vector into `ZMod q`. -/
def red (q : Nat) (a : Nat → Int) : Nat → ZMod q := fun i => (a i : ZMod q)

theorem size_two_pow (k : Nat) : (2 ^ k).size - 1 = k := numBits_two_pow k

theorem perm_two_pow (k i : Nat) : perm (2 ^ k) i = bitReversal i k := by
  unfold perm; rw [size_two_pow, permLoop_eq]

theorem checkLength_two_pow (k : Nat) : checkLength (2 ^ k) = .ok () := by
  unfold checkLength; rw [size_two_pow, if_pos rfl]

theorem red_ditStep (k q : Nat) (omega : Int) (s : Nat) (hs : s < k) (a : Nat → Int) :
    red q (ditStep (2 ^ k) q omega (2 ^ s) a) =
      dit ((omega : ZMod q) ^ 2 ^ (k - (s + 1))) (2 ^ s) (red q a) := by
  have hn : 2 ^ k / (2 * 2 ^ s) = 2 ^ (k - (s + 1)) := by
    rw [← pow_succ', Nat.pow_div (by omega) (by norm_num)]
  funext i
  unfold red ditStep dit
  simp only [hn]
  split
  · rw [ZMod.intCast_mod]; push_cast
    rw [cast_powersAt, cast_powMod]
  · rw [ZMod.intCast_mod]; push_cast
    rw [cast_powersAt, cast_powMod]

theorem red_ditLoop (k q : Nat) (omega : Int) (s : Nat) (hs : s ≤ k) (a : Nat → Int) :
    red q (ditLoop (2 ^ k) q omega s a) =
      ditAll (fun s => (omega : ZMod q) ^ 2 ^ (k - (s + 1))) s (red q a) := by
  induction s with
  | zero => rfl
  | succ s ih =>
    simp only [ditLoop, ditAll]
    rw [red_ditStep _ _ _ _ (by omega), ih (by omega)]

theorem red_difStep (k q : Nat) (invRoot : Int) (s : Nat) (hs : s < k) (a : Nat → Int) :
    red q (difStep (2 ^ k) q invRoot (2 ^ s) a) =
      dif ((invRoot : ZMod q) ^ 2 ^ (k - (s + 1))) (2 ^ s) (red q a) := by
  have hn : 2 ^ k / (2 * 2 ^ s) = 2 ^ (k - (s + 1)) := by
    rw [← pow_succ', Nat.pow_div (by omega) (by norm_num)]
  funext i
  unfold red difStep dif
  simp only [hn]
  split
  · rw [ZMod.intCast_mod]; push_cast; rfl
  · rw [ZMod.intCast_mod]; push_cast
    rw [cast_powersAt, cast_powMod]

theorem red_difLoop (k q : Nat) (invRoot : Int) (s : Nat) (hs : s ≤ k) (a : Nat → Int) :
    red q (difLoop (2 ^ k) q invRoot s a) =
      difAll (fun s => (invRoot : ZMod q) ^ 2 ^ (k - (s + 1))) s (red q a) := by
  induction s generalizing a with
  | zero => rfl
  | succ s ih =>
    simp only [difLoop, difAll]
    rw [ih (by omega), red_difStep _ _ _ _ (by omega)]

/-- The stages only look at entries below the length. -/
theorem ditAll_congr {R : Type*} [CommRing R] (k : Nat) (w : Nat → R) (s : Nat) (hs : s ≤ k) (A B : Nat → R)
    (h : ∀ i, i < 2 ^ k → A i = B i) (i : Nat) (hi : i < 2 ^ k) : ditAll w s A i = ditAll w s B i := by
  induction s generalizing i with
  | zero => exact h i hi
  | succ s ih =>
    simp only [ditAll]
    unfold dit
    split
    · rename_i hj
      rw [ih (by omega) i hi, ih (by omega) (i + 2 ^ s)]
      obtain ⟨d, hd⟩ : ∃ d, k = s + 1 + d := ⟨k - (s + 1), by omega⟩
      have hk : 2 ^ k = 2 * 2 ^ s * 2 ^ d := by rw [hd, pow_add, pow_succ]; ring
      have hblk : i / (2 * 2 ^ s) < 2 ^ d := by
        rw [Nat.div_lt_iff_lt_mul (by positivity), Nat.mul_comm, ← hk]; exact hi
      have e := Nat.div_add_mod i (2 * 2 ^ s)
      have : 2 * 2 ^ s * (i / (2 * 2 ^ s)) + 2 * 2 ^ s ≤ 2 ^ k := by
        rw [hk]
        calc 2 * 2 ^ s * (i / (2 * 2 ^ s)) + 2 * 2 ^ s = 2 * 2 ^ s * (i / (2 * 2 ^ s) + 1) := by ring
          _ ≤ 2 * 2 ^ s * 2 ^ d := Nat.mul_le_mul_left _ hblk
      omega
    · rw [ih (by omega) i hi, ih (by omega) (i - 2 ^ s) (lt_of_le_of_lt (Nat.sub_le _ _) hi)]

theorem pair_lt {k s i : Nat} (hs : s + 1 ≤ k) (hi : i < 2 ^ k) (hj : i % (2 * 2 ^ s) < 2 ^ s) : i + 2 ^ s < 2 ^ k := by
  obtain ⟨d, hd⟩ : ∃ d, k = s + 1 + d := ⟨k - (s + 1), by omega⟩
  have hk : 2 ^ k = 2 * 2 ^ s * 2 ^ d := by rw [hd, pow_add, pow_succ]; ring
  have hblk : i / (2 * 2 ^ s) < 2 ^ d := by
    rw [Nat.div_lt_iff_lt_mul (by positivity), Nat.mul_comm, ← hk]; exact hi
  have e := Nat.div_add_mod i (2 * 2 ^ s)
  have : 2 * 2 ^ s * (i / (2 * 2 ^ s)) + 2 * 2 ^ s ≤ 2 ^ k := by
    rw [hk]
    calc 2 * 2 ^ s * (i / (2 * 2 ^ s)) + 2 * 2 ^ s = 2 * 2 ^ s * (i / (2 * 2 ^ s) + 1) := by ring
      _ ≤ 2 * 2 ^ s * 2 ^ d := Nat.mul_le_mul_left _ hblk
  omega

theorem difAll_congr {R : Type*} [CommRing R] (k : Nat) (w : Nat → R) (s : Nat) (hs : s ≤ k) (A B : Nat → R)
    (h : ∀ i, i < 2 ^ k → A i = B i) (i : Nat) (hi : i < 2 ^ k) : difAll w s A i = difAll w s B i := by
  induction s generalizing A B i with
  | zero => exact h i hi
  | succ s ih =>
    simp only [difAll]
    apply ih (by omega) _ _ _ i hi
    intro j hj
    unfold dif
    split
    · rename_i hlt
      rw [h j hj, h (j + 2 ^ s) (pair_lt hs hj hlt)]
    · rw [h j hj, h (j - 2 ^ s) (lt_of_le_of_lt (Nat.sub_le _ _) hj)]

/-- The DFT computed by the forward transform. -/
theorem nttCyclic_spec (k q : Nat) (omega : Int) (hω : 0 < k → (omega : ZMod q) ^ 2 ^ (k - 1) = -1)
    (a : Nat → Int) :
    ∃ r, nttCyclic (2 ^ k) q omega a = .ok r ∧
      (∀ i, i < 2 ^ k → (r i : ZMod q) = ∑ t ∈ range (2 ^ k), (a t : ZMod q) * (omega : ZMod q) ^ (i * t)) := by
  unfold nttCyclic
  rw [checkLength_two_pow]
  refine ⟨_, rfl, ?_⟩
  intro i hi
  rw [size_two_pow]
  have h := congrFun (red_ditLoop k q omega k le_rfl (fun i => a (perm (2 ^ k) i))) i
  have h2 : red q (fun i => a (perm (2 ^ k) i)) = fun p => (red q a) (bitReversal p k) := by
    funext p; show ((a (perm (2 ^ k) p) : Int) : ZMod q) = _; rw [perm_two_pow]; rfl
  rw [h2, ditAll_spec k _ (red q a) hω k le_rfl, partialDft_full k _ _ _ hi] at h
  exact h

theorem ditLoop_bounds (n q : Nat) (hq : 0 < q) (omega : Int) (s : Nat) (a : Nat → Int)
    (ha : ∀ i, 0 ≤ a i ∧ a i < q) (i : Nat) :
    0 ≤ ditLoop n q omega s a i ∧ ditLoop n q omega s a i < q := by
  cases s with
  | zero => exact ha i
  | succ s =>
    simp only [ditLoop]
    unfold ditStep
    simp only
    split <;> exact ⟨Int.emod_nonneg _ (by omega), Int.emod_lt_of_pos _ (by omega)⟩

end Verif.NttCpu
