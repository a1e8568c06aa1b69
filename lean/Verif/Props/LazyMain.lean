import Verif.Model.LazyMain
import Verif.Lemmas.EcReduce

/-!
# C54: lists of operands and the self-test of `lazy_reduction.py`
-/

namespace Verif.Props
open Verif.EcChunks Verif.LazyMain

theorem lazyReduction_le (p a b : Nat) (hp : 0 < p) (ht : byteLen p ≤ 251) (ha : a ≤ p * 2 ^ 16) (hb : b ≤ p * 2 ^ 16) :
    lazyReduction p a b ≡ a * b [MOD p] ∧ lazyReduction p a b < p * 2 ^ 16 := by
  obtain ⟨hp1, hp2⟩ := byteLen_spec p hp
  unfold lazyReduction
  dsimp only
  generalize byteLen p = t at *
  have e8 : (2 : Nat) ^ (8 * t) = 256 ^ t := by rw [pow_mul]; norm_num
  have e8' : (256 : Nat) ^ t - 1 = 2 ^ (8 * t) - 1 := by rw [e8]
  rw [Nat.shiftRight_eq_div_pow, e8', Nat.and_two_pow_sub_one_eq_mod, e8]
  have hhi : a * b / 256 ^ t < 256 ^ (t + 4) := by
    apply Nat.div_lt_of_lt_mul
    calc a * b ≤ (p * 2 ^ 16) * (p * 2 ^ 16) := Nat.mul_le_mul ha hb
      _ < (256 ^ t * 2 ^ 16) * (256 ^ t * 2 ^ 16) :=
          Nat.mul_lt_mul'' (Nat.mul_lt_mul_of_pos_right hp1 (by norm_num)) (Nat.mul_lt_mul_of_pos_right hp1 (by norm_num))
      _ = 256 ^ t * 256 ^ (t + 4) := by rw [pow_add]; norm_num; ring
  have hch := chunkDecomposition_rep (a * b / 256 ^ t) (t + 4)
  rw [Nat.mod_eq_of_lt hhi] at hch
  obtain ⟨_, _, m3⟩ := matVec_value t (t + 4) _
    ((List.range (t + 4)).map fun i => chunkDecomposition (256 ^ (t + i) % p) t) (fun i => 256 ^ (t + i) % p) hch.len
    (by omega) hch.lt (fun i hi => by
      rw [List.getD_eq_getElem _ _ (by simpa using hi)]
      simp only [List.getElem_map, List.getElem_range]
      have := chunkDecomposition_rep (256 ^ (t + i) % p) t
      rwa [Nat.mod_eq_of_lt (lt_trans (Nat.mod_lt _ hp) hp1)] at this)
  rw [recombine_eq, m3]
  generalize chunkDecomposition (a * b / 256 ^ t) (t + 4) = hi at *
  constructor
  · have hsum : ∑ i ∈ Finset.range (t + 4), hi.getD i 0 * (256 ^ (t + i) % p) ≡ 256 ^ t * (a * b / 256 ^ t) [MOD p] := by
      rw [← hch.val, ← ofDigits_sum_getD 256 hi (t + 4) (le_of_eq hch.len), Finset.mul_sum]
      apply Nat.ModEq.sum
      intro i _
      calc hi.getD i 0 * (256 ^ (t + i) % p) ≡ hi.getD i 0 * 256 ^ (t + i) [MOD p] :=
            Nat.ModEq.mul_left _ (Nat.mod_modEq _ _)
        _ = 256 ^ t * (hi.getD i 0 * 256 ^ i) := by rw [pow_add]; ring
    have h1 := Nat.ModEq.add_right (a * b % 256 ^ t) hsum
    rwa [Nat.add_comm (256 ^ t * _), Nat.mod_add_div] at h1
  · have h1 : ∑ i ∈ Finset.range (t + 4), hi.getD i 0 * (256 ^ (t + i) % p) ≤ (t + 4) * (255 * p) := by
      calc _ ≤ ∑ i ∈ Finset.range (t + 4), 255 * p := by
            apply Finset.sum_le_sum
            intro i _
            have h1 := getD_lt hi 256 (by norm_num) hch.lt i
            exact Nat.mul_le_mul (by omega) (le_of_lt (Nat.mod_lt _ hp))
        _ = (t + 4) * (255 * p) := by rw [Finset.sum_const, Finset.card_range, smul_eq_mul]
    have h2 : a * b % 256 ^ t < 256 ^ t := Nat.mod_lt _ (by positivity)
    have h3 : (t + 4) * (255 * p) ≤ 255 * (255 * p) := Nat.mul_le_mul_right _ (by omega)
    omega

/-- C54: lists of operands, up to and including the bound `p 2^16`: the result has the length of the lists, each entry
is congruent to the product of the entries and below the bound. Lists of different lengths are refused. -/
theorem C54_batch (p : Nat) (hp : 0 < p) (ht : byteLen p ≤ 251) (aList bList : List Nat)
    (ha : ∀ x ∈ aList, x ≤ p * 2 ^ 16) (hb : ∀ x ∈ bList, x ≤ p * 2 ^ 16) :
    (aList.length ≠ bList.length → lazyReductionViaMatrix aList bList p = .error "AssertionError") ∧
    (aList.length = bList.length → ∃ cList, lazyReductionViaMatrix aList bList p = .ok cList ∧
      cList.length = aList.length ∧ ∀ i c x y : Nat, cList[i]? = some c → aList[i]? = some x → bList[i]? = some y →
        c % p = x * y % p ∧ c < p * 2 ^ 16) := by
  unfold lazyReductionViaMatrix
  rw [if_neg hp.ne']
  refine ⟨fun h => if_pos h, fun h => ?_⟩
  rw [if_neg (by simpa using h)]
  refine ⟨_, rfl, by simp, fun i c x y hc hx hy => ?_⟩
  have hi : i < aList.length := (List.getElem?_eq_some_iff.1 hx).1
  rw [List.getElem?_map, List.getElem?_range hi, Option.map_some] at hc
  rw [← Option.some.inj hc, List.getD_eq_getElem?_getD, List.getD_eq_getElem?_getD, hx, hy]
  exact lazyReduction_le p x y hp ht (ha x (List.mem_of_getElem? hx)) (hb y (List.mem_of_getElem? hy))

theorem byteLen_le (p : Nat) (h : p ≤ 2 ^ 384) : byteLen p ≤ 251 := by
  rcases Nat.eq_zero_or_pos p with rfl | hp
  · decide
  · obtain ⟨-, h2⟩ := byteLen_spec p hp
    by_contra hcon
    have h3 : (256 : Nat) ^ 252 ≤ 256 ^ byteLen p := Nat.pow_le_pow_right (by norm_num) (by omega)
    have h4 : 256 * (2 : Nat) ^ 384 < 256 ^ 252 := by decide +kernel
    exact absurd (h3.trans (h2.trans (Nat.mul_le_mul_left 256 h))) (not_le.2 h4)

theorem forIn_ok (l : List Nat) (f : Nat → PUnit → Except String (ForInStep PUnit))
    (h : ∀ i ∈ l, f i ⟨⟩ = .ok (.yield ⟨⟩)) : forIn l PUnit.unit f = .ok ⟨⟩ := by
  induction l with
  | nil => rfl
  | cons x t ih =>
    rw [List.forIn_cons, h x List.mem_cons_self]
    exact ih (fun i hi => h i (List.mem_cons_of_mem _ hi))

/-- C54: the self-test passes for every outcome of its random draws (`randint` includes both ends: the modulus may be
`2 ^ 384` and the operands may be equal to the bound). -/
theorem C54_main (p : Nat) (hp0 : 2 ^ 381 ≤ p) (hp1 : p ≤ 2 ^ 384) (aList bList : List Nat)
    (hla : aList.length = 16) (hlb : bList.length = 16)
    (ha : ∀ x ∈ aList, x ≤ p * 256 * 256) (hb : ∀ x ∈ bList, x ≤ p * 256 * 256) :
    ∃ cList, main p aList bList = .ok [aList, bList, cList] ∧ cList.length = 16 := by
  have hp : 0 < p := lt_of_lt_of_le (by positivity) hp0
  have e : p * 256 * 256 = p * 2 ^ 16 := by ring
  rw [e] at ha hb
  obtain ⟨cList, hc, hlen, hval⟩ := (C54_batch p hp (byteLen_le p hp1) aList bList ha hb).2 (by omega)
  refine ⟨cList, ?_, by omega⟩
  unfold main
  simp only [hc, bind, Except.bind, e]
  rw [forIn_ok]
  · rfl
  · intro i hi
    have hi' : i < 16 := List.mem_range.1 hi
    obtain ⟨h1, h2⟩ := hval i (cList.getD i 0) (aList.getD i 0) (bList.getD i 0)
      (by rw [List.getD_eq_getElem _ _ (by omega)]; exact List.getElem?_eq_getElem _)
      (by rw [List.getD_eq_getElem _ _ (by omega)]; exact List.getElem?_eq_getElem _)
      (by rw [List.getD_eq_getElem _ _ (by omega)]; exact List.getElem?_eq_getElem _)
    simp only [h1, h2, ne_eq, not_true_eq_false, if_false]
    rfl

example := C54_main (2 ^ 384) (by decide +kernel) le_rfl (List.replicate 16 (2 ^ 384 * 256 * 256)) (List.replicate 16 5)
  rfl rfl (fun x hx => le_of_eq (List.eq_of_mem_replicate hx)) (fun x hx => by
    rw [List.eq_of_mem_replicate hx]; decide +kernel)

example := (C54_batch 251 (by norm_num) (by decide) [251 * 2 ^ 16, 7] [251 * 2 ^ 16, 9] (by decide) (by decide)).2 rfl

end Verif.Props
