import Verif.Model.RnsScript
import Verif.Lemmas.EcRnsOps

/-!
# Lemmas for the script of `rns_mod_reduce.py`: its layout of the tables gives the same rows as `mod_mul_rns_2u16`
-/

namespace Verif.RnsScript
open Verif.EcRns Verif.EcChunks Finset

set_option exponentiation.threshold 2000
attribute [local irreducible] BIGM MODULI RNS_T FACTORS TOTAL

theorem stackRow_eq (rns : List Nat) (s : Nat) :
    stackRow rns s = (rns ++ [s]).map (· % 256) ++ (rns ++ [s]).map (fun v => v / 256 % 256) := by
  simp [stackRow]

theorem stackRow_getD (rns : List Nat) (s j : Nat) (h : j < rns.length + 1) :
    (stackRow rns s).getD j 0 = (bytes rns ++ bytes [s]).getD (2 * j) 0 ∧
    (stackRow rns s).getD (rns.length + 1 + j) 0 = (bytes rns ++ bytes [s]).getD (2 * j + 1) 0 := by
  have hb : bytes rns ++ bytes [s] = bytes (rns ++ [s]) := by simp [bytes, List.flatMap_append]
  obtain ⟨b1, b2⟩ := bytes_getD (rns ++ [s]) j (by simpa using h)
  rw [stackRow_eq, hb, b1, b2]
  constructor
  · rw [List.getD_append _ _ _ _ (by simpa using h), getD_map' _ _ _ 0 _ (by simpa using h)]
  · rw [List.getD_append_right _ _ _ _ (by simp), List.length_map, List.length_append, List.length_singleton,
      Nat.add_sub_cancel_left, getD_map' _ _ _ 0 _ (by simpa using h)]

/-- The tables are built whenever those of util.py are, with the columns in another order. -/
theorem coefficients_eq (rd : ℚ → ℚ) (factors moduli : List Nat) (numBytes precision M q : Nat)
    {mat : List (List Nat) × List Nat} (h : rnsCoefficients rd factors moduli numBytes precision M q = .ok mat) :
    ∃ mat', coefficients rd factors moduli numBytes precision M q = .ok mat' ∧ mat'.2 = mat.2 ∧
      ∀ r j, j < moduli.length + 1 →
        (mat'.1.getD r []).getD j 0 = (mat.1.getD r []).getD (2 * j) 0 ∧
        (mat'.1.getD r []).getD (moduli.length + 1 + j) 0 = (mat.1.getD r []).getD (2 * j + 1) 0 := by
  unfold rnsCoefficients at h
  dsimp only at h
  split at h
  · rename_i hc
    unfold coefficients
    dsimp only
    rw [if_pos hc]
    have hm := Except.ok.inj h
    refine ⟨_, rfl, by rw [← hm], ?_⟩
    intro r j hj
    rw [← hm]
    simp only
    generalize byteShifted factors numBytes M = sh
    by_cases hr : r < sh.length
    · rw [getD_zipWith' _ _ _ _ [] 0 _ (by simpa using hr) (by simpa using hr),
        getD_zipWith' _ _ _ _ [] 0 _ (by simpa using hr) (by simpa using hr)]
      have hl : ((sh.map fun c => moduli.map fun m => c % q % m).getD r []).length = moduli.length := by
        rw [getD_map' _ _ _ 0 _ hr, List.length_map]
      have := stackRow_getD ((sh.map fun c => moduli.map fun m => c % q % m).getD r [])
        ((sh.map fun c => sqe rd (1 <<< precision) M c).getD r 0).toNat j (by rw [hl]; exact hj)
      rw [hl] at this
      exact this
    · rw [List.getD_eq_default (n := r) _ _ (by simp; omega), List.getD_eq_default (n := r) _ _ (by simp; omega)]
      simp
  · exact absurd h (by simp)

theorem zipWith_congr_mem {α β γ : Type} (f g : α → β → γ) : ∀ (a : List α) (b : List β),
    (∀ x ∈ a, ∀ y ∈ b, f x y = g x y) → List.zipWith f a b = List.zipWith g a b
  | [], _, _ => by simp
  | _ :: _, [], _ => by simp
  | x :: a, y :: b, h => by
    rw [List.zipWith_cons_cons, List.zipWith_cons_cons, h x (by simp) y (by simp),
      zipWith_congr_mem f g a b (fun u hu v hv => h u (by simp [hu]) v (by simp [hv]))]

theorem zipWith_mem_lt {f : Nat → Nat → Nat} {B : Nat} (hf : ∀ x y, f x y < B) (a b : List Nat) :
    ∀ v ∈ List.zipWith f a b, v < B := by
  intro v hv
  obtain ⟨i, hi, rfl⟩ := List.mem_iff_getElem.1 hv
  rw [List.getElem_zipWith]
  exact hf _ _

theorem hardware_fold (l : List Nat) (hl : ∀ v ∈ l, v < 2 ^ 32) : List.zipWith hardwareReduce RNS_T l = redInternal l :=
  zipWith_congr_mem _ _ _ _ fun t ht v hv => hardwareReduce_eq t v (RNS_T_lt t ht) (hl v hv)

/-- A row of `rns_mod_reduce` is what `mod_mul_rns_2u16` computes. -/
theorem reduceRow_eq (mat mat' : List (List Nat) × List Nat) (h2 : mat'.2 = mat.2)
    (hcol : ∀ r j, j < 51 → (mat'.1.getD r []).getD j 0 = (mat.1.getD r []).getD (2 * j) 0 ∧
        (mat'.1.getD r []).getD (51 + j) 0 = (mat.1.getD r []).getD (2 * j + 1) 0) (a b : List Nat) :
    reduceRow RNS_T mat' 16 a b = modMul mat a b := by
  unfold reduceRow modMul mulUnreduced modRed
  dsimp only
  rw [RNS_T_len, hardware_fold (List.zipWith (fun x y => x * y % 2 ^ 32) a b)
    (zipWith_mem_lt (fun x y => Nat.mod_lt _ (by norm_num)) _ _)]
  generalize redInternal (List.zipWith (fun x y => x * y % 2 ^ 32) a b) = tower
  have hpairs : List.zipWith (fun l h => (l + (h <<< 8) % 2 ^ 32) % 2 ^ 32) ((matVec (2 * (50 + 1)) (bytes tower) mat'.1).take (50 + 1))
      ((matVec (2 * (50 + 1)) (bytes tower) mat'.1).drop (50 + 1)) =
      (List.range (50 + 1)).map fun j => ((matVec (2 * (50 + 1)) (bytes tower) mat.1).getD (2 * j) 0 +
        ((matVec (2 * (50 + 1)) (bytes tower) mat.1).getD (2 * j + 1) 0 <<< 8) % 2 ^ 32) % 2 ^ 32 := by
    have hlen : (matVec (2 * (50 + 1)) (bytes tower) mat'.1).length = 102 := by simp [matVec]
    apply List.ext_getElem
    · simp [hlen]
    · intro j hj _
      have hj' : j < 51 := by simpa [hlen] using hj
      rw [List.getElem_zipWith, List.getElem_map, List.getElem_take, List.getElem_drop, List.getElem_range,
        ← List.getD_eq_getElem _ 0, ← List.getD_eq_getElem _ 0, matVec_getD _ _ _ _ (by omega), matVec_getD _ _ _ _ (by omega),
        matVec_getD _ _ _ _ (by omega), matVec_getD _ _ _ _ (by omega)]
      simp only [show 50 + 1 + j = 51 + j from by omega, (hcol _ j hj').1, (hcol _ j hj').2]
  rw [hpairs, h2]
  generalize hp : (List.range (50 + 1)).map (fun j => ((matVec (2 * (50 + 1)) (bytes tower) mat.1).getD (2 * j) 0 +
        ((matVec (2 * (50 + 1)) (bytes tower) mat.1).getD (2 * j + 1) 0 <<< 8) % 2 ^ 32) % 2 ^ 32) = pairs
  have hq : pairs.getD 50 0 < 2 ^ 32 := by
    rw [← hp, getD_map' _ _ _ 0 _ (by simp)]
    exact Nat.mod_lt _ (by norm_num)
  have hk : (pairs.getD 50 0 >>> 16) % 2 ^ 16 = pairs.getD 50 0 >>> 16 := by
    rw [Nat.shiftRight_eq_div_pow]
    omega
  rw [hk]
  exact hardware_fold _ (zipWith_mem_lt (fun x y => Nat.mod_lt _ (by norm_num)) _ _)

/-! ## Reconstruction -/

theorem foldl_zipIdx (factors : List Nat) : ∀ (row : List Nat) (k acc : Nat),
    (row.zipIdx k).foldl (fun (big : Nat) (p : Nat × Nat) => big + p.1 * factors.getD p.2 0) acc =
      acc + ∑ i ∈ range row.length, row.getD i 0 * factors.getD (k + i) 0
  | [], k, acc => by simp
  | v :: row, k, acc => by
    rw [List.zipIdx_cons, List.foldl_cons, foldl_zipIdx factors row (k + 1), List.length_cons, sum_range_succ']
    simp only [List.getD_cons_succ, List.getD_cons_zero, Nat.add_zero]
    rw [show (∑ i ∈ range row.length, row.getD i 0 * factors.getD (k + 1 + i) 0) =
      ∑ i ∈ range row.length, row.getD i 0 * factors.getD (k + (i + 1)) 0 from
      sum_congr rfl fun i _ => by rw [show k + 1 + i = k + (i + 1) from by ring]]
    ring

theorem reconstructRow_spec (row : List Nat) (c : Int) (h : IsRns row c) (h0 : 0 ≤ c) (hc : c < BIGM) :
    (reconstructRow row BIGM FACTORS : Int) = c := by
  obtain ⟨-, hf⟩ := factors_spec
  have hrow : IsRns row (reconstructRow row BIGM FACTORS : Nat) := by
    refine ⟨h.len, h.lt, fun i hi => ?_⟩
    rw [Int.natCast_modEq_iff]
    unfold reconstructRow
    rw [foldl_zipIdx, h.len, Nat.zero_add]
    have hd : MODULI.getD i 0 ∣ BIGM := md_dvd (md_mem hi)
    refine Nat.ModEq.symm (((Nat.mod_modEq _ BIGM).of_dvd hd).trans ?_)
    rw [← sum_sdiff (singleton_subset_iff.2 (mem_range.2 hi)), sum_singleton, Nat.zero_add]
    have h1 : row.getD i 0 * FACTORS.getD i 0 ≡ row.getD i 0 * 1 [MOD MODULI.getD i 0] := by
      apply Nat.ModEq.mul_left
      have := (hf i hi).2.1
      have hr := md_range hi
      unfold Nat.ModEq
      rw [this, Nat.mod_eq_of_lt (by omega)]
    have h2 : ∑ x ∈ range 50 \ {i}, row.getD x 0 * FACTORS.getD (0 + x) 0 ≡ 0 [MOD MODULI.getD i 0] := by
      rw [Nat.modEq_zero_iff_dvd]
      apply dvd_sum
      intro x hx
      rw [mem_sdiff, mem_range, mem_singleton] at hx
      rw [Nat.zero_add]
      exact Dvd.dvd.mul_left (Nat.dvd_of_mod_eq_zero ((hf x hx.1).2.2.2 i hi (fun e => hx.2 e.symm))) _
    have := h2.add h1
    rw [Nat.zero_add, Nat.mul_one] at this
    exact this
  refine hrow.unique h ⟨by positivity, ?_⟩ ⟨h0, hc⟩
  have : reconstructRow row BIGM FACTORS < BIGM := Nat.mod_lt _ BIGM_pos
  exact_mod_cast this

end Verif.RnsScript
