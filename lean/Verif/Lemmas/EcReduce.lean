import Verif.Lemmas.EcMul
import Mathlib.Data.Nat.ModEq
import Mathlib.Algebra.BigOperators.ModEq

/-!
# Barrett and lazy reduction on chunks
-/

set_option exponentiation.threshold 2000

namespace Verif.EcChunks

theorem P_rep : Rep (2 ^ 16) 24 P_CHUNK P := constArray_rep 16 24 P (by norm_num) (by norm_num [P])
theorem MU_rep : Rep (2 ^ 16) 24 MU_CHUNK MU := constArray_rep 16 24 MU (by norm_num) (by norm_num [MU])

/-- `MU_377_INT` is the Barrett constant `floor(2^760 / p)`. -/
theorem MU_eq : MU = 2 ^ 760 / P := by norm_num [MU, P]

theorem barrett_quot (X p K mu : Nat) (hp : 0 < p) (hK : 0 < K) (hmu : mu = K / p) (hX : X ≤ K) :
    X * mu / K * p ≤ X ∧ X < (X * mu / K + 2) * p := by
  have h1 : mu * p ≤ K := by rw [hmu]; exact Nat.div_mul_le_self K p
  have h2 : K < (mu + 1) * p := by
    rw [hmu, Nat.mul_comm]; exact Nat.lt_mul_div_succ K hp
  obtain ⟨d, hd⟩ : ∃ d, d = X * mu / K := ⟨_, rfl⟩
  rw [← hd]
  have h3 : d * K ≤ X * mu := by rw [hd]; exact Nat.div_mul_le_self _ _
  have h4 : X * mu < (d + 1) * K := by
    rw [hd, Nat.mul_comm (_ + 1)]; exact Nat.lt_mul_div_succ _ hK
  constructor
  · apply Nat.le_of_mul_le_mul_right _ hK
    calc d * p * K = d * K * p := by ring
      _ ≤ X * mu * p := Nat.mul_le_mul_right _ h3
      _ = X * (mu * p) := by ring
      _ ≤ X * K := Nat.mul_le_mul_left _ h1
  · apply Nat.lt_of_mul_lt_mul_right (a := K)
    calc X * K ≤ X * ((mu + 1) * p) := Nat.mul_le_mul_left _ (le_of_lt h2)
      _ = X * mu * p + X * p := by ring
      _ ≤ X * mu * p + K * p := Nat.add_le_add_left (Nat.mul_le_mul_right _ hX) _
      _ < (d + 1) * K * p + K * p := Nat.add_lt_add_right ((Nat.mul_lt_mul_right hp).2 h4) _
      _ = (d + 2) * p * K := by ring

theorem barrettReduction_rep (x : List Nat) (X : Nat) (hx : Rep (2 ^ 16) 48 x X) (hX : X < 2 ^ 760) :
    Rep (2 ^ 16) 24 (barrettReduction x) (X % P) := by
  obtain ⟨q1, q2⟩ := barrett_quot X P (2 ^ 760) MU (by norm_num [P]) (by positivity) MU_eq (le_of_lt hX)
  have hd := mulShift_rep 24 48 36 95 25 x MU_CHUNK X MU hx MU_rep (by norm_num) (by norm_num) (by norm_num)
    (by norm_num) (by norm_num) (by norm_num)
  have e : (256 : Nat) ^ 95 = 2 ^ 760 := by norm_num
  rw [e] at hd
  obtain ⟨d, hdd⟩ : ∃ d, d = X * MU / 2 ^ 760 := ⟨_, rfl⟩
  rw [← hdd] at hd q1 q2
  have hP : 2 ^ 376 < P ∧ 2 * P < 2 ^ 378 := by norm_num [P]
  have hdlt : d < (2 ^ 16) ^ 24 := by
    have e3 : (2 ^ 16 : Nat) ^ 24 = 2 ^ 384 := by norm_num
    rw [e3]
    by_contra hc
    have h1 : 2 ^ 384 * P ≤ d * P := Nat.mul_le_mul_right _ (not_lt.1 hc)
    have h2 : 2 ^ 384 * 2 ^ 376 ≤ 2 ^ 384 * P := Nat.mul_le_mul_left _ (le_of_lt hP.1)
    have h3 : (2 : Nat) ^ 384 * 2 ^ 376 = 2 ^ 760 := by norm_num
    omega
  rw [Nat.mod_eq_of_lt hdlt] at hd
  have he := mul2_rep 24 _ _ _ _ hd P_rep (by norm_num) (by norm_num)
  have ht := sub2_rep 48 (by norm_num) x _ X (d * P) hx he q1 (by
    have h1 : (2 : Nat) ^ 378 < (2 ^ 16) ^ 48 - (2 ^ 16) ^ (48 - 1) := by norm_num
    have h2 : (d + 2) * P = d * P + 2 * P := by ring
    omega)
  have ht2 := ht.take (by norm_num) 24 (by norm_num)
  have h2 : (d + 2) * P = d * P + 2 * P := by ring
  have hlt : X - d * P < 2 * P := by omega
  rw [Nat.mod_eq_of_lt (lt_trans hlt (lt_trans hP.2 (by norm_num)))] at ht2
  have hc := condSubMod_rep 24 (by norm_num) P_CHUNK _ P _ P_rep ht2 (by
    have h1 : (2 : Nat) ^ 378 < (2 ^ 16) ^ 24 - (2 ^ 16) ^ (24 - 1) := by norm_num
    omega)
  have hres : (if P ≤ X - d * P then X - d * P - P else X - d * P) = X % P := by
    have hX2 : X = (X - d * P) + P * d := by rw [Nat.mul_comm P d]; omega
    have hm : X % P = (X - d * P) % P := by
      conv_lhs => rw [hX2]
      rw [Nat.add_mul_mod_self_left]
    rw [hm]
    split
    · rename_i h
      rw [Nat.mod_eq_sub_mod h, Nat.mod_eq_of_lt (by omega)]
    · rw [Nat.mod_eq_of_lt (by omega)]
  rw [hres] at hc
  exact hc

theorem modMulBarrett_eq (a b : List Nat) : modMulBarrett a b = barrettReduction (mul2 24 a b) := rfl

/-! ## Lazy reduction -/

theorem lazy_row (p c i : Nat) (hp : 0 < p) (hpc : p ≤ 256 ^ c) (hi : i < c + 4) :
    Rep 256 c ((lazyMatrix p c).getD i []) (256 ^ (c + i) % p) := by
  have e : (lazyMatrix p c).getD i [] = constArray 8 c (256 ^ (c + i) % p) := by
    unfold lazyMatrix
    rw [List.getD_eq_getElem _ _ (by simpa using hi)]
    simp
  rw [e]
  refine constArray_rep 8 c _ (by norm_num) (lt_of_lt_of_le (Nat.mod_lt _ hp) ?_)
  rw [pow_mul]; exact hpc

theorem matVec_value (c r : Nat) (h : List Nat) (m : List (List Nat)) (w : Nat → Nat) (hr : h.length = r)
    (hr2 : r ≤ 256) (hlt : ∀ v ∈ h, v < 256) (hm : ∀ i < r, Rep 256 c (m.getD i []) (w i)) :
    (matVec c h m).length = c ∧ (∀ v ∈ matVec c h m, v ≤ r * 65025) ∧
    Nat.ofDigits 256 (matVec c h m) = ∑ i ∈ Finset.range r, h.getD i 0 * w i := by
  have hentry : ∀ j, ∑ i ∈ Finset.range r, h.getD i 0 * (m.getD i []).getD j 0 ≤ r * 65025 := by
    intro j
    calc _ ≤ ∑ i ∈ Finset.range r, 65025 := by
          apply Finset.sum_le_sum
          intro i hi
          have h1 := getD_lt h 256 (by norm_num) hlt i
          have h2 := getD_lt (m.getD i []) 256 (by norm_num) (hm i (Finset.mem_range.1 hi)).lt j
          calc _ ≤ 255 * 255 := Nat.mul_le_mul (by omega) (by omega)
            _ = 65025 := by norm_num
      _ = r * 65025 := by rw [Finset.sum_const, Finset.card_range, smul_eq_mul]
  have he : matVec c h m = (List.range c).map fun j => ∑ i ∈ Finset.range r, h.getD i 0 * (m.getD i []).getD j 0 := by
    unfold matVec
    apply List.map_congr_left
    intro j _
    rw [list_sum_range, hr]
    apply Nat.mod_eq_of_lt
    have := hentry j
    have := Nat.mul_le_mul_right 65025 hr2
    omega
  rw [he]
  refine ⟨by simp, ?_, ?_⟩
  · intro v hv
    obtain ⟨j, _, rfl⟩ := List.mem_map.1 hv
    exact hentry j
  · rw [ofDigits_range_sum]
    simp only [Finset.sum_mul]
    rw [Finset.sum_comm]
    apply Finset.sum_congr rfl
    intro i hi
    have hmi := hm i (Finset.mem_range.1 hi)
    rw [← hmi.val, ← ofDigits_sum_getD 256 _ c (le_of_eq hmi.len), Finset.mul_sum]
    exact Finset.sum_congr rfl fun j _ => by ring

theorem modMulLazy_rep (a b : List Nat) (x y : Nat) (ha : Rep (2 ^ 16) 25 a x) (hb : Rep (2 ^ 16) 25 b y) :
    ∃ z, Rep (2 ^ 16) 25 (modMulLazy a b) z ∧ z % P = x * y % P ∧ z < P * 2 ^ 16 := by
  have hP : 2 ^ 376 < P ∧ P < 2 ^ 377 := by norm_num [P]
  have hv := mul2u8_rep 25 a b x y ha hb (by norm_num) (by norm_num)
  have hlo := hv.take (by norm_num) 48 (by norm_num)
  have hhi := hv.drop (by norm_num) 48 (by norm_num)
  have hmat := matVec_value 48 52 ((mul2u8 25 a b).drop 48) LAZY_MAT (fun i => 256 ^ (48 + i) % P) hhi.len
    (by norm_num) hhi.lt (fun i hi => lazy_row P 48 i (by omega) (by
      calc P ≤ 2 ^ 377 := le_of_lt hP.2
        _ ≤ 256 ^ 48 := by norm_num) (by omega))
  obtain ⟨m1, m2, m3⟩ := hmat
  unfold modMulLazy modMulLazyWith
  dsimp only
  generalize (mul2u8 25 a b).take 48 = lo at *
  generalize (mul2u8 25 a b).drop 48 = hi at *
  generalize matVec 48 hi LAZY_MAT = red at *
  rw [zipWith_add_mod (2 ^ 32) 256 (52 * 65025 + 1) lo red hlo.lt (fun c hc => Nat.lt_succ_of_le (m2 c hc))
    (by norm_num)]
  have hrlen : (List.zipWith (· + ·) lo red).length = 4 * 12 := by simp [hlo.len, m1]
  have hrv : Nat.ofDigits 256 (List.zipWith (· + ·) lo red)
      = x * y % 256 ^ 48 + ∑ i ∈ Finset.range 52, hi.getD i 0 * (256 ^ (48 + i) % P) := by
    rw [ofDigits_zipWith_add _ _ _ (by rw [hlo.len, m1]), hlo.val, m3]
  obtain ⟨r1, r2, r3⟩ := rechunkify_value (53 * 65025) (by norm_num) 12 _ hrlen (fun c hc => by
    have := mem_zipWith_add lo red 256 (52 * 65025 + 1) c hlo.lt (fun c hc => Nat.lt_succ_of_le (m2 c hc)) hc
    omega)
  rw [hrv] at r3
  obtain ⟨S, hS⟩ : ∃ S, S = ∑ i ∈ Finset.range 52, hi.getD i 0 * (256 ^ (48 + i) % P) := ⟨_, rfl⟩
  rw [← hS] at r3
  have hSle : S ≤ 13260 * P := by
    rw [hS]
    calc _ ≤ ∑ i ∈ Finset.range 52, 255 * P := by
          apply Finset.sum_le_sum
          intro i _
          have h1 := getD_lt hi 256 (by norm_num) hhi.lt i
          exact Nat.mul_le_mul (by omega) (le_of_lt (Nat.mod_lt _ (by omega)))
      _ = 13260 * P := by rw [Finset.sum_const, Finset.card_range, smul_eq_mul]; ring
  have hlow : x * y % 256 ^ 48 < 2 ^ 8 * P := by
    calc x * y % 256 ^ 48 < 256 ^ 48 := Nat.mod_lt _ (by positivity)
      _ = 2 ^ 8 * 2 ^ 376 := by norm_num
      _ ≤ 2 ^ 8 * P := Nat.mul_le_mul_left _ (le_of_lt hP.1)
  have hz : x * y % 256 ^ 48 + S < P * 2 ^ 16 := by omega
  have hcl := carryLoop_rep 32 (by norm_num) (rechunkify (List.zipWith (· + ·) lo red) ++ [0]) (fun v hv => by
      rcases List.mem_append.1 hv with h | h
      · exact lt_of_le_of_lt (r2 v h) (by norm_num)
      · rw [List.mem_singleton.1 h]; positivity) (by simp [r1]) (by
      rw [Nat.ofDigits_append, r3, List.length_append, r1]
      simp only [Nat.ofDigits_singleton, Nat.mul_zero, Nat.add_zero, List.length_singleton]
      refine lt_trans hz (lt_trans (Nat.mul_lt_mul_of_pos_right hP.2 (by positivity)) (by norm_num)))
  have hval : Nat.ofDigits (2 ^ 32) (rechunkify (List.zipWith (· + ·) lo red) ++ [0]) = x * y % 256 ^ 48 + S := by
    rw [Nat.ofDigits_append, r3]; simp
  have hlen : (rechunkify (List.zipWith (· + ·) lo red) ++ [0]).length = 13 := by simp [r1]
  rw [hval, hlen] at hcl
  have e : (2 : Nat) ^ 32 = (2 ^ 16) ^ 2 := by norm_num
  have hmm := hcl.map_mod
  have hsp := split_rep (2 ^ 16) 2 13 _ _ (by norm_num) (by rw [← e]; exact hmm)
  have htk := hsp.take (by norm_num) 25 (by norm_num)
  rw [Nat.mod_eq_of_lt (lt_trans hz (lt_trans (Nat.mul_lt_mul_of_pos_right hP.2 (by positivity)) (by norm_num)))]
    at htk
  refine ⟨_, htk, ?_, hz⟩
  -- congruence
  have hsum : S ≡ 256 ^ 48 * (x * y / 256 ^ 48) [MOD P] := by
    rw [← hhi.val, ← ofDigits_sum_getD 256 hi 52 (le_of_eq hhi.len), Finset.mul_sum, hS]
    apply Nat.ModEq.sum
    intro i _
    calc hi.getD i 0 * (256 ^ (48 + i) % P) ≡ hi.getD i 0 * 256 ^ (48 + i) [MOD P] :=
          Nat.ModEq.mul_left _ (Nat.mod_modEq _ _)
      _ = 256 ^ 48 * (hi.getD i 0 * 256 ^ i) := by rw [pow_add]; ring
  have h1 : x * y % 256 ^ 48 + S ≡ x * y % 256 ^ 48 + 256 ^ 48 * (x * y / 256 ^ 48) [MOD P] :=
    Nat.ModEq.add_left _ hsum
  rw [Nat.mod_add_div] at h1
  exact h1

/-! ## The host-side reference -/

theorem chunkDecomposition_rep (x len : Nat) : Rep 256 len (chunkDecomposition x len) (x % 256 ^ len) := by
  have e : chunkDecomposition x len = (List.range len).map fun i => x / 256 ^ i % 256 := by
    unfold chunkDecomposition
    apply List.map_congr_left
    intro i _
    rw [Nat.shiftRight_eq_div_pow, pow_mul]
    exact Nat.and_two_pow_sub_one_eq_mod _ 8
  rw [e]
  refine ⟨by simp, ?_, ofDigits_range 256 len x (by norm_num)⟩
  intro c hc
  obtain ⟨i, _, rfl⟩ := List.mem_map.1 hc
  exact Nat.mod_lt _ (by norm_num)

theorem recombine_eq (l : List Nat) : recombine l = Nat.ofDigits 256 l := by
  unfold recombine
  rw [List.foldl_reverse, Nat.ofDigits_eq_foldr]
  congr 1
  funext x y
  simp; ring

theorem byteLen_spec (p : Nat) (hp : 0 < p) : p < 256 ^ byteLen p ∧ 256 ^ byteLen p ≤ 256 * p := by
  have e : ∀ k, (256 : Nat) ^ k = 2 ^ (8 * k) := fun k => by rw [pow_mul]; norm_num
  have h1 := Nat.lt_size_self p
  have h2 : 2 ^ (p.size - 1) ≤ p := by
    have hs : 0 < p.size := Nat.size_pos.2 hp
    exact Nat.lt_size.1 (by omega)
  unfold byteLen
  constructor
  · rw [e]
    exact lt_of_lt_of_le h1 (Nat.pow_le_pow_right (by norm_num) (by omega))
  · rw [e]
    calc 2 ^ (8 * ((p.size + 7) / 8)) ≤ 2 ^ (8 + (p.size - 1)) := Nat.pow_le_pow_right (by norm_num) (by
          have hs : 0 < p.size := Nat.size_pos.2 hp
          omega)
      _ = 256 * 2 ^ (p.size - 1) := by rw [pow_add]; norm_num
      _ ≤ 256 * p := Nat.mul_le_mul_left _ h2

theorem lazyReduction_spec (p a b : Nat) (hp : 0 < p) (ht : byteLen p ≤ 251) (ha : a < p * 2 ^ 16)
    (hb : b < p * 2 ^ 16) :
    lazyReduction p a b ≡ a * b [MOD p] ∧ lazyReduction p a b < p * 2 ^ 16 := by
  obtain ⟨hp1, hp2⟩ := byteLen_spec p hp
  unfold lazyReduction
  dsimp only
  generalize byteLen p = t at *
  have e8 : (2 : Nat) ^ (8 * t) = 256 ^ t := by rw [pow_mul]; norm_num
  have e8' : (256 : Nat) ^ t - 1 = 2 ^ (8 * t) - 1 := by rw [e8]
  rw [Nat.shiftRight_eq_div_pow, e8', Nat.and_two_pow_sub_one_eq_mod, e8]
  have hhi : a * b / 256 ^ t < 256 ^ (t + 4) := by
    apply Nat.div_lt_of_lt_mul
    calc a * b < (p * 2 ^ 16) * (p * 2 ^ 16) := Nat.mul_lt_mul'' ha hb
      _ ≤ (256 ^ t * 2 ^ 16) * (256 ^ t * 2 ^ 16) :=
          Nat.mul_le_mul (Nat.mul_le_mul_right _ (le_of_lt hp1)) (Nat.mul_le_mul_right _ (le_of_lt hp1))
      _ = 256 ^ t * 256 ^ (t + 4) := by rw [pow_add]; norm_num; ring
  have hch := chunkDecomposition_rep (a * b / 256 ^ t) (t + 4)
  rw [Nat.mod_eq_of_lt hhi] at hch
  obtain ⟨_, _, m3⟩ := matVec_value t (t + 4) _
    ((List.range (t + 4)).map fun i => chunkDecomposition (256 ^ (t + i) % p) t) (fun i => 256 ^ (t + i) % p) hch.len
    (by omega) hch.lt (fun i hi => by
      rw [List.getD_eq_getElem _ _ (by simpa using hi)]
      simp only [List.getElem_map, List.getElem_range]
      have := chunkDecomposition_rep (256 ^ (t + i) % p) t
      rwa [Nat.mod_eq_of_lt (lt_trans (Nat.mod_lt _ hp) hp1)] at this)
  rw [recombine_eq, m3]
  generalize chunkDecomposition (a * b / 256 ^ t) (t + 4) = hi at *
  constructor
  · have hsum : ∑ i ∈ Finset.range (t + 4), hi.getD i 0 * (256 ^ (t + i) % p) ≡ 256 ^ t * (a * b / 256 ^ t) [MOD p] := by
      rw [← hch.val, ← ofDigits_sum_getD 256 hi (t + 4) (le_of_eq hch.len), Finset.mul_sum]
      apply Nat.ModEq.sum
      intro i _
      calc hi.getD i 0 * (256 ^ (t + i) % p) ≡ hi.getD i 0 * 256 ^ (t + i) [MOD p] :=
            Nat.ModEq.mul_left _ (Nat.mod_modEq _ _)
        _ = 256 ^ t * (hi.getD i 0 * 256 ^ i) := by rw [pow_add]; ring
    have h1 := Nat.ModEq.add_right (a * b % 256 ^ t) hsum
    rwa [Nat.add_comm (256 ^ t * _), Nat.mod_add_div] at h1
  · have h1 : ∑ i ∈ Finset.range (t + 4), hi.getD i 0 * (256 ^ (t + i) % p) ≤ (t + 4) * (255 * p) := by
      calc _ ≤ ∑ i ∈ Finset.range (t + 4), 255 * p := by
            apply Finset.sum_le_sum
            intro i _
            have h1 := getD_lt hi 256 (by norm_num) hch.lt i
            exact Nat.mul_le_mul (by omega) (le_of_lt (Nat.mod_lt _ hp))
        _ = (t + 4) * (255 * p) := by rw [Finset.sum_const, Finset.card_range, smul_eq_mul]
    have h2 : a * b % 256 ^ t < 256 ^ t := Nat.mod_lt _ (by positivity)
    have h3 : (t + 4) * (255 * p) ≤ 255 * (255 * p) := Nat.mul_le_mul_right _ (by omega)
    omega

end Verif.EcChunks
