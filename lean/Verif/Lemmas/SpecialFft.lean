import Verif.Model.Encode
import Verif.Lemmas.BitReversal
import Verif.Props.BitReversal
import Mathlib.Tactic.Ring
import Mathlib.Tactic.LinearCombination

/-!
# Lemmas about the special FFT of CKKS encoding
-/

namespace Verif.Encode
open Verif.BitReversal Finset

variable {K : Type} [Field K]

theorem rotGroup_spec (m g : Nat) (hm : 1 < m) (n : Nat) :
    ((List.range n).foldl (fun r _ => r ++ [(r.getLastD 0 * g) % m]) [1]).length = n + 1 ∧
    (∀ j, j ≤ n → ((List.range n).foldl (fun r _ => r ++ [(r.getLastD 0 * g) % m]) [1]).getD j 0 = g ^ j % m) ∧
    ((List.range n).foldl (fun r _ => r ++ [(r.getLastD 0 * g) % m]) [1]).getLastD 0 = g ^ n % m := by
  induction n with
  | zero =>
    refine ⟨rfl, ?_, ?_⟩
    · intro j hj
      obtain rfl : j = 0 := by omega
      simp [Nat.mod_eq_of_lt hm]
    · simp [Nat.mod_eq_of_lt hm]
  | succ n ih =>
    obtain ⟨h1, h2, h3⟩ := ih
    rw [List.range_succ, List.foldl_append, List.foldl_cons, List.foldl_nil]
    generalize (List.range n).foldl (fun r _ => r ++ [(r.getLastD 0 * g) % m]) [1] = l at *
    have e : l.getLastD 0 * g % m = g ^ (n + 1) % m := by
      rw [h3, pow_succ, Nat.mod_mul_mod]
    rw [e]
    refine ⟨by simp [h1], ?_, by simp⟩
    intro j hj
    rcases Nat.lt_or_ge j (n + 1) with h | h
    · rw [List.getD_append _ _ _ _ (by omega)]
      exact h2 j (by omega)
    · obtain rfl : j = n + 1 := by omega
      rw [List.getD_append_right _ _ _ _ (by omega), h1]
      simp

theorem rotGroup_getD (m nh : Nat) (hm : 1 < m) (j : Nat) (hj : j < nh) : (rotGroup m nh 5).getD j 0 = 5 ^ j % m :=
  (rotGroup_spec m 5 hm (nh - 1)).2.1 j (by omega)

/-- The twiddle factor of layer `s` (block length `2^(s+1)`). -/
def tw (zeta : K) (t s j : Nat) : K := (zeta ^ 2 ^ (t - 1 - s)) ^ 5 ^ j

theorem pow_mod_of_one {w : K} {n : Nat} (h : w ^ n = 1) (a : Nat) : w ^ (a % n) = w ^ a := by
  conv_rhs => rw [← Nat.div_add_mod a n, pow_add, pow_mul, h, one_pow, one_mul]

theorem step_eq {s t : Nat} (hs : s < t) : 2 ^ (t + 2) / (2 ^ (s + 1) <<< 2) = 2 ^ (t - 1 - s) := by
  rw [Nat.shiftLeft_eq, ← pow_add, Nat.pow_div (by omega) (by omega)]
  congr 1; omega

theorem lenq_step {s t : Nat} (hs : s < t) : 2 ^ (t - 1 - s) * (2 ^ (s + 1) <<< 2) = 2 ^ (t + 2) := by
  rw [Nat.shiftLeft_eq, ← pow_add, ← pow_add]
  congr 1; omega

theorem base_pow {zeta : K} {s t : Nat} (hs : s < t) (hz : zeta ^ 2 ^ (t + 1) = -1) :
    (zeta ^ 2 ^ (t - 1 - s)) ^ (2 ^ (s + 1) <<< 2) = 1 := by
  rw [← pow_mul, lenq_step hs, pow_succ, pow_mul, hz]; norm_num

theorem fwd_root {zeta : K} {s t j : Nat} (hs : s < t) (hj : j < 2 ^ t) (hz : zeta ^ 2 ^ (t + 1) = -1) :
    root zeta (((rotGroup (2 ^ (t + 2)) (2 ^ t) 5).getD j 0 % (2 ^ (s + 1) <<< 2)) *
      (2 ^ (t + 2) / (2 ^ (s + 1) <<< 2))) = tw zeta t s j := by
  rw [rotGroup_getD _ _ (Nat.one_lt_two_pow (by omega)) j hj, step_eq hs, Nat.mod_mod_of_dvd _ ⟨_, by
    rw [mul_comm]; exact (lenq_step hs).symm⟩]
  unfold root tw
  rw [mul_comm, pow_mul, pow_mod_of_one (base_pow hs hz)]

theorem inv_root {zeta : K} {s t j : Nat} (hs : s < t) (hj : j < 2 ^ t) (hz : zeta ^ 2 ^ (t + 1) = -1) :
    root zeta (((2 ^ (s + 1) <<< 2 - (rotGroup (2 ^ (t + 2)) (2 ^ t) 5).getD j 0 % (2 ^ (s + 1) <<< 2)) %
      (2 ^ (s + 1) <<< 2)) * (2 ^ (t + 2) / (2 ^ (s + 1) <<< 2))) * tw zeta t s j = 1 := by
  rw [← fwd_root hs hj hz]
  unfold root
  have hlt : (rotGroup (2 ^ (t + 2)) (2 ^ t) 5).getD j 0 % (2 ^ (s + 1) <<< 2) < 2 ^ (s + 1) <<< 2 :=
    Nat.mod_lt _ (by rw [Nat.shiftLeft_eq]; positivity)
  generalize (rotGroup (2 ^ (t + 2)) (2 ^ t) 5).getD j 0 % (2 ^ (s + 1) <<< 2) = r at *
  rw [step_eq hs, mul_comm _ (2 ^ (t - 1 - s)), pow_mul, mul_comm r (2 ^ (t - 1 - s)), pow_mul,
    pow_mod_of_one (base_pow hs hz), ← pow_add, Nat.sub_add_cancel hlt.le, base_pow hs hz]

/-- Position facts within a block of length `2^(s+1)`. -/
theorem block_lt {s t p : Nat} (hs : s < t) (hp : p < 2 ^ t) (hc : p % 2 ^ (s + 1) < 2 ^ s) : p + 2 ^ s < 2 ^ t := by
  have hd : 2 ^ (s + 1) ∣ 2 ^ t := pow_dvd_pow 2 (by omega)
  obtain ⟨e, he⟩ := hd
  have h1 := Nat.div_add_mod p (2 ^ (s + 1))
  have h2 : p / 2 ^ (s + 1) < e := by
    rw [Nat.div_lt_iff_lt_mul (by positivity), mul_comm, ← he]; exact hp
  have h3 : 2 ^ (s + 1) * (p / 2 ^ (s + 1) + 1) ≤ 2 ^ (s + 1) * e := Nat.mul_le_mul_left _ h2
  have h4 : (2 : Nat) ^ (s + 1) = 2 ^ s + 2 ^ s := by rw [pow_succ]; omega
  rw [Nat.mul_add, ← he] at h3
  omega

theorem add_half_mod {s p : Nat} (hc : p % 2 ^ (s + 1) < 2 ^ s) : (p + 2 ^ s) % 2 ^ (s + 1) = p % 2 ^ (s + 1) + 2 ^ s := by
  have h4 : (2 : Nat) ^ (s + 1) = 2 ^ s + 2 ^ s := by rw [pow_succ]; omega
  rw [Nat.add_mod, Nat.mod_eq_of_lt (a := 2 ^ s) (by have := Nat.one_le_two_pow (n := s); omega), Nat.mod_eq_of_lt (by omega)]

theorem sub_half_mod {s p : Nat} (hc : 2 ^ s ≤ p % 2 ^ (s + 1)) : 2 ^ s ≤ p ∧
    (p - 2 ^ s) % 2 ^ (s + 1) = p % 2 ^ (s + 1) - 2 ^ s := by
  have h4 : (2 : Nat) ^ (s + 1) = 2 ^ s + 2 ^ s := by rw [pow_succ]; omega
  have hle := Nat.mod_le p (2 ^ (s + 1))
  have hlt := Nat.mod_lt p (y := 2 ^ (s + 1)) (by positivity)
  refine ⟨by omega, ?_⟩
  conv_lhs => rw [← Nat.div_add_mod p (2 ^ (s + 1)), Nat.add_sub_assoc hc, Nat.mul_add_mod]
  exact Nat.mod_eq_of_lt (by omega)

theorem shr_one (s : Nat) : 2 ^ (s + 1) >>> 1 = 2 ^ s := by
  rw [Nat.shiftRight_eq_div_pow, pow_one, pow_succ, Nat.mul_div_cancel _ (by norm_num)]

theorem getD_range_map (n : Nat) (f : Nat → K) (p : Nat) (hp : p < n) : ((List.range n).map f).getD p 0 = f p := by
  rw [List.getD_eq_getElem _ _ (by simpa using hp)]
  simp

/-- The forward layer, entry by entry. -/
theorem fwdLayer_getD {zeta : K} {s t : Nat} (hs : s < t) (hz : zeta ^ 2 ^ (t + 1) = -1) (vals : List K)
    (hl : vals.length = 2 ^ t) (p : Nat) (hp : p < 2 ^ t) :
    (fwdLayer zeta (2 ^ (t + 2)) (rotGroup (2 ^ (t + 2)) (2 ^ t) 5) (2 ^ (s + 1)) vals).getD p 0 =
      if p % 2 ^ (s + 1) < 2 ^ s then vals.getD p 0 + vals.getD (p + 2 ^ s) 0 * tw zeta t s (p % 2 ^ (s + 1))
      else vals.getD (p - 2 ^ s) 0 - vals.getD p 0 * tw zeta t s (p % 2 ^ (s + 1) - 2 ^ s) := by
  have hst : (2 : Nat) ^ (s + 1) ≤ 2 ^ t := Nat.pow_le_pow_right (by norm_num) hs
  have hm := Nat.mod_lt p (y := 2 ^ (s + 1)) (by positivity)
  unfold fwdLayer
  simp only
  rw [hl, getD_range_map _ _ _ hp, shr_one]
  split
  · rw [fwd_root hs (by omega) hz]
  · rw [fwd_root hs (by omega) hz]

theorem fwdLayer_length (zeta : K) (m : Nat) (rg : List Nat) (length : Nat) (vals : List K) :
    (fwdLayer zeta m rg length vals).length = vals.length := by simp [fwdLayer]

theorem invLayer_length (zeta : K) (m : Nat) (rg : List Nat) (length : Nat) (vals : List K) :
    (invLayer zeta m rg length vals).length = vals.length := by simp [invLayer]

/-- The inverse layer, entry by entry, for any factors `w` inverse to the forward factors. -/
theorem invLayer_getD {zeta : K} {s t : Nat} (hs : s < t) (hz : zeta ^ 2 ^ (t + 1) = -1) (vals : List K)
    (hl : vals.length = 2 ^ t) (p : Nat) (hp : p < 2 ^ t) :
    (invLayer zeta (2 ^ (t + 2)) (rotGroup (2 ^ (t + 2)) (2 ^ t) 5) (2 ^ (s + 1)) vals).getD p 0 =
      if p % 2 ^ (s + 1) < 2 ^ s then vals.getD p 0 + vals.getD (p + 2 ^ s) 0
      else (vals.getD (p - 2 ^ s) 0 - vals.getD p 0) * (tw zeta t s (p % 2 ^ (s + 1) - 2 ^ s))⁻¹ := by
  have hst : (2 : Nat) ^ (s + 1) ≤ 2 ^ t := Nat.pow_le_pow_right (by norm_num) hs
  have hm := Nat.mod_lt p (y := 2 ^ (s + 1)) (by positivity)
  unfold invLayer
  simp only
  rw [hl, getD_range_map _ _ _ hp, shr_one]
  split
  · rfl
  · rw [eq_inv_of_mul_eq_one_left (inv_root (j := p % 2 ^ (s + 1) - 2 ^ s) hs (by omega) hz)]

theorem tw_ne_zero {zeta : K} {t s j : Nat} (hz : zeta ^ 2 ^ (t + 1) = -1) : tw zeta t s j ≠ 0 := by
  unfold tw
  have : zeta ≠ 0 := by
    rintro rfl
    rw [zero_pow (by positivity)] at hz
    have : (1 : K) = 0 := by linear_combination hz
    exact one_ne_zero this
  positivity

theorem list_eq_of_getD {n : Nat} {a b : List K} (ha : a.length = n) (hb : b.length = n)
    (h : ∀ p, p < n → a.getD p 0 = b.getD p 0) : a = b := by
  apply List.ext_getElem (by omega)
  intro i h1 h2
  have := h i (by omega)
  rwa [List.getD_eq_getElem _ _ h1, List.getD_eq_getElem _ _ h2] at this

theorem map_mul_getD (c : K) (l : List K) (p : Nat) : (l.map (fun x => c * x)).getD p 0 = c * l.getD p 0 := by
  rw [List.getD_eq_getElem?_getD, List.getD_eq_getElem?_getD, List.getElem?_map]
  cases l[p]? <;> simp

theorem inv_fwd_layer {zeta : K} {s t : Nat} (hs : s < t) (hz : zeta ^ 2 ^ (t + 1) = -1) (vals : List K)
    (hl : vals.length = 2 ^ t) :
    invLayer zeta (2 ^ (t + 2)) (rotGroup (2 ^ (t + 2)) (2 ^ t) 5) (2 ^ (s + 1))
      (fwdLayer zeta (2 ^ (t + 2)) (rotGroup (2 ^ (t + 2)) (2 ^ t) 5) (2 ^ (s + 1)) vals) = vals.map (fun x => 2 * x) := by
  have hfl := (fwdLayer_length zeta (2 ^ (t + 2)) (rotGroup (2 ^ (t + 2)) (2 ^ t) 5) (2 ^ (s + 1)) vals).trans hl
  apply list_eq_of_getD (n := 2 ^ t) (by rw [invLayer_length, hfl]) (by simp [hl])
  intro p hp
  rw [invLayer_getD hs hz _ hfl p hp, map_mul_getD]
  by_cases hc : p % 2 ^ (s + 1) < 2 ^ s
  · rw [if_pos hc, fwdLayer_getD hs hz _ hl p hp, fwdLayer_getD hs hz _ hl _ (block_lt hs hp hc), if_pos hc,
      add_half_mod hc, if_neg (by omega), Nat.add_sub_cancel, Nat.add_sub_cancel]
    ring
  · obtain ⟨h1, h2⟩ := sub_half_mod (not_lt.1 hc)
    have hlt := Nat.mod_lt p (y := 2 ^ (s + 1)) (by positivity)
    have h4 : (2 : Nat) ^ (s + 1) = 2 ^ s + 2 ^ s := by rw [pow_succ]; omega
    rw [if_neg hc, fwdLayer_getD hs hz _ hl p hp, fwdLayer_getD hs hz _ hl _ (by omega), if_neg hc,
      h2, if_pos (by omega), Nat.sub_add_cancel h1]
    have hne : tw zeta t s (p % 2 ^ (s + 1) - 2 ^ s) ≠ 0 := tw_ne_zero hz
    field_simp
    ring

theorem fwd_inv_layer {zeta : K} {s t : Nat} (hs : s < t) (hz : zeta ^ 2 ^ (t + 1) = -1) (vals : List K)
    (hl : vals.length = 2 ^ t) :
    fwdLayer zeta (2 ^ (t + 2)) (rotGroup (2 ^ (t + 2)) (2 ^ t) 5) (2 ^ (s + 1))
      (invLayer zeta (2 ^ (t + 2)) (rotGroup (2 ^ (t + 2)) (2 ^ t) 5) (2 ^ (s + 1)) vals) = vals.map (fun x => 2 * x) := by
  have hfl := (invLayer_length zeta (2 ^ (t + 2)) (rotGroup (2 ^ (t + 2)) (2 ^ t) 5) (2 ^ (s + 1)) vals).trans hl
  apply list_eq_of_getD (n := 2 ^ t) (by rw [fwdLayer_length, hfl]) (by simp [hl])
  intro p hp
  rw [fwdLayer_getD hs hz _ hfl p hp, map_mul_getD]
  by_cases hc : p % 2 ^ (s + 1) < 2 ^ s
  · rw [if_pos hc, invLayer_getD hs hz _ hl p hp, invLayer_getD hs hz _ hl _ (block_lt hs hp hc), if_pos hc,
      add_half_mod hc, if_neg (by omega), Nat.add_sub_cancel, Nat.add_sub_cancel]
    have hne : tw zeta t s (p % 2 ^ (s + 1)) ≠ 0 := tw_ne_zero hz
    field_simp
    ring
  · obtain ⟨h1, h2⟩ := sub_half_mod (not_lt.1 hc)
    have hlt := Nat.mod_lt p (y := 2 ^ (s + 1)) (by positivity)
    have h4 : (2 : Nat) ^ (s + 1) = 2 ^ s + 2 ^ s := by rw [pow_succ]; omega
    rw [if_neg hc, invLayer_getD hs hz _ hl p hp, invLayer_getD hs hz _ hl _ (by omega), if_neg hc,
      h2, if_pos (by omega), Nat.sub_add_cancel h1]
    have hne : tw zeta t s (p % 2 ^ (s + 1) - 2 ^ s) ≠ 0 := tw_ne_zero hz
    field_simp
    ring

theorem fwdLayer_smul (zeta : K) (m : Nat) (rg : List Nat) (length : Nat) (c : K) (vals : List K) :
    fwdLayer zeta m rg length (vals.map (fun x => c * x)) = (fwdLayer zeta m rg length vals).map (fun x => c * x) := by
  unfold fwdLayer
  simp only [List.length_map, List.map_map, map_mul_getD]
  apply List.map_congr_left
  intro p _
  simp only [Function.comp]
  split <;> ring

theorem invLayer_smul (zeta : K) (m : Nat) (rg : List Nat) (length : Nat) (c : K) (vals : List K) :
    invLayer zeta m rg length (vals.map (fun x => c * x)) = (invLayer zeta m rg length vals).map (fun x => c * x) := by
  unfold invLayer
  simp only [List.length_map, List.map_map, map_mul_getD]
  apply List.map_congr_left
  intro p _
  simp only [Function.comp]
  split <;> ring

/-- The first `s` forward layers. -/
def fwdAll (zeta : K) (t : Nat) : Nat → List K → List K
  | 0, v => v
  | s + 1, v => fwdLayer zeta (2 ^ (t + 2)) (rotGroup (2 ^ (t + 2)) (2 ^ t) 5) (2 ^ (s + 1)) (fwdAll zeta t s v)

/-- The inverse layers of block lengths `2^s, ..., 2`. -/
def invAll (zeta : K) (t : Nat) : Nat → List K → List K
  | 0, v => v
  | s + 1, v => invAll zeta t s (invLayer zeta (2 ^ (t + 2)) (rotGroup (2 ^ (t + 2)) (2 ^ t) 5) (2 ^ (s + 1)) v)

theorem fwdAll_length (zeta : K) (t s : Nat) (v : List K) : (fwdAll zeta t s v).length = v.length := by
  induction s with
  | zero => rfl
  | succ s ih => rw [fwdAll, fwdLayer_length, ih]

theorem invAll_length (zeta : K) (t s : Nat) (v : List K) : (invAll zeta t s v).length = v.length := by
  induction s generalizing v with
  | zero => rfl
  | succ s ih => rw [invAll, ih, invLayer_length]

theorem fwdLoop_eq (zeta : K) (t : Nat) (v : List K) (fuel s : Nat) (hs : s ≤ t) (hf : t - s < fuel + 1) :
    fwdLoop zeta (2 ^ (t + 2)) (rotGroup (2 ^ (t + 2)) (2 ^ t) 5) (2 ^ t) fuel (2 ^ (s + 1)) (fwdAll zeta t s v) =
      fwdAll zeta t t v := by
  induction fuel generalizing s with
  | zero =>
    obtain rfl : s = t := by omega
    rfl
  | succ fuel ih =>
    rw [fwdLoop]
    by_cases h : s < t
    · rw [if_pos (Nat.pow_le_pow_right (by norm_num) h)]
      have e : 2 ^ (s + 1) <<< 1 = 2 ^ (s + 1 + 1) := by rw [Nat.shiftLeft_eq, pow_one, pow_succ 2 (s + 1)]
      rw [e]
      exact ih (s + 1) h (by omega)
    · obtain rfl : s = t := by omega
      rw [if_neg]
      rw [not_le]
      exact Nat.pow_lt_pow_right (by norm_num) (by omega)

theorem invLoop_eq (zeta : K) (t : Nat) (v : List K) (fuel s : Nat) (hf : s ≤ fuel) :
    invLoop zeta (2 ^ (t + 2)) (rotGroup (2 ^ (t + 2)) (2 ^ t) 5) fuel (2 ^ s) v = invAll zeta t s v := by
  induction fuel generalizing s v with
  | zero =>
    obtain rfl : s = 0 := by omega
    rfl
  | succ fuel ih =>
    rw [invLoop]
    cases s with
    | zero => rw [if_neg (by norm_num)]; rfl
    | succ s =>
      rw [if_pos (by rw [pow_succ]; have := Nat.one_le_two_pow (n := s); omega), shr_one]
      exact ih _ s (by omega)

theorem fftSpecial_eq (zeta : K) (t : Nat) (v : List K) (hl : v.length = 2 ^ t) :
    fftSpecial zeta v (4 * 2 ^ t) = fwdAll zeta t t (bitReversalArray v) := by
  have e : 4 * 2 ^ t = 2 ^ (t + 2) := by ring
  unfold fftSpecial
  simp only
  rw [hl, e]
  have := fwdLoop_eq zeta t (bitReversalArray v) (2 ^ t) 0 (by omega) (by have := Nat.lt_two_pow_self (n := t); omega)
  exact this

theorem fftSpecialInv_eq (zeta : K) (t : Nat) (v : List K) (hl : v.length = 2 ^ t) :
    fftSpecialInv zeta v (4 * 2 ^ t) =
      bitReversalArray ((invAll zeta t t v).map (fun x => ((2 ^ t : Nat) : K)⁻¹ * x)) := by
  have e : 4 * 2 ^ t = 2 ^ (t + 2) := by ring
  unfold fftSpecialInv
  simp only
  rw [hl, e, invLoop_eq zeta t v (2 ^ t) t (Nat.lt_two_pow_self).le]
  congr 1
  apply List.map_congr_left
  intro x _
  rw [one_div, mul_comm]

theorem invAll_smul (zeta : K) (t s : Nat) (c : K) (v : List K) :
    invAll zeta t s (v.map (fun x => c * x)) = (invAll zeta t s v).map (fun x => c * x) := by
  induction s generalizing v with
  | zero => rfl
  | succ s ih => rw [invAll, invLayer_smul, ih]; rfl

theorem fwdAll_smul (zeta : K) (t s : Nat) (c : K) (v : List K) :
    fwdAll zeta t s (v.map (fun x => c * x)) = (fwdAll zeta t s v).map (fun x => c * x) := by
  induction s generalizing v with
  | zero => rfl
  | succ s ih => rw [fwdAll, ih, fwdLayer_smul]; rfl

theorem invAll_fwdAll {zeta : K} {t : Nat} (hz : zeta ^ 2 ^ (t + 1) = -1) (s : Nat) (hs : s ≤ t) (v : List K)
    (hl : v.length = 2 ^ t) : invAll zeta t s (fwdAll zeta t s v) = v.map (fun x => ((2 ^ s : Nat) : K) * x) := by
  induction s with
  | zero => simp [invAll, fwdAll]
  | succ s ih =>
    rw [invAll, fwdAll, inv_fwd_layer (by omega) hz _ (by rw [fwdAll_length, hl]), invAll_smul, ih (by omega), List.map_map]
    apply List.map_congr_left
    intro x _
    simp only [Function.comp]
    push_cast
    ring

theorem fwdAll_invAll {zeta : K} {t : Nat} (hz : zeta ^ 2 ^ (t + 1) = -1) (s : Nat) (hs : s ≤ t) (v : List K)
    (hl : v.length = 2 ^ t) : fwdAll zeta t s (invAll zeta t s v) = v.map (fun x => ((2 ^ s : Nat) : K) * x) := by
  induction s generalizing v with
  | zero => simp [invAll, fwdAll]
  | succ s ih =>
    rw [invAll, fwdAll, ih (by omega) _ (by rw [invLayer_length, hl]), fwdLayer_smul, fwd_inv_layer (by omega) hz _ hl,
      List.map_map]
    apply List.map_congr_left
    intro x _
    simp only [Function.comp]
    push_cast
    ring

theorem five_pow (s : Nat) : ∃ k, 5 ^ 2 ^ s = 1 + 2 ^ (s + 2) * (2 * k + 1) := by
  induction s with
  | zero => exact ⟨0, rfl⟩
  | succ s ih =>
    obtain ⟨k, hk⟩ := ih
    refine ⟨k + 2 ^ s * (2 * k + 1) ^ 2, ?_⟩
    rw [pow_succ 2 s, pow_mul, hk]
    ring

theorem neg_one_pow_odd (k : Nat) : (-1 : K) ^ (2 * k + 1) = -1 := by
  rw [pow_succ, pow_mul]; norm_num

/-- The factor of the other half of a block is the negative. -/
theorem tw_add {zeta : K} {s t : Nat} (hs : s < t) (hz : zeta ^ 2 ^ (t + 1) = -1) (j : Nat) :
    (zeta ^ 2 ^ (t - 1 - s)) ^ 5 ^ (j + 2 ^ s) = -tw zeta t s j := by
  obtain ⟨k, hk⟩ := five_pow s
  unfold tw
  have h1 : (zeta ^ 2 ^ (t - 1 - s)) ^ 2 ^ (s + 2) = -1 := by
    rw [← pow_mul, ← pow_add, show t - 1 - s + (s + 2) = t + 1 by omega, hz]
  have h5 : ∃ r, 5 ^ j = 2 * r + 1 := by
    have : Odd (5 ^ j) := Odd.pow (by decide)
    exact this
  obtain ⟨r, hr⟩ := h5
  rw [pow_add, hk, mul_add, mul_one, pow_add, show 5 ^ j * (2 ^ (s + 2) * (2 * k + 1)) = 2 ^ (s + 2) * ((2 * k + 1) * 5 ^ j)
    by ring, pow_mul, h1, hr]
  rw [show (2 * k + 1) * (2 * r + 1) = 2 * (2 * k * r + k + r) + 1 by ring, neg_one_pow_odd]
  ring

/-- The partial transform after `s` layers. -/
def part (zeta : K) (t : Nat) (v : Nat → K) (s p : Nat) : K :=
  ∑ j ∈ range (2 ^ s), v (bitReversal (p / 2 ^ s) (t - s) + 2 ^ (t - s) * j) *
    ((zeta ^ 2 ^ (t - s)) ^ 5 ^ (p % 2 ^ s)) ^ j

theorem sum_range_even_odd (n : Nat) (f : Nat → K) :
    ∑ j ∈ range (2 * n), f j = ∑ j ∈ range n, f (2 * j) + ∑ j ∈ range n, f (2 * j + 1) := by
  induction n with
  | zero => simp
  | succ n ih =>
    rw [show 2 * (n + 1) = 2 * n + 1 + 1 by ring, sum_range_succ, sum_range_succ, ih, sum_range_succ, sum_range_succ]
    ring

/-- Two half-transforms make one. -/
theorem part_succ {zeta : K} {s t : Nat} (hs : s < t) (v : Nat → K) (b e : Nat) (w : K) 
    (hw : w ^ 2 = (zeta ^ 2 ^ (t - s)) ^ e) :
    ∑ j ∈ range (2 ^ (s + 1)), v (bitReversal b (t - (s + 1)) + 2 ^ (t - (s + 1)) * j) * w ^ j =
      ∑ j ∈ range (2 ^ s), v (bitReversal (2 * b) (t - s) + 2 ^ (t - s) * j) * ((zeta ^ 2 ^ (t - s)) ^ e) ^ j +
      (∑ j ∈ range (2 ^ s), v (bitReversal (2 * b + 1) (t - s) + 2 ^ (t - s) * j) * ((zeta ^ 2 ^ (t - s)) ^ e) ^ j) * w := by
  obtain ⟨u, rfl⟩ : ∃ u, t = s + 1 + u := ⟨t - (s + 1), by omega⟩
  have e1 : s + 1 + u - (s + 1) = u := by omega
  have e2 : s + 1 + u - s = u + 1 := by omega
  rw [e2] at hw
  rw [e1, e2, pow_succ 2 s, mul_comm (2 ^ s) 2, sum_range_even_odd, rev_succ, rev_succ, sum_mul]
  have h1 : 2 * b % 2 = 0 := by omega
  have h2 : (2 * b + 1) % 2 = 1 := by omega
  have h3 : 2 * b / 2 = b := by omega
  have h4 : (2 * b + 1) / 2 = b := by omega
  rw [h1, h2, h3, h4]
  congr 1
  · apply sum_congr rfl
    intro j _
    rw [pow_mul, hw]
    congr 2
    ring
  · apply sum_congr rfl
    intro j _
    rw [pow_succ, pow_mul, hw, ← mul_assoc]
    congr 3
    ring

theorem fwdAll_part {zeta : K} {t : Nat} (hz : zeta ^ 2 ^ (t + 1) = -1) (v : List K) (hl : v.length = 2 ^ t) (s : Nat)
    (hs : s ≤ t) (p : Nat) (hp : p < 2 ^ t) :
    (fwdAll zeta t s (bitReversalArray v)).getD p 0 = part zeta t (fun j => v.getD j 0) s p := by
  obtain ⟨b1, b2, -⟩ := Props.C30_array t v hl
  induction s generalizing p with
  | zero =>
    unfold part fwdAll
    rw [List.getD_eq_getElem?_getD, b2 p hp, ← List.getD_eq_getElem?_getD]
    simp
  | succ s ih =>
    have ih := ih (by omega)
    rw [fwdAll, fwdLayer_getD (by omega) hz _ (by rw [fwdAll_length, b1, hl]) p hp]
    have hz2 : zeta ^ 2 ^ (t - s) = (zeta ^ 2 ^ (t - (s + 1))) ^ 2 := by
      rw [← pow_mul, ← pow_succ]; congr 2; omega
    have e3 : t - (s + 1) = t - 1 - s := by omega
    have h4 : (2 : Nat) ^ (s + 1) = 2 ^ s * 2 := pow_succ 2 s
    have hmod := Nat.mod_lt p (y := 2 ^ (s + 1)) (by positivity)
    by_cases hc : p % 2 ^ (s + 1) < 2 ^ s
    · rw [if_pos hc, ih p hp, ih _ (block_lt (by omega) hp hc)]
      unfold part
      have q1 : p / 2 ^ s = 2 * (p / 2 ^ (s + 1)) := by
        have := Nat.div_add_mod p (2 ^ (s + 1))
        conv_lhs => rw [← this, h4, mul_assoc, Nat.mul_add_div (by positivity)]
        rw [← h4, Nat.div_eq_of_lt hc, Nat.add_zero]
      have q2 : p % 2 ^ s = p % 2 ^ (s + 1) := by
        have := Nat.div_add_mod p (2 ^ (s + 1))
        conv_lhs => rw [← this, h4, mul_assoc, Nat.mul_add_mod]
        rw [← h4, Nat.mod_eq_of_lt hc]
      have q3 : (p + 2 ^ s) / 2 ^ s = 2 * (p / 2 ^ (s + 1)) + 1 := by
        rw [Nat.add_div_right _ (by positivity), q1]
      have q4 : (p + 2 ^ s) % 2 ^ s = p % 2 ^ (s + 1) := by rw [Nat.add_mod_right, q2]
      rw [q1, q2, q3, q4]
      unfold tw
      rw [← e3]
      rw [part_succ (by omega) (fun j => v.getD j 0) (p / 2 ^ (s + 1)) (5 ^ (p % 2 ^ (s + 1))) (zeta := zeta)]
      rw [hz2, ← pow_mul, ← pow_mul, ← pow_mul, ← pow_mul]
      ring_nf
    · rw [not_lt] at hc
      obtain ⟨h1, h2⟩ := sub_half_mod hc
      rw [if_neg (by omega), ih p hp, ih _ (by omega)]
      unfold part
      have q1 : p / 2 ^ s = 2 * (p / 2 ^ (s + 1)) + 1 := by
        have := Nat.div_add_mod p (2 ^ (s + 1))
        conv_lhs => rw [← this, h4, mul_assoc, Nat.mul_add_div (by positivity)]
        rw [← h4]
        congr 1
        rw [Nat.div_eq_iff (by positivity)]
        omega
      have q2 : p % 2 ^ s = p % 2 ^ (s + 1) - 2 ^ s := by
        have h5 : p = p - 2 ^ s + 2 ^ s := by omega
        conv_lhs => rw [h5, Nat.add_mod_right]
        rw [← h2]
        rw [← Nat.mod_mod_of_dvd (p - 2 ^ s) (⟨2, h4⟩ : 2 ^ s ∣ 2 ^ (s + 1))]
        apply Nat.mod_eq_of_lt
        rw [h2]; omega
      have q3 : (p - 2 ^ s) / 2 ^ s = 2 * (p / 2 ^ (s + 1)) := by
        have := Nat.sub_mul_div p (2 ^ s) 1
        rw [Nat.mul_one] at this
        rw [this, q1]; omega
      have q4 : (p - 2 ^ s) % 2 ^ s = p % 2 ^ (s + 1) - 2 ^ s := by
        rw [← q2, ← Nat.add_mod_right, Nat.sub_add_cancel h1]
      have q5 : p % 2 ^ (s + 1) = (p % 2 ^ (s + 1) - 2 ^ s) + 2 ^ s := by omega
      rw [q1, q2, q3, q4]
      have hw : (zeta ^ 2 ^ (t - (s + 1))) ^ 5 ^ (p % 2 ^ (s + 1)) = -tw zeta t s (p % 2 ^ (s + 1) - 2 ^ s) := by
        conv_lhs => rw [q5, e3, tw_add (by omega) hz]
      rw [hw, part_succ (by omega) (fun j => v.getD j 0) (p / 2 ^ (s + 1)) (5 ^ (p % 2 ^ (s + 1) - 2 ^ s)) (zeta := zeta)]
      · ring
      · unfold tw
        rw [neg_sq, ← e3, hz2, ← pow_mul, ← pow_mul]
        ring_nf

end Verif.Encode
