import Verif.Model.Decomposition
import Verif.Lemmas.Arith
import Mathlib.Algebra.BigOperators.Intervals
import Mathlib.Data.Nat.Bitwise

namespace Verif.Decomposition
open Verif.Arith

theorem natCast_eq (n : Nat) : ((n : Nat) : W) = BitVec.ofNat 32 n := rfl

theorem toNat_natCast (n : Nat) : ((n : Nat) : W).toNat = n % 2 ^ 32 := by
  rw [natCast_eq, BitVec.toNat_ofNat]

theorem cast_toNat (x : W) : ((x.toNat : Nat) : W) = x := by
  apply BitVec.eq_of_toNat_eq; rw [toNat_natCast, Nat.mod_eq_of_lt x.isLt]

theorem shiftLeft_eq_mul (x : W) (s : Nat) : x <<< s = x * 2 ^ s := by
  have h : (2 : W) ^ s = ((2 ^ s : Nat) : W) := by push_cast; rfl
  rw [h]
  apply BitVec.eq_of_toNat_eq
  rw [BitVec.toNat_shiftLeft, BitVec.toNat_mul, toNat_natCast, Nat.shiftLeft_eq]
  simp [Nat.mul_mod]

theorem decompose_toNat (x : W) (b L T : Nat) (hT : T ≤ 32) (hL : L * b ≤ T) (i : Fin L) :
    (decompose x b L T i).toNat = x.toNat / 2 ^ (T - (1 + i.val) * b) % 2 ^ b := by
  have hi : (1 + i.val) * b ≤ T :=
    le_trans (Nat.mul_le_mul_right b (by have := i.isLt; omega)) hL
  have hib : i.val * b + b ≤ T := by rw [Nat.add_mul] at hi; omega
  unfold decompose
  rw [BitVec.toNat_ushiftRight, BitVec.toNat_and, BitVec.toNat_ushiftRight, BitVec.toNat_ofNat]
  have hm : ((1 <<< b - 1) <<< (T - b)) % 2 ^ 32 = (2 ^ b - 1) * 2 ^ (T - b) := by
    rw [Nat.shiftLeft_eq, Nat.shiftLeft_eq, one_mul]
    apply Nat.mod_eq_of_lt
    have h1 : 0 < 2 ^ b := by positivity
    have h2 : 0 < 2 ^ (T - b) := by positivity
    calc (2 ^ b - 1) * 2 ^ (T - b) < 2 ^ b * 2 ^ (T - b) :=
          Nat.mul_lt_mul_of_pos_right (by omega) h2
      _ = 2 ^ T := by rw [← pow_add]; congr 1; omega
      _ ≤ 2 ^ 32 := Nat.pow_le_pow_right (by norm_num) hT
  rw [hm]
  have hs : ((2 ^ b - 1) * 2 ^ (T - b)) >>> (i.val * b) = (2 ^ b - 1) <<< (T - (1 + i.val) * b) := by
    rw [Nat.shiftRight_eq_div_pow, Nat.shiftLeft_eq]
    have : 2 ^ (T - b) = 2 ^ (T - (1 + i.val) * b) * 2 ^ (i.val * b) := by
      rw [← pow_add]; congr 1; rw [Nat.add_mul]; omega
    rw [this, ← mul_assoc, Nat.mul_div_cancel _ (by positivity)]
  rw [hs, Nat.shiftRight_and_distrib, Nat.shiftLeft_shiftRight, Nat.and_two_pow_sub_one_eq_mod,
    Nat.shiftRight_eq_div_pow]

theorem recompose_sum (X b T L : Nat) (hL : L * b ≤ T) :
    ∑ i : Fin L, (X / 2 ^ (T - (1 + i.val) * b) % 2 ^ b) * 2 ^ (T - (1 + i.val) * b) =
      X % 2 ^ T / 2 ^ (T - L * b) * 2 ^ (T - L * b) := by
  induction L with
  | zero =>
    have h : X % 2 ^ T < 2 ^ T := Nat.mod_lt _ (by positivity)
    simp [Nat.div_eq_of_lt h]
  | succ L ih =>
    have hLb : L * b + b ≤ T := by rw [Nat.add_mul] at hL; omega
    rw [Fin.sum_univ_castSucc]
    simp only [Fin.val_castSucc, Fin.val_last]
    rw [ih (by omega)]
    set s := T - (L + 1) * b with hs
    have e1 : T - (1 + L) * b = s := by rw [hs, Nat.add_comm 1 L]
    have e2 : T - L * b = s + b := by rw [hs, Nat.add_mul]; omega
    rw [e1, e2]
    have e3 : X / 2 ^ s % 2 ^ b = X % 2 ^ T / 2 ^ s % 2 ^ b := by
      have hT : T = s + b + L * b := by rw [hs, Nat.add_mul]; omega
      rw [hT, pow_add, pow_add, Nat.mul_assoc, Nat.mod_mul_right_div_self, Nat.mod_mod_of_dvd]
      exact Dvd.intro _ rfl
    rw [e3]
    set Y := X % 2 ^ T
    rw [pow_add, ← Nat.div_div_eq_div_mul]
    have := Nat.div_add_mod (Y / 2 ^ s) (2 ^ b)
    calc Y / 2 ^ s / 2 ^ b * (2 ^ s * 2 ^ b) + Y / 2 ^ s % 2 ^ b * 2 ^ s
        = (2 ^ b * (Y / 2 ^ s / 2 ^ b) + Y / 2 ^ s % 2 ^ b) * 2 ^ s := by ring
      _ = Y / 2 ^ s * 2 ^ s := by rw [this]

/-! ### Signed digits over the integers -/

/-- Integer carry. -/
def carryZ (X b : Nat) : Nat → Nat
  | 0 => 0
  | i + 1 =>
    let u := X / 2 ^ (i * b) % 2 ^ b + carryZ X b i
    if 2 ^ (b - 1) ≤ u ∧ u < 2 ^ b then 1 else 0

/-- Integer digit. -/
def digitZ (X b i : Nat) : Int :=
  (X / 2 ^ (i * b) % 2 ^ b + carryZ X b i : Nat) - (carryZ X b (i + 1) : Int) * 2 ^ b

theorem carryZ_le (X b i : Nat) : carryZ X b i ≤ 1 := by
  cases i with
  | zero => simp [carryZ]
  | succ i => simp only [carryZ]; split <;> omega

theorem signedStep_eq (x : W) (b i : Nat) (hb : 1 ≤ b) (hb2 : b ≤ 31) (c : W)
    (hc : c.toNat = carryZ x.toNat b i) :
    (signedStep x b i c).1 = BitVec.ofInt 32 (digitZ x.toNat b i) ∧
    (signedStep x b i c).2.toNat = carryZ x.toNat b (i + 1) := by
  have hB : (2 : Nat) ^ b ≤ 2 ^ 31 := Nat.pow_le_pow_right (by norm_num) hb2
  have hBpos : 0 < (2 : Nat) ^ b := by positivity
  obtain ⟨b', rfl⟩ : ∃ k, b = k + 1 := ⟨b - 1, by omega⟩
  set X := x.toNat with hX
  have hbase : (BitVec.ofNat 32 (1 <<< (b' + 1)) - 1#32).toNat = 2 ^ (b' + 1) - 1 := by
    rw [Nat.shiftLeft_eq, one_mul, BitVec.toNat_sub, BitVec.toNat_ofNat]
    rw [BitVec.toNat_ofNat]
    norm_num at hB ⊢
    omega
  have hthr : (BitVec.ofNat 32 (1 <<< b')).toNat = 2 ^ b' := by
    rw [Nat.shiftLeft_eq, one_mul, BitVec.toNat_ofNat]
    apply Nat.mod_eq_of_lt
    rw [pow_succ] at hB; norm_num at hB ⊢; omega
  have hcl := carryZ_le X (b' + 1) i
  set u := X / 2 ^ (i * (b' + 1)) % 2 ^ (b' + 1) + carryZ X (b' + 1) i with hu
  have hdig : X / 2 ^ (i * (b' + 1)) % 2 ^ (b' + 1) < 2 ^ (b' + 1) := Nat.mod_lt _ hBpos
  have hule : u ≤ 2 ^ (b' + 1) := by omega
  have huW : (((x >>> (i * (b' + 1))) &&& (BitVec.ofNat 32 (1 <<< (b' + 1)) - 1#32)) + c).toNat = u := by
    rw [BitVec.toNat_add, BitVec.toNat_and, BitVec.toNat_ushiftRight, hbase,
      Nat.and_two_pow_sub_one_eq_mod, Nat.shiftRight_eq_div_pow, hc, ← hX, ← hu]
    apply Nat.mod_eq_of_lt; norm_num at hB ⊢; omega
  have hcm : u &&& 2 ^ b' = if 2 ^ b' ≤ u ∧ u < 2 ^ (b' + 1) then 2 ^ b' else 0 := by
    rw [Nat.and_two_pow, Nat.testBit_eq_decide_div_mod_eq]
    have hp : 0 < 2 ^ b' := by positivity
    have hps : 2 ^ (b' + 1) = 2 ^ b' * 2 := pow_succ 2 b'
    by_cases h1 : u < 2 ^ b'
    · rw [Nat.div_eq_of_lt h1, if_neg (by omega)]; simp
    · by_cases h2 : u < 2 ^ (b' + 1)
      · have : u / 2 ^ b' = 1 := by
          rw [Nat.div_eq_iff hp]; omega
        rw [this, if_pos ⟨by omega, h2⟩]; simp
      · have hu2 : u = 2 ^ b' * 2 := by omega
        have : u / 2 ^ b' = 2 := by rw [hu2, Nat.mul_div_cancel_left _ hp]
        rw [this, if_neg (by omega)]; simp
  have hcz : carryZ X (b' + 1) (i + 1) = if 2 ^ b' ≤ u ∧ u < 2 ^ (b' + 1) then 1 else 0 := rfl
  unfold signedStep
  simp only [Nat.add_sub_cancel]
  set uW := ((x >>> (i * (b' + 1))) &&& (BitVec.ofNat 32 (1 <<< (b' + 1)) - 1#32)) + c with huWdef
  have hcmW : (uW &&& BitVec.ofNat 32 (1 <<< b')).toNat = if 2 ^ b' ≤ u ∧ u < 2 ^ (b' + 1) then 2 ^ b' else 0 := by
    rw [BitVec.toNat_and, huW, hthr, hcm]
  constructor
  · have hmW : uW &&& BitVec.ofNat 32 (1 <<< b') =
        ((if 2 ^ b' ≤ u ∧ u < 2 ^ (b' + 1) then 2 ^ b' else 0 : Nat) : W) := by
      apply BitVec.eq_of_toNat_eq
      rw [hcmW, toNat_natCast, Nat.mod_eq_of_lt]
      rw [pow_succ] at hB
      norm_num at hB ⊢; split <;> omega
    have huc : uW = ((u : Nat) : W) := by rw [← huW, cast_toNat]
    rw [hmW, huc, shiftLeft_eq_mul, ofInt_eq_cast]
    unfold digitZ
    rw [← hu, hcz]
    split
    · simp only [Int.cast_sub, Int.cast_natCast, Int.cast_mul, Int.cast_pow, Int.cast_ofNat,
        Nat.cast_one, Nat.cast_pow, Nat.cast_ofNat, Int.cast_one]
      ring
    · simp only [Int.cast_sub, Int.cast_natCast, Int.cast_mul, Int.cast_pow, Int.cast_ofNat,
        Nat.cast_zero, Int.cast_zero]
      ring
  · rw [BitVec.toNat_ushiftRight, hcmW, hcz, Nat.shiftRight_eq_div_pow]
    split
    · exact Nat.div_self (by positivity)
    · simp

theorem carryAt_eq (x : W) (b i : Nat) (hb : 1 ≤ b) (hb2 : b ≤ 31) :
    (carryAt x b i).toNat = carryZ x.toNat b i := by
  induction i with
  | zero => rfl
  | succ i ih => exact (signedStep_eq x b i hb hb2 _ ih).2

theorem signedResult_eq (x : W) (b i : Nat) (hb : 1 ≤ b) (hb2 : b ≤ 31) :
    signedResult x b i = BitVec.ofInt 32 (digitZ x.toNat b i) :=
  (signedStep_eq x b i hb hb2 _ (carryAt_eq x b i hb hb2)).1

theorem digit_sum (X b i : Nat) :
    ∑ j ∈ Finset.range i, digitZ X b j * 2 ^ (j * b) =
      (X % 2 ^ (i * b) : Nat) - (carryZ X b i : Int) * 2 ^ (i * b) := by
  induction i with
  | zero => simp [carryZ, Nat.mod_one]
  | succ i ih =>
    rw [Finset.sum_range_succ, ih]
    have e : X % 2 ^ ((i + 1) * b) = X % 2 ^ (i * b) + 2 ^ (i * b) * (X / 2 ^ (i * b) % 2 ^ b) := by
      rw [Nat.add_mul, one_mul, pow_add, Nat.mod_mul]
    rw [e]
    unfold digitZ
    have e2 : (2 : Int) ^ ((i + 1) * b) = 2 ^ (i * b) * 2 ^ b := by rw [Nat.add_mul, one_mul, pow_add]
    rw [e2]
    push_cast
    ring

theorem digit_range (X b i : Nat) (hb : 1 ≤ b) :
    (-2 ^ (b - 1) ≤ digitZ X b i ∧ digitZ X b i < 2 ^ (b - 1)) ∨ digitZ X b i = 2 ^ b := by
  obtain ⟨b', rfl⟩ : ∃ k, b = k + 1 := ⟨b - 1, by omega⟩
  have hcl := carryZ_le X (b' + 1) i
  have hdig : X / 2 ^ (i * (b' + 1)) % 2 ^ (b' + 1) < 2 ^ (b' + 1) := Nat.mod_lt _ (by positivity)
  unfold digitZ
  simp only [carryZ, Nat.add_sub_cancel]
  set u := X / 2 ^ (i * (b' + 1)) % 2 ^ (b' + 1) + carryZ X (b' + 1) i
  have hps : (2 : Nat) ^ (b' + 1) = 2 ^ b' * 2 := pow_succ 2 b'
  have hpz : (2 : Int) ^ (b' + 1) = ((2 ^ b' * 2 : Nat) : Int) := by push_cast; rw [pow_succ]
  have hpz' : (2 : Int) ^ b' = ((2 ^ b' : Nat) : Int) := by push_cast; rfl
  rw [hpz, hpz']
  rw [hps] at hdig ⊢
  generalize 2 ^ b' = P at *
  split
  · left; push_cast; omega
  · push_cast; omega

/-- The part of `x` that truncation to the `L` most significant digits drops. -/
def lowPart (x : W) (b L : Nat) : Int :=
  (x.toNat % 2 ^ (32 - L * b) : Nat) - (carryZ x.toNat b (32 / b - L) : Int) * 2 ^ (32 - L * b)

theorem signed_recompose (x : W) (b L : Nat) (hb : 1 ≤ b) (hb2 : b ≤ 31) (hd : b ∣ 32)
    (hL : L * b ≤ 32) :
    ∑ l : Fin L, signedDecomposition x b L 32 l * 2 ^ (32 - (1 + l.val) * b) =
      x - BitVec.ofInt 32 (lowPart x b L) := by
  obtain ⟨K, hK⟩ := hd
  have hKd : 32 / b = K := by rw [hK]; exact Nat.mul_div_cancel_left _ (by omega)
  have hLK : L ≤ K := by
    by_contra h
    have : (K + 1) * b ≤ L * b := Nat.mul_le_mul_right b (by omega)
    rw [Nat.add_mul, one_mul, Nat.mul_comm] at this; omega
  have key : ∑ l : Fin L, signedDecomposition x b L 32 l * 2 ^ (32 - (1 + l.val) * b) =
      (((∑ j ∈ Finset.range K, digitZ x.toNat b j * 2 ^ (j * b)) -
        ∑ j ∈ Finset.range (K - L), digitZ x.toNat b j * 2 ^ (j * b) : Int) : W) := by
    have hsub : (∑ j ∈ Finset.range K, digitZ x.toNat b j * 2 ^ (j * b)) -
        ∑ j ∈ Finset.range (K - L), digitZ x.toNat b j * 2 ^ (j * b) =
        ∑ l ∈ Finset.range L, digitZ x.toNat b (K - 1 - l) * 2 ^ ((K - 1 - l) * b) := by
      have hKL : K = (K - L) + L := by omega
      conv_lhs => rw [hKL]
      rw [Finset.sum_range_add]
      simp only [Nat.add_sub_cancel]
      rw [add_sub_cancel_left, ← Finset.sum_range_reflect]
      apply Finset.sum_congr rfl
      intro j hj
      have hj' : j < L := by simpa using hj
      have : K - L + (L - 1 - j) = K - 1 - j := by omega
      rw [this]
    rw [hsub, ← Fin.sum_univ_eq_sum_range (fun l => digitZ x.toNat b (K - 1 - l) * 2 ^ ((K - 1 - l) * b))]
    rw [Int.cast_sum]
    apply Finset.sum_congr rfl
    intro l _
    have hl : l.val < L := l.isLt
    have e1 : 32 - (1 + l.val) * b = (K - 1 - l.val) * b := by
      have : 32 = ((K - 1 - l.val) + (1 + l.val)) * b := by
        rw [hK, Nat.mul_comm]; congr 1; omega
      rw [Nat.add_mul] at this; omega
    rw [e1]
    unfold signedDecomposition
    rw [hKd, signedResult_eq x b _ hb hb2, ofInt_eq_cast]
    simp only [Int.cast_mul, Int.cast_pow, Int.cast_ofNat]
  rw [key, digit_sum, digit_sum]
  have hKb : K * b = 32 := by rw [Nat.mul_comm]; exact hK.symm
  have hmb : (K - L) * b = 32 - L * b := by rw [Nat.sub_mul, hKb]
  rw [hKb, hmb, Nat.mod_eq_of_lt x.isLt]
  unfold lowPart
  rw [hKd, ofInt_eq_cast]
  have h32 : ((2 : W)) ^ 32 = 0 := by decide
  simp only [Int.cast_sub, Int.cast_natCast, Int.cast_mul, Int.cast_pow, Int.cast_ofNat]
  rw [h32, cast_toNat]
  ring

theorem lowPart_bound (x : W) (b L : Nat) :
    -2 ^ (32 - L * b) ≤ lowPart x b L ∧ lowPart x b L < 2 ^ (32 - L * b) := by
  have hc := carryZ_le x.toNat b (32 / b - L)
  have hm : x.toNat % 2 ^ (32 - L * b) < 2 ^ (32 - L * b) := Nat.mod_lt _ (by positivity)
  unfold lowPart
  have e : (2 : Int) ^ (32 - L * b) = ((2 ^ (32 - L * b) : Nat) : Int) := by push_cast; rfl
  rw [e]
  set P := 2 ^ (32 - L * b)
  have h0 : carryZ x.toNat b (32 / b - L) = 0 ∨ carryZ x.toNat b (32 / b - L) = 1 := by omega
  rcases h0 with h | h <;> rw [h] <;> push_cast <;> omega

theorem lowPart_full (x : W) (b L : Nat) (hb : 1 ≤ b) (h : L * b = 32) : lowPart x b L = 0 := by
  have : 32 / b - L = 0 := by rw [← h, Nat.mul_div_cancel _ (by omega)]; omega
  unfold lowPart
  rw [this, h]
  simp [carryZ, Nat.mod_one]

end Verif.Decomposition
